import Verif.Model.Subst
import Verif.Model.Frontend
import Verif.Model.Executable

/-!
# Launch description sources

launch/launch/launch_description_source.py and launch/launch/launch_description_sources/.

Launch descriptions are opaque (`D`).  Files change, so each call comes with the result loading a file has then: a `World`.  A launch
file may yield no description at all (`generate_launch_description` may return None, python_launch_file_utilities.py:75).
-/

namespace Verif

/-- What loading the file at a path yields at some time (`_get_launch_description`). -/
abbrev World (D : Type) := String → Res (Option D)

/-- A source, launch_description_source.py:50-54.  Ghost field: `loads`, the loads by `get_launch_description`, with the path. -/
structure SrcSt (D : Type) where
  desc : Option D := none
  expanded : Option String := none
  loc : List Sub
  loads : List (String × Res (Option D)) := []

/-- The second part of `get_launch_description`: load unless there is a description, launch_description_source.py:82-85. -/
def SrcSt.load {D : Type} (w : World D) (s : SrcSt D) (path : String) : SrcSt D × Res (Option D) :=
  match s.desc with
  | some d => (s, .ok (some d))
  | none =>
    match w path with
    | .error e => ({ s with loads := s.loads ++ [(path, .error e)] }, .error e)
    | .ok d => ({ s with desc := d, loads := s.loads ++ [(path, .ok d)] }, .ok d)

/-- `get_launch_description`, launch_description_source.py:77-85. -/
def SrcSt.get {D : Type} (O : Oracle) (w : World D) (s : SrcSt D) (c : Ctx) : SrcSt D × Ctx × Res (Option D) :=
  match s.expanded with
  | some path =>
    let (s1, r) := s.load w path
    (s1, c, r)
  | none =>
    match performSubs O s.loc c with
    | (c1, .error e) => (s, c1, .error e)
    | (c1, .ok path) =>
      let (s1, r) := SrcSt.load w { s with expanded := some path } path
      (s1, c1, r)

/-- `try_get_launch_description_without_context`, launch_description_source.py:56-75; `c0`: the new context. -/
def SrcSt.tryGet {D : Type} (O : Oracle) (w : World D) (s : SrcSt D) (c0 : Ctx) : Option D :=
  match s.desc with
  | some d => some d
  | none =>
    match performSubs O s.loc c0 with
    | (_, .error _) => none
    | (_, .ok path) =>
      match w path with
      | .error _ => none
      | .ok d => d

/-- The property `location`, launch_description_source.py:96-108; `describe`: the description of the substitutions. -/
def SrcSt.location {D : Type} (describe : List Sub → String) (s : SrcSt D) : String :=
  match s.expanded with
  | none => describe s.loc
  | some path => path

/-- A call of one of the methods, at a time with the given oracle and world. -/
inductive SrcOp (D : Type) where
  | get (O : Oracle) (w : World D) (c : Ctx)
  | tryGet (O : Oracle) (w : World D) (c0 : Ctx)
  | location

/-- The source after a call. -/
def SrcSt.step {D : Type} (s : SrcSt D) : SrcOp D → SrcSt D
  | .get O w c => (s.get O w c).1
  | .tryGet _ _ _ => s
  | .location => s

/-- The source after a history of calls. -/
def SrcSt.run {D : Type} (s : SrcSt D) (ops : List (SrcOp D)) : SrcSt D := ops.foldl SrcSt.step s

/-! ## Files of any format -/

/-- How loading a file ends: a description (or None), or InvalidLaunchFileError with the extension and the collected errors. -/
inductive AnyLoad (D : Type) where
  | ok (d : Option D)
  | invalid (extension : String) (errors : List Err)

/-- The loop over the loaders, any_launch_file_utilities.py:57-63. -/
def firstLoad {D : Type} (extension path : String) : List (World D) → List Err → AnyLoad D
  | [], errs => .invalid extension errs
  | l :: ls, errs =>
    match l path with
    | .ok d => .ok d
    | .error e => firstLoad extension path ls (errs ++ [e])

/-- `get_launch_description_from_any_launch_file`, any_launch_file_utilities.py:30-64; `frontend` and `python` are the loaders for frontend
and Python files, `valid` is `Parser.is_filename_valid`. -/
def loadAny {D : Type} (frontend python : World D) (valid : String → Bool) (path : String) : AnyLoad D :=
  let name := basename path
  let extension := extensionOf name
  if extension = "py" then firstLoad extension path [python, frontend] []
  else firstLoad (if valid name then extension else "") path [frontend, python] []

/-- `FrontendLaunchDescriptionSource`, frontend_launch_description_source.py:34-66: the argument `parser` is not used (line 61 stores the
generic parser), so a specific parser, as given by XMLLaunchDescriptionSource and YAMLLaunchDescriptionSource, is not either. -/
def frontendSourceLoad {D : Type} (generic : World D) (_parser : World D) : World D := generic

end Verif
