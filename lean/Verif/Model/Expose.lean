import Verif.Py.Value
import Verif.Py.Dict

/-!
# What names in launch files mean: exposed parsing methods, extensions and parser implementations

launch/launch/frontend/expose.py and launch/launch/frontend/parser.py:74-107.
-/

namespace Verif

/-- A parsing method: a function, or a class method bound to a class.  Bound methods are equal if class and function
are. -/
inductive ParseMethod where
  | fn (f : Nat)
  | bound (cls f : Nat)
  deriving DecidableEq, Repr

/-- What is decorated: a class, with the function of its attribute `parse` if that is a class method
(`inspect.ismethod`, expose.py:83), a function, or anything else. -/
inductive Exposed where
  | cls (c : Nat) (parse : Option Nat)
  | function (f : Nat)
  | other
  deriving DecidableEq, Repr

inductive ExposeKind where
  | action
  | substitution
  deriving DecidableEq, Repr

/-- What is stored for a name: the method, or the wrapper of the method of an action, which checks that the entity
was parsed completely (expose.py:104-110).  The wrapper is a new function: it is equal to no method that is
exposed.  (That somebody exposes a wrapper again is not modelled.) -/
inductive StoredMethod where
  | plain (m : ParseMethod)
  | checked (m : ParseMethod)
  deriving DecidableEq, Repr

/-- The dictionaries of expose.py:33-34. -/
structure ParseMethods where
  actions : Dict StoredMethod := []
  substitutions : Dict StoredMethod := []

/-- The dictionary for actions or for substitutions. -/
def ParseMethods.map (r : ParseMethods) : ExposeKind → Dict StoredMethod
  | .action => r.actions
  | .substitution => r.substitutions

/-- `found_parse_method`, expose.py:81-95: RuntimeError if there is none. -/
def Exposed.method : Exposed → Res ParseMethod
  | .cls c (some f) => .ok (.bound c f)
  | .cls _ none => .error .runtimeError
  | .function f => .ok (.fn f)
  | .other => .error .runtimeError

/-- What is stored: expose.py:103-112. -/
def ExposeKind.store : ExposeKind → ParseMethod → StoredMethod
  | .action, m => .checked m
  | .substitution, m => .plain m

/-- `parse_methods_map[name] = …`. -/
def ParseMethods.put (r : ParseMethods) (kind : ExposeKind) (name : String) (m : StoredMethod) : ParseMethods :=
  match kind with
  | .action => { r with actions := r.actions.set name m }
  | .substitution => { r with substitutions := r.substitutions.set name m }

/-- The decorator returned by `expose_action(name)` and `expose_substitution(name)`, expose.py:80-114: a name that has
another method already is refused; the comparison of line 96 is with what is stored. -/
def ParseMethods.expose (r : ParseMethods) (kind : ExposeKind) (name : String) (x : Exposed) : ParseMethods × Res Unit :=
  match x.method with
  | .error e => (r, .error e)
  | .ok m =>
    match (r.map kind).get? name with
    | none => (r.put kind name (kind.store m), .ok ())
    | some old => if StoredMethod.plain m ≠ old then (r, .error .runtimeError) else (r.put kind name (kind.store m), .ok ())

/-- One use of a decorator. -/
structure Exposure where
  kind : ExposeKind
  name : String
  what : Exposed
  deriving DecidableEq, Repr

/-- A module that exposes things when it is imported: it ends early when something is refused, and may raise an exception
of its own at the end (an exception raised earlier is a shorter module). -/
structure Extension where
  name : String
  exposures : List Exposure
  fails : Bool := false
  deriving DecidableEq, Repr

/-- Importing a module. -/
def ParseMethods.exposeAll (r : ParseMethods) : List Exposure → ParseMethods × Res Unit
  | [] => (r, .ok ())
  | e :: es =>
    match r.expose e.kind e.name e.what with
    | (r1, .error err) => (r1, .error err)
    | (r1, .ok ()) => r1.exposeAll es

/-- `entry_point.load()` of an extension; `true` if an exception was raised. -/
def ParseMethods.loadOne (r : ParseMethods) (x : Extension) : ParseMethods × Bool :=
  match r.exposeAll x.exposures with
  | (r1, .error _) => (r1, true)
  | (r1, .ok ()) => (r1, x.fails)

/-- The state of the frontend: the parsing methods, `Parser.extensions_loaded`, and the extensions warned about. -/
structure FrontendSt where
  methods : ParseMethods := {}
  loaded : Bool := false
  warned : List String := []

/-- The loop of parser.py:83-88. -/
def FrontendSt.loadEach (s : FrontendSt) : List Extension → FrontendSt
  | [] => s
  | x :: xs =>
    match s.methods.loadOne x with
    | (r, failed) => { s with methods := r, warned := if failed then s.warned ++ [x.name] else s.warned }.loadEach xs

/-- `Parser.load_launch_extensions`, parser.py:74-89, for the entry points installed. -/
def FrontendSt.loadExtensions (s : FrontendSt) (installed : List Extension) : FrontendSt :=
  if s.loaded then s else { s.loadEach installed with loaded := true }

/-- What can happen to the state: somebody uses a decorator, an action is parsed (`Parser.parse_action`,
parser.py:109-112, which loads the extensions first; expose.py:37-42), a substitution is parsed
(`Parser.parse_substitution`, expose.py:45-55, which does not). -/
inductive FrontendOp where
  | expose (e : Exposure)
  | parseAction (name : String)
  | parseSubstitution (name : String)
  deriving DecidableEq, Repr

/-- What a step answers: for the parsing of something the method called, or RuntimeError for an unknown name. -/
def FrontendSt.step (installed : List Extension) (s : FrontendSt) : FrontendOp → FrontendSt × Res (Option ParseMethod)
  | .expose e =>
    match s.methods.expose e.kind e.name e.what with
    | (r, .error err) => ({ s with methods := r }, .error err)
    | (r, .ok ()) => ({ s with methods := r }, .ok none)
  | .parseAction n =>
    let s1 := s.loadExtensions installed
    match s1.methods.actions.get? n with
    | none => (s1, .error .runtimeError)
    | some (.plain m) | some (.checked m) => (s1, .ok (some m))
  | .parseSubstitution n =>
    match s.methods.substitutions.get? n with
    | none => (s, .error .runtimeError)
    | some (.plain m) | some (.checked m) => (s, .ok (some m))

/-- A history of steps. -/
def FrontendSt.run (installed : List Extension) (s : FrontendSt) : List FrontendOp → FrontendSt
  | [] => s
  | op :: ops => (s.step installed op).1.run installed ops

/-! ## Parser implementations -/

/-- `sorted(parsers.items())`, parser.py:107, for distinct names: insertion by the name.  (Names are compared by code
points.) -/
def insertByName {α : Type} (x : String × α) : List (String × α) → List (String × α)
  | [] => [x]
  | y :: ys => if x.1 < y.1 then x :: y :: ys else y :: insertByName x ys

def sortByName {α : Type} (l : List (String × α)) : List (String × α) := l.foldr insertByName []

/-- `Parser.load_parser_implementations`, parser.py:91-107: an entry point is its name and its class, or `none` if
loading it raises. -/
def loadParsers {α : Type} (entryPoints : List (String × Option α)) : Dict α :=
  sortByName (entryPoints.foldl (fun (d : Dict α) e => match e.2 with
    | some p => d.set e.1 p
    | none => d) [])

end Verif
