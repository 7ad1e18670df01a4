import Verif.Model.Context
import Verif.Model.Coerce
import Verif.Py.Shlex

/-!
# Substitutions

launch/launch/substitutions/*.py, as a deep embedding: `Sub` is the syntax of substitutions after
their constructors normalised the arguments (`normalize_to_list_of_substitutions`), `perform` is
`Substitution.perform`.
-/

namespace Verif

/-- Code run with a context: it may change the context and raise. The changes made before an
exception persist, as in Python. -/
abbrev M (α : Type) := Ctx → Ctx × Res α

namespace M

/-- no effect -/
def pure {α : Type} (a : α) : M α := fun c => (c, .ok a)

/-- `raise` -/
def raise {α : Type} (e : Err) : M α := fun c => (c, .error e)

/-- sequencing; an exception skips the rest -/
def bind {α β : Type} (m : M α) (f : α → M β) : M β := fun c =>
  match m c with
  | (c', .error e) => (c', .error e)
  | (c', .ok a) => f a c'

/-- lift a pure result -/
def lift {α : Type} (r : Res α) : M α := fun c => (c, r)

end M

/-- Substitutions. -/
inductive Sub where
  /-- substitutions/text_substitution.py -/
  | text (s : String)
  /-- substitutions/launch_configuration.py -/
  | launchConfig (name : List Sub) (default : Option (List Sub))
  /-- substitutions/environment_variable.py -/
  | envVar (name : List Sub) (default : Option (List Sub))
  /-- substitutions/anon_name.py -/
  | anonName (name : List Sub)
  /-- substitutions/boolean_substitution.py -/
  | notS (value : List Sub)
  | andS (left right : List Sub)
  | orS (left right : List Sub)
  | anyS (args : List (List Sub))
  | allS (args : List (List Sub))
  /-- substitutions/equals_substitution.py -/
  | equals (left right : List Sub)
  /-- substitutions/not_equals_substitution.py -/
  | notEquals (left right : List Sub)
  /-- substitutions/if_else_substitution.py -/
  | ifElse (cond ifValue elseValue : List Sub)
  /-- substitutions/path_join_substitution.py -/
  | pathJoin (parts : List Sub)
  /-- substitutions/local_substitution.py -/
  | localVar (expression : String)
  /-- substitutions/python_expression.py -/
  | pyExpr (expression : List Sub) (modules : List Sub)
  /-- substitutions/command.py -/
  | command (cmd onStderr : List Sub)
  /-- substitutions/find_executable.py -/
  | findExec (name : List Sub)
  /-- substitutions/file_content.py -/
  | fileContent (path : List Sub)
  /-- substitutions/this_launch_file.py -/
  | thisLaunchFile
  /-- substitutions/this_launch_file_dir.py -/
  | thisLaunchFileDir
  /-- substitutions/launch_log_dir.py -/
  | launchLogDir
  deriving Repr, Inhabited

/-- `''.join(parts)`. -/
def joinStrs : List String → String
  | [] => ""
  | s :: ss => s ++ joinStrs ss

/-- `os.path.join(a, b)` on POSIX (CPython posixpath.join). -/
def joinPath2 (a b : String) : String :=
  if b.toList.head? = some '/' then b
  else if a = "" ∨ a.toList.getLast? = some '/' then a ++ b
  else a ++ "/" ++ b

/-- `os.path.join(*parts)`; with no argument it raises `TypeError`. -/
def pathJoin : List String → Res String
  | [] => .error .typeError
  | p :: ps => .ok (ps.foldl joinPath2 p)

/-- `except (TypeError, ValueError) as e: raise SubstitutionFailure(e)`,
boolean_substitution.py:59-62 and alike. -/
def wrapTypeValue {α : Type} (m : M α) : M α := fun c =>
  match m c with
  | (c', .error .typeError) => (c', .error .substitutionFailure)
  | (c', .error .valueError) => (c', .error .substitutionFailure)
  | r => r

/-- `perform_typed_substitution(context, value, bool)` for a list of substitutions, given how to perform
them: type_utils.py:555-568 (an empty list is not a normalized substitution, 515-519). -/
def typedBool (O : Oracle) (isEmpty : Bool) (m : M String) : M Bool :=
  if isEmpty then M.raise .valueError
  else M.bind m fun s =>
    match coerceToType O s (some (.scalar .bool)) with
    | .error e => M.raise e
    | .ok (.bool b) => M.pure b
    | .ok _ => M.raise .valueError

/-- `_str_is_bool`, equals_substitution.py:36-41. -/
def strIsBool (s : String) : Bool :=
  lowerStr s == "true".toList || lowerStr s == "false".toList ||
  lowerStr s == "1".toList || lowerStr s == "0".toList

/-- `s.lower() in ('true', '1')`, equals_substitution.py:124. -/
def strIsTrue (s : String) : Bool := lowerStr s == "true".toList || lowerStr s == "1".toList

/-- The comparison of `EqualsSubstitution.perform`, equals_substitution.py:122-130. -/
def equalsTexts (O : Oracle) (left right : String) : Bool :=
  if strIsBool left && strIsBool right then strIsTrue left == strIsTrue right
  else match O.parseFloat left, O.parseFloat right with
    | some a, some b => O.isClose a b
    | _, _ => left == right

/-- `ThisLaunchFile.perform` / `ThisLaunchFileDir.perform`, this_launch_file.py:46-59,
this_launch_file_dir.py:46-59.  (A local that is not a string cannot be set by the library; it is
treated like a missing one.) -/
def readLocalStr (name : String) : M String := fun c =>
  match (c.locals.getCombined.1).get? name with
  | some (.str s) => (c, .ok s)
  | _ => (c, .error .substitutionFailure)

/-- `shlex.split` as used by command.py:96-97 (POSIX). -/
def splitCommand (cmd : String) : Res (List String) :=
  match Shlex.split cmd.toList with
  | none => .error .valueError
  | some ws => .ok (ws.map String.ofList)

/-- `Command.perform` after both texts are known, command.py:100-131. -/
def runCommand (O : Oracle) (cmd : List String) (onStderr : String) : Res String :=
  if onStderr = "fail" ∨ onStderr = "ignore" ∨ onStderr = "warn" ∨ onStderr = "capture" then
    match O.run cmd (onStderr = "capture") with
    | .error e => .error e
    | .ok .fileNotFound => .error .substitutionFailure
    | .ok (.raised e) => .error e
    | .ok (.done rc out err) =>
      if rc ≠ 0 then .error .substitutionFailure
      else if err ≠ "" ∧ onStderr = "fail" then .error .substitutionFailure
      else .ok out
  else .error .substitutionFailure

mutual

/-- `Substitution.perform`.  Line references at each case. -/
def perform (O : Oracle) : Sub → M String
  -- text_substitution.py: returns the text
  | .text s => M.pure s
  -- launch_configuration.py:87-102
  | .launchConfig name default =>
    M.bind (performAll O name) fun ns => fun c =>
      match c.lc.get? (joinStrs ns) with
      | some v => (c, .ok v)
      | none =>
        M.bind (performOpt O default) (fun d =>
          match d with
          | some v => M.pure v
          | none => M.raise .substitutionFailure) c
  -- environment_variable.py:88-103: the default is performed first
  | .envVar name default =>
    M.bind (performOpt O default) fun d =>
    M.bind (performAll O name) fun ns => fun c =>
      match c.env.get? (joinStrs ns) with
      | some v => (c, .ok v)
      | none =>
        match d with
        | some v => (c, .ok v)
        | none => (c, .error .substitutionFailure)
  -- anon_name.py:59-67
  | .anonName name =>
    M.bind (performAll O name) fun ns => fun c =>
      let key := "anon" ++ joinStrs ns
      match c.lc.get? key with
      | some v => (c, .ok v)
      | none =>
        let v := O.anonName c.rng (joinStrs ns)
        ({ c with lc := c.lc.set key v, rng := c.rng + 1 }, .ok v)
  -- boolean_substitution.py:57-64
  | .notS value =>
    M.bind (wrapTypeValue (typedBool O value.isEmpty
      (M.bind (performAll O value) fun l => M.pure (joinStrs l)))) fun b =>
    M.pure (boolText (!b))
  -- boolean_substitution.py:99-110: both operands are always performed
  | .andS left right =>
    M.bind (wrapTypeValue (typedBool O left.isEmpty
      (M.bind (performAll O left) fun l => M.pure (joinStrs l)))) fun l =>
    M.bind (wrapTypeValue (typedBool O right.isEmpty
      (M.bind (performAll O right) fun l => M.pure (joinStrs l)))) fun r =>
    M.pure (boolText (l && r))
  -- boolean_substitution.py:145-156
  | .orS left right =>
    M.bind (wrapTypeValue (typedBool O left.isEmpty
      (M.bind (performAll O left) fun l => M.pure (joinStrs l)))) fun l =>
    M.bind (wrapTypeValue (typedBool O right.isEmpty
      (M.bind (performAll O right) fun l => M.pure (joinStrs l)))) fun r =>
    M.pure (boolText (l || r))
  -- boolean_substitution.py:191-201: all arguments are performed before `any`
  | .anyS args => M.bind (performBools O args) fun bs => M.pure (boolText (bs.any id))
  -- boolean_substitution.py:237-247
  | .allS args => M.bind (performBools O args) fun bs => M.pure (boolText (bs.all id))
  -- equals_substitution.py:117-130
  | .equals left right =>
    M.bind (performAll O left) fun l =>
    M.bind (performAll O right) fun r =>
    M.pure (boolText (equalsTexts O (joinStrs l) (joinStrs r)))
  -- not_equals_substitution.py:48-50
  | .notEquals left right =>
    M.bind (performAll O left) fun l =>
    M.bind (performAll O right) fun r =>
    M.pure (boolText (!(boolText (equalsTexts O (joinStrs l) (joinStrs r)) == "true")))
  -- if_else_substitution.py:107-117
  | .ifElse cond ifValue elseValue =>
    M.bind (wrapTypeValue (typedBool O cond.isEmpty
      (M.bind (performAll O cond) fun l => M.pure (joinStrs l)))) fun b =>
    if b then M.bind (performAll O ifValue) fun l => M.pure (joinStrs l)
    else M.bind (performAll O elseValue) fun l => M.pure (joinStrs l)
  -- path_join_substitution.py:43-46
  | .pathJoin parts => M.bind (performAll O parts) fun l => M.lift (Verif.pathJoin l)
  -- local_substitution.py:52-54
  | .localVar expression => fun c => (c, O.localEval c.locals.getCombined.1 expression)
  -- python_expression.py:104-118: modules first
  | .pyExpr expression modules =>
    M.bind (performAll O modules) fun ms =>
    M.bind (performAll O expression) fun l => M.lift (O.pyEval ms (joinStrs l))
  -- command.py:92-131: the command is split before `on_stderr` is performed
  | .command cmd onStderr =>
    M.bind (performAll O cmd) fun l =>
    M.bind (M.lift (splitCommand (joinStrs l))) fun ws =>
    M.bind (performAll O onStderr) fun r => M.lift (runCommand O ws (joinStrs r))
  -- find_executable.py:61-67
  | .findExec name =>
    M.bind (performAll O name) fun l => fun c =>
      match O.which c.env (joinStrs l) with
      | some p => (c, .ok p)
      | none => (c, .error .substitutionFailure)
  -- file_content.py:61-69
  | .fileContent path =>
    M.bind (performAll O path) fun l =>
      match O.readFile (joinStrs l) with
      | .error .fileNotFound => M.raise .substitutionFailure
      | r => M.lift r
  | .thisLaunchFile => readLocalStr "current_launch_file_path"
  | .thisLaunchFileDir => readLocalStr "current_launch_file_directory"
  -- launch_log_dir.py: returns the logging directory
  | .launchLogDir => M.pure O.logDir

/-- `[context.perform_substitution(sub) for sub in subs]`,
utilities/perform_substitutions_impl.py:26. -/
def performAll (O : Oracle) : List Sub → M (List String)
  | [] => M.pure []
  | s :: ss =>
    M.bind (perform O s) fun x =>
    M.bind (performAll O ss) fun xs => M.pure (x :: xs)

/-- Perform an optional default: `none` when there is no default. -/
def performOpt (O : Oracle) : Option (List Sub) → M (Option String)
  | none => M.pure none
  | some ss => M.bind (performAll O ss) fun l => M.pure (some (joinStrs l))

/-- The loop of Any/AllSubstitution.perform, boolean_substitution.py:193-199, 239-245. -/
def performBools (O : Oracle) : List (List Sub) → M (List Bool)
  | [] => M.pure []
  | a :: as =>
    M.bind (wrapTypeValue (typedBool O a.isEmpty
      (M.bind (performAll O a) fun l => M.pure (joinStrs l)))) fun b =>
    M.bind (performBools O as) fun bs => M.pure (b :: bs)

end

/-- `perform_substitutions(context, subs)`, utilities/perform_substitutions_impl.py:24-26. -/
def performSubs (O : Oracle) (subs : List Sub) : M String :=
  M.bind (performAll O subs) fun l => M.pure (joinStrs l)

end Verif
