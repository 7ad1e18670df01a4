import Verif.Model.Frontend
import Verif.Model.Typed
import Verif.Model.Cond
import Verif.Model.Executable

/-!
# Parsing of actions in launch files

The `parse` methods of launch/launch/actions/*.py, launch/launch/frontend/expose.py and `Parser.parse_description`.
-/

namespace Verif

/-! ## Parse methods as programs that read an entity -/

/-- A piece of a parse method: it reads an entity, whose record of reads it updates. -/
abbrev P (α : Type) := Ent → Reads → Reads × Res α

namespace P

def pure {α : Type} (a : α) : P α := fun _ r => (r, .ok a)
def raise {α : Type} (e : Err) : P α := fun _ r => (r, .error e)
def lift {α : Type} (x : Res α) : P α := fun _ r => (r, x)

/-- Sequential composition, stopping at an exception. -/
def bind {α β : Type} (m : P α) (f : α → P β) : P β := fun e r =>
  match m e r with
  | (r', .ok a) => f a e r'
  | (r', .error x) => (r', .error x)

end P

/-- `entity.get_attr(name, data_type=ty, optional=…, can_be_str=True)` for a data type; `none` is the result None. -/
def attrVal (O : Oracle) (name : String) (ty : DataTy) (optional : Bool) : P (Option PyVal) := fun e r =>
  match e.getAttr O r name (.value (some ty)) optional true with
  | (r', .ok (.value v)) => (r', .ok (some v))
  | (r', .ok _) => (r', .ok none)
  | (r', .error x) => (r', .error x)

/-- `entity.get_attr(name, optional=True)`: a text or None. -/
def attrText? (O : Oracle) (name : String) : P (Option String) :=
  P.bind (attrVal O name (.scalar .str) true) fun v =>
    match v with
    | some (.str s) => P.pure (some s)
    | some _ => P.raise .typeError
    | none => P.pure none

/-- `entity.get_attr(name)`: a text. -/
def attrText (O : Oracle) (name : String) : P String :=
  P.bind (attrVal O name (.scalar .str) false) fun v =>
    match v with
    | some (.str s) => P.pure s
    | _ => P.raise .typeError

/-- `entity.get_attr(name, data_type=List[Entity], optional=True)`. -/
def attrEnts? (O : Oracle) (name : String) : P (Option (List Ent)) := fun e r =>
  match e.getAttr O r name .entities true true with
  | (r', .ok (.ents l)) => (r', .ok (some l))
  | (r', .ok _) => (r', .ok none)
  | (r', .error x) => (r', .error x)

/-- `entity.children` -/
def entChildren : P (List Ent) := fun e r => e.children r

/-- What a program gives on an entity that was not read before. -/
def onFresh {α : Type} (m : P α) (e : Ent) : Reads × Res α := m e {}

/-- `functools.wraps`-wrapper of expose.py:104-109: run the parse method, then require that everything was read. -/
def checked {α : Type} (m : P α) (e : Ent) : Res α :=
  match onFresh m e with
  | (r, .ok a) =>
    match e.assertParsed r with
    | .ok () => .ok a
    | .error x => .error x
  | (_, .error x) => .error x

/-! ## Parsed actions -/

/-- Result of `parse_if_substitutions` on a scalar: the value itself, or substitutions. -/
inductive IfSub where
  | val (v : PyVal)
  | subs (l : List Sub)
  deriving Repr

mutual
/-- What parse methods yield: the action class with its keyword arguments. -/
inductive PAct where
  | mk (cond : Option Cond) (kind : PKind)

/-- The keyword arguments of the actions exposed to frontends. -/
inductive PKind where
  | letLC (name value : List Sub)
  | arg (name : String) (default : Option (List Sub)) (description : Option String) (choices : Option (List String))
  | group (isScoped forwarding : Option PyVal) (keeps : Option (List (List Sub × List Sub))) (actions : List PAct)
  | includeFile (file : List Sub) (args : Option (List (List Sub × List Sub)))
  | setEnv (name value : List Sub)
  | unsetEnv (name : List Sub)
  | appendEnv (name value : List Sub) (prepend : Option TVal) (separator : Option (List Sub))
  | resetEnv
  | resetLC (keeps : Option (List (List Sub × List Sub)))
  | log (message : List Sub)
  | shutdown (reason : Option (List Sub))
  | timer (period : TVal) (actions : List PAct) (cancelOnShutdown : Option TVal)
  | executable (x : ExecArgs)

/-- The keyword arguments of ExecuteProcess, execute_process.py:304-417. -/
inductive ExecArgs where
  | mk (cmd : List (List Sub)) (cwd name : Option (List Sub)) (shutdownOnExit : Bool) (pre output respawn : Option (List Sub))
    (maxRetries delay sigkill sigterm shell emulateTty : Option PyVal) (env : Option (List (List Sub × List Sub)))
end

/-- What the parse methods use of the parser and of Python: `parse_substitution` (the grammar is not modelled), and `x < 0.0` for floats. -/
structure Front where
  subst : String → Res (List Sub)
  negative : Flt → Bool
  /-- `float(text)` is also used for literal periods (timer_action.py:75-76) -/
  O : Oracle

/-- `Action.parse`, launch/launch/action.py:53-78. -/
def parseBase (F : Front) : P (Option Cond) :=
  P.bind (attrText? F.O "if") fun i =>
  P.bind (attrText? F.O "unless") fun u =>
    match i, u with
    | some _, some _ => P.raise .runtimeError
    | some i, none => P.bind (P.lift (F.subst i)) fun s => P.pure (some (.ifC s))
    | none, some u => P.bind (P.lift (F.subst u)) fun s => P.pure (some (.unlessC s))
    | none, none => P.pure none

/-- `parser.parse_substitution(entity.get_attr(name))` -/
def attrSubs (F : Front) (name : String) : P (List Sub) := P.bind (attrText F.O name) fun s => P.lift (F.subst s)

/-- The same for an optional attribute. -/
def attrSubs? (F : Front) (name : String) : P (Option (List Sub)) :=
  P.bind (attrText? F.O name) fun v =>
    match v with
    | some s => P.bind (P.lift (F.subst s)) fun l => P.pure (some l)
    | none => P.pure none

/-- `parser.escape_characters(text)` -/
def unescapeText (s : String) : String := String.ofList (unescape s.toList)

/-- A nested entity with `name` and `value`: reset_launch_configurations.py:68-70, group_action.py:101-103, include_launch_description.py:94-97,
execute_process.py:411-414. -/
def parsePair (F : Front) : P (List Sub × List Sub) :=
  P.bind (attrSubs F "name") fun n => P.bind (attrSubs F "value") fun v => P.pure (n, v)

/-- Read one nested entity; the entity with its record of reads is kept for the check. -/
def readPair (F : Front) (e : Ent) : Res (Ent × Reads × (List Sub × List Sub)) :=
  match onFresh (parsePair F) e with
  | (r, .ok p) => .ok (e, r, p)
  | (_, .error x) => .error x

/-- Read each nested entity, then require that each was completely read: e.g. group_action.py:100-105. -/
def parsePairs (F : Front) (es : List Ent) : Res (List (List Sub × List Sub)) :=
  match mapRes (readPair F) es with
  | .error x => .error x
  | .ok l =>
    match mapRes (fun q => Ent.assertParsed q.1 q.2.1) l with
    | .error x => .error x
    | .ok _ => .ok (l.map (·.2.2))

/-- An optional list of nested entities with `name` and `value`. -/
def attrPairs? (F : Front) (name : String) : P (Option (List (List Sub × List Sub))) :=
  P.bind (attrEnts? F.O name) fun es =>
    match es with
    | none => P.pure none
    | some l => P.bind (P.lift (parsePairs F l)) fun ps => P.pure (some ps)

/-- `parse_if_substitutions` on a scalar, launch/launch/frontend/parse_substitution.py:114-146. -/
def parseIfSubs (F : Front) : PyVal → Res IfSub
  | .str s =>
    match F.subst s with
    | .ok [.text t] => .ok (.val (.str t))
    | .ok l => .ok (.subs l)
    | .error e => .error e
  | v => .ok (.val v)

/-- The object given to `normalize_typed_substitution`. -/
def IfSub.toTVal : IfSub → TVal
  | .val v => TVal.ofScalar v
  | .subs l => .seq (l.map .sub)

/-- A value or substitution of a scalar type, normalised by the constructor: append_environment_variable.py:67, timer_action.py:81, 88-89. -/
def typedArg (F : Front) (v : PyVal) (t : ScalarTy) : Res TVal :=
  match parseIfSubs F v with
  | .error e => .error e
  | .ok i => normalizeTyped F.O i.toTVal (some (.scalar t))

/-- The period of a timer: texts are converted by `float` first (timer_action.py:73-81; a ValueError if that fails). -/
def periodArg (F : Front) (v : PyVal) : Res TVal :=
  match parseIfSubs F v with
  | .error e => .error e
  | .ok (.val (.str s)) =>
    match F.O.parseFloat s with
    | some f => .ok (.float f)
    | none => .error .valueError
  | .ok i => normalizeTyped F.O i.toTVal (some (.scalar .float))

/-- The choices of an argument, declare_launch_argument.py:177-181. -/
def parseChoice (F : Front) : P String := P.bind (attrText F.O "value") fun s => P.pure (unescapeText s)

/-- All choices; nothing requires that they were completely read. -/
def parseChoices (F : Front) (es : List Ent) : Res (List String) := mapRes (fun e => (onFresh (parseChoice F) e).2) es

/-- The optional choices, declare_launch_argument.py:176-181. -/
def attrChoices? (F : Front) : P (Option (List String)) :=
  P.bind (attrEnts? F.O "choice") fun cs =>
    match cs with
    | none => P.pure none
    | some l => P.bind (P.lift (parseChoices F l)) fun ch => P.pure (some ch)

/-- `DeclareLaunchArgument.parse` and the part of the constructor that raises, declare_launch_argument.py:120-130, 161-182. -/
def parseArg (F : Front) : P PKind :=
  P.bind (attrText F.O "name") fun n =>
  P.bind (attrSubs? F "default") fun d =>
  P.bind (attrText? F.O "description") fun desc =>
  P.bind (attrChoices? F) fun cs => P.pure (.arg (unescapeText n) d (desc.map unescapeText) cs)

/-- `AppendEnvironmentVariable.parse`, append_environment_variable.py:70-87. -/
def parseAppend (F : Front) : P PKind :=
  P.bind (attrSubs F "name") fun n =>
  P.bind (attrSubs F "value") fun v =>
  P.bind (attrVal F.O "prepend" (.scalar .bool) true) fun p =>
  P.bind (P.lift (match p with
    | none => .ok none
    | some x => match typedArg F x .bool with
      | .ok t => .ok (some t)
      | .error e => .error e)) fun p =>
  P.bind (attrSubs? F "separator") fun s => P.pure (.appendEnv n v p s)

/-- Pieces of a command line: texts, and other substitutions by their position. -/
def toPieces : List Sub → Nat → List Piece
  | [], _ => []
  | .text s :: l, k => .text s.toList :: toPieces l (k + 1)
  | _ :: l, k => .sub k :: toPieces l (k + 1)

/-- Back to substitutions. -/
def fromPiece (l : List Sub) : Piece → Sub
  | .text s => .text (String.ofList s)
  | .sub k => l.getD k (.text "")

/-- `_parse_cmdline`, execute_process.py:243-301. -/
def cmdSubs (F : Front) (s : String) : Res (List (List Sub)) :=
  match F.subst s with
  | .error e => .error e
  | .ok l =>
    match parseCmdline (toPieces l 0) with
    | none => .error .valueError
    | some args => .ok (args.map (·.map (fromPiece l)))

/-- `x < 0.0` at execute_process.py:363, 372, 381; TypeError for texts. -/
def checkNonNeg (F : Front) : Option PyVal → Res (Option PyVal)
  | none => .ok none
  | some (.float f) => if F.negative f then .error .valueError else .ok (some (.float f))
  | some (.str _) => .error .typeError
  | some v => .ok (some v)

/-- `on_exit`, execute_process.py:334-342. -/
def checkOnExit : Option String → Res Bool
  | none => .ok false
  | some s => if s = "shutdown" then .ok true else .error .valueError

/-- `ExecuteProcess.parse`, execute_process.py:303-417. -/
def parseExec (F : Front) : P PKind :=
  P.bind (attrText F.O "cmd") fun cmd =>
  P.bind (P.lift (cmdSubs F cmd)) fun cmd =>
  P.bind (attrSubs? F "cwd") fun cwd =>
  P.bind (attrSubs? F "name") fun name =>
  P.bind (attrText? F.O "on_exit") fun oe =>
  P.bind (P.lift (checkOnExit oe)) fun oe =>
  P.bind (attrSubs? F "launch-prefix") fun pre =>
  P.bind (attrSubs? F "output") fun output =>
  P.bind (attrSubs? F "respawn") fun respawn =>
  P.bind (attrVal F.O "respawn_max_retries" (.scalar .int) true) fun retries =>
  P.bind (attrVal F.O "respawn_delay" (.scalar .float) true) fun delay =>
  P.bind (P.lift (checkNonNeg F delay)) fun delay =>
  P.bind (attrVal F.O "sigkill_timeout" (.scalar .float) true) fun sk =>
  P.bind (P.lift (checkNonNeg F sk)) fun sk =>
  P.bind (attrVal F.O "sigterm_timeout" (.scalar .float) true) fun st =>
  P.bind (P.lift (checkNonNeg F st)) fun st =>
  P.bind (attrVal F.O "shell" (.scalar .bool) true) fun shell =>
  P.bind (attrVal F.O "emulate_tty" (.scalar .bool) true) fun tty =>
  P.bind (attrPairs? F "env") fun env =>
    P.pure (.executable (.mk cmd cwd name oe pre output respawn retries delay sk st shell tty env))

/-- `GroupAction.parse` but for the nested actions, which `rec` parses: group_action.py:88-108. -/
def parseGroup (F : Front) (rec : List Ent → Res (List PAct)) : P PKind :=
  P.bind (attrVal F.O "scoped" (.scalar .bool) true) fun s =>
  P.bind (attrVal F.O "forwarding" (.scalar .bool) true) fun f =>
  P.bind (attrPairs? F "keep") fun keeps =>
  P.bind entChildren fun cs =>
  P.bind (P.lift (rec (cs.filter (fun e => e.typeName ≠ "keep")))) fun acts => P.pure (.group s f keeps acts)

/-- `TimerAction.parse`, timer_action.py:103-119. -/
def parseTimer (F : Front) (rec : List Ent → Res (List PAct)) : P PKind :=
  P.bind (attrVal F.O "period" (.scalar .float) false) fun p =>
  P.bind (P.lift (match p with
    | some v => periodArg F v
    | none => .error .typeError)) fun p =>
  P.bind entChildren fun cs =>
  P.bind (P.lift (rec cs)) fun acts =>
  P.bind (attrVal F.O "cancel_on_shutdown" (.scalar .bool) true) fun c =>
  P.bind (P.lift (match c with
    | none => .ok none
    | some v => match typedArg F v .bool with
      | .ok t => .ok (some t)
      | .error e => .error e)) fun c => P.pure (.timer p acts c)

/-- The registered parse methods by tag, after `Action.parse`; `none`: not registered (expose.py:41-42). -/
def parseKind (F : Front) (rec : List Ent → Res (List PAct)) (tag : String) : Option (P PKind) :=
  if tag = "let" then some (P.bind (attrSubs F "name") fun n => P.bind (attrSubs F "value") fun v => P.pure (.letLC n v))
  else if tag = "arg" then some (parseArg F)
  else if tag = "group" then some (parseGroup F rec)
  else if tag = "include" then some (P.bind (attrSubs F "file") fun f => P.bind (attrPairs? F "arg") fun as => P.pure (.includeFile f as))
  else if tag = "set_env" then some (P.bind (attrSubs F "name") fun n => P.bind (attrSubs F "value") fun v => P.pure (.setEnv n v))
  else if tag = "unset_env" then some (P.bind (attrSubs F "name") fun n => P.pure (.unsetEnv n))
  else if tag = "append_env" then some (parseAppend F)
  else if tag = "reset_env" then some (P.pure .resetEnv)
  else if tag = "reset" then some (P.bind (attrPairs? F "keep") fun k => P.pure (.resetLC k))
  else if tag = "log" then some (P.bind (attrSubs F "message") fun m => P.pure (.log m))
  else if tag = "shutdown" then some (P.bind (attrText? F.O "reason") fun x =>
    match x with
    | none => P.pure (.shutdown none)
    | some "" => P.pure (.shutdown none)
    | some s => P.bind (P.lift (F.subst s)) fun l => P.pure (.shutdown (some l)))
  else if tag = "timer" then some (parseTimer F rec)
  else if tag = "executable" then some (parseExec F)
  else none

/-- The parse method with `Action.parse`.  (`let` reads its own attributes before those of Action; the others after.  The order of reads only matters for
which of several errors is reported and is taken to be the same here.) -/
def parseMethod (F : Front) (rec : List Ent → Res (List PAct)) (tag : String) : Option (P PAct) :=
  match parseKind F rec tag with
  | none => none
  | some k => some (P.bind (parseBase F) fun c => P.bind k fun x => P.pure (.mk c x))

/-- `instantiate_action`, expose.py:37-43; `fuel` bounds the depth of nesting (Python's recursion limit). -/
def parseAction (F : Front) : Nat → Ent → Res PAct
  | 0, _ => .error .runtimeError
  | fuel + 1, e =>
    match parseMethod F (mapRes (parseAction F fuel)) e.typeName with
    | none => .error .runtimeError
    | some m => checked m e

/-- A parsed launch description: the deprecation reason and the actions. -/
structure PDesc where
  deprecated : Option String
  actions : List PAct

/-- `Parser.parse_description`, launch/launch/frontend/parser.py:128-136. -/
def parseDescription (F : Front) (fuel : Nat) (e : Ent) : Res PDesc :=
  if e.typeName ≠ "launch" then .error .runtimeError
  else
    match onFresh (P.bind (attrText? F.O "deprecated") fun d => P.bind entChildren fun cs => P.pure (d, cs)) e with
    | (_, .error x) => .error x
    | (_, .ok (d, cs)) =>
      match mapRes (parseAction F fuel) cs with
      | .error x => .error x
      | .ok l => .ok ⟨d, l⟩

end Verif
