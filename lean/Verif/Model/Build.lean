import Verif.Model.Parse
import Verif.Model.Visit

/-!
# From parsed launch files to actions

`parse_action` returns `cls(**kwargs)` (launch/launch/frontend/expose.py:37-43): the objects that the constructors of the actions make from the arguments that
the parse methods collected.
-/

namespace Verif

/-- Truth of a Python value, `if self.__scoped:` and `if self.__forwarding:` (group_action.py:117-118); both are True by default (lines 74-75).  Only booleans and
texts occur: get_attr checks the type (entity.py of the XML and YAML frontends). -/
def truthOf : Option PyVal → Bool
  | none => true
  | some (.bool b) => b
  | some (.str s) => s != ""
  | some (.int i) => i != 0
  | some _ => true

/-- The argument `prepend` of AppendEnvironmentVariable (append_environment_variable.py:49, 67), False by default. -/
def prependOf : Option TVal → Option (Bool ⊕ List Sub)
  | none => some (.inl false)
  | some (.bool b) => some (.inl b)
  | some t => (normalizedSubs? t).map .inr

/-- What is not fixed by the text of a launch file: which object was made for which tag (`tag`), the reason that a Shutdown event has
(the object given as `reason`, shutdown_action.py:34-35, turned into text), and the actions described by a launch file (`files`: the launch description
that the loaders of AnyLaunchDescriptionSource give for a location). -/
structure Objects where
  tag : ActId → PAct
  reason : Option (List Sub) → String
  files : String → Res (List PAct)
  /-- the code that `P` has for the `execute` methods of timers and processes -/
  code : PKind → Nat

/-- The conditions that `Action.parse` makes, action.py:61-77. -/
inductive FileCond : Option Cond → Prop
  | always : FileCond none
  | ifC {l} : FileCond (some (.ifC l))
  | unlessC {l} : FileCond (some (.unlessC l))

mutual
/-- The action is one that is made for the tag: `cls(**kwargs)`, expose.py:43; the condition is passed on to Action.__init__ (action.py:45-51). -/
inductive Built (P : Prog) (X : Objects) : PAct → Entity → Prop
  | mk {i c k kind} : FileCond c → X.tag (.user i) = .mk c k → BuiltKind P X i k kind → Built P X (.mk c k) (.act (.user i) c kind)

/-- What the constructors make of their arguments.  The launch description source of the action with number `i` has number `i`. -/
inductive BuiltKind (P : Prog) (X : Objects) : Nat → PKind → ActKind → Prop
  /-- set_launch_configuration.py:37-45 -/
  | letLC {i n v} : BuiltKind P X i (.letLC n v) (.setLC n v)
  /-- declare_launch_argument.py:106-159 -/
  | arg {i name d desc ch} : BuiltKind P X i (.arg name d desc ch) (.declareArg name d ch)
  /-- group_action.py:70-86 -/
  | group {i s f k as es} : BuiltAll P X as es → BuiltKind P X i (.group s f k as) (.group (truthOf s) (truthOf f) (k.getD []) es)
  /-- include_launch_description.py:67-83 -/
  | includeFile {i file args} : (P.source i).location = file → BuiltKind P X i (.includeFile file args) (.includeLD i (args.getD []))
  /-- set_environment_variable.py:37-45 -/
  | setEnv {i n v} : BuiltKind P X i (.setEnv n v) (.setEnv n v)
  /-- unset_environment_variable.py:34-41 -/
  | unsetEnv {i n} : BuiltKind P X i (.unsetEnv n) (.unsetEnv n)
  /-- append_environment_variable.py:45-68; the default separator is os.pathsep (POSIX) -/
  | appendEnv {i n v p sep b} : prependOf p = some b → BuiltKind P X i (.appendEnv n v p sep) (.appendEnv n v b (sep.getD [.text ":"]))
  /-- reset_environment.py:32-34 -/
  | resetEnv {i} : BuiltKind P X i .resetEnv .resetEnv
  /-- reset_launch_configurations.py:41-52 -/
  | resetLC {i k} : BuiltKind P X i (.resetLC k) (.resetLC k)
  /-- log_info.py:35-43 -/
  | log {i m} : BuiltKind P X i (.log m) (.logInfo m)
  /-- shutdown_action.py:34-35: the reason is not performed -/
  | shutdown {i r} : BuiltKind P X i (.shutdown r) (.emitEvent (.shutdown (X.reason r) false))
  /-- timer_action.py:55-101; what a timer does at once is left to `P` (C30 is about the rest) -/
  | timer {i p as cs ds} : BuiltKind P X i (.timer p as cs) (.custom (X.code (.timer p as cs)) [] ds)
  /-- execute_process.py:228-241; what a process action does at once is left to `P` (C31-C39 are about the rest) -/
  | executable {i x ss ds} : BuiltKind P X i (.executable x) (.custom (X.code (.executable x)) ss ds)

/-- An action for each tag, in order. -/
inductive BuiltAll (P : Prog) (X : Objects) : List PAct → List Entity → Prop
  | nil : BuiltAll P X [] []
  | cons {a as e es} : Built P X a e → BuiltAll P X as es → BuiltAll P X (a :: as) (e :: es)
end

/-- What sources load is made from the tags of the file at the location: launch_description_source.py:76-84, any_launch_file_utilities.py:54-95. -/
def Loads (P : Prog) (X : Objects) : Prop :=
  ∀ i loc es, (P.source i).load loc = .ok es → ∃ as, X.files loc = .ok as ∧ BuiltAll P X as es

end Verif
