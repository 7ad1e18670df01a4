import Verif.Model.Frontend
import Verif.Py.Dict

/-!
# Loading launch tests

launch_testing/launch_testing/loader.py, parametrize.py, markers.py:22-27, ready_to_test_action_timeout.py, actions/ready.py and test_runner.py:77-126, 277-311.
-/

namespace Verif

/-! ## Parameters -/

/-- `[x.strip() for x in argnames.split(',') if x.strip()]`, parametrize.py:35. -/
def paramNames (argnames : String) : List String :=
  (((splitSep [','] 0 [] argnames.toList).map stripChars).filter fun x => !x.isEmpty).map String.ofList

/-- One of the values given to `parametrize`. -/
inductive ParamValue (V : Type) where
  | tuple (vs : List V)
  | other (v : V)

/-- `_normalize_to_tuple`, parametrize.py:18-22. -/
def ParamValue.toTuple {V : Type} : ParamValue V → List V
  | .tuple vs => vs
  | .other v => [v]

/-- `dict(zip(argnames, val))`, parametrize.py:42. -/
def zipDict {V : Type} : List String → List V → Dict V → Dict V
  | n :: ns, v :: vs, d => zipDict ns vs (d.set n v)
  | _, _, d => d

/-- The parameters of each run, parametrize.py:35-46 and loader.py:180-185. -/
def paramRuns {V : Type} (argnames : String) (argvalues : List (ParamValue V)) : List (Dict V) :=
  argvalues.map fun x => zipDict (paramNames argnames) x.toTuple []

/-- `LaunchTestRunner.validate` for one run, test_runner.py:281-311; `baseArgs` are the arguments of `generate_test_description`, none of which has a
default value; `other 0` is an `Exception`.  (With the first two checks passed, the last one, lines 307-311, passes as well.) -/
def validateRun {V : Type} (baseArgs : List String) (params : Dict V) : Res Unit :=
  if params.keys.any (fun a => !baseArgs.contains a) then .error (.other 0)
  else if baseArgs.any (fun a => !params.keys.contains a) then .error (.other 0)
  else .ok ()

/-- `validate` for all runs, test_runner.py:281. -/
def validateRuns {V : Type} (baseArgs : List String) : List (Dict V) → Res Unit
  | [] => .ok ()
  | p :: ps =>
    match validateRun baseArgs p with
    | .error e => .error e
    | .ok () => validateRuns baseArgs ps

/-! ## Arguments of tests -/

/-- `_partially_bind_matching_args`, loader.py:252-256: what is bound to a function with these parameters. -/
def bindMatching {V : Type} (parameters : List String) (candidates : Dict V) : Dict V :=
  candidates.filter fun p => parameters.contains p.1

/-- The objects made for a run. -/
structure RunObjects (V : Type) where
  launchService : V
  procInfo : V
  procOutput : V
  /-- `proc_info._proc_info_handler` and `proc_output._io_handler` -/
  finalProcInfo : V
  finalProcOutput : V
  testArgs : V

/-- `injected_args` of the tests of the active processes, test_runner.py:84, 99-108. -/
def activeArgs {V : Type} (o : RunObjects V) (testContext params : Dict V) : Dict V :=
  (testContext.update params).update
    [("launch_service", o.launchService), ("proc_info", o.procInfo), ("proc_output", o.procOutput), ("test_args", o.testArgs)]

/-- `injected_args` of the tests after shutdown, test_runner.py:84, 117-125. -/
def shutdownArgs {V : Type} (o : RunObjects V) (testContext params : Dict V) : Dict V :=
  (testContext.update params).update [("proc_info", o.finalProcInfo), ("proc_output", o.finalProcOutput), ("test_args", o.testArgs)]

/-! ## Test classes -/

/-- What `loadTestsFromModule` of the two loaders gives for the test classes of a module, loader.py:188-213; `post` tells which are marked with
`post_shutdown_test`.  A test is a class and a method. -/
def loadTests (post : Nat → Bool) (loadPost : Bool) (classes : List (Nat × List String)) : List (Nat × String) :=
  classes.flatMap fun c => if post c.1 = loadPost then c.2.map fun m => (c.1, m) else []

/-! ## Decorators of `generate_test_description` -/

/-- A decorator. -/
inductive Deco where
  /-- markers.py:22-27 -/
  | keepAlive
  /-- ready_to_test_action_timeout.py -/
  | timeout (t : Nat)
  /-- parametrize.py:25-55 -/
  | parametrize
  deriving DecidableEq, Repr

/-- Attributes of a function object. -/
structure FnAttrs where
  /-- the dictionary `__markers__`: a reference, copied by `functools.wraps` -/
  markers : Option Nat := none
  timeout : Option Nat := none
  deriving DecidableEq, Repr

/-- The functions while decorators are applied: what the name is bound to, the function that runs are made from, if the former is the result of
`parametrize`, and the `keep_alive` entry of each dictionary `__markers__`. -/
structure DecoState where
  outer : FnAttrs := {}
  inner : Option FnAttrs := none
  keepAlive : List Bool := []
  deriving DecidableEq, Repr

/-- Applying one decorator. -/
def DecoState.apply (s : DecoState) : Deco → DecoState
  | .keepAlive =>
    match s.outer.markers with
    | some r => { s with keepAlive := s.keepAlive.set r true }
    | none => { s with outer := { s.outer with markers := some s.keepAlive.length }, keepAlive := s.keepAlive ++ [true] }
  | .timeout t => { s with outer := { s.outer with timeout := some t } }
  -- `functools.wraps(func)` copies the attributes, lines 39 and 49-51; the partial objects get those of `func`, line 45.  A second `parametrize` is not
  -- possible: calling its partial object raises a TypeError; the model then keeps the first one.
  | .parametrize =>
    match s.inner with
    | some _ => s
    | none => { s with inner := some s.outer }

/-- The decorators, the one closest to the function first. -/
def decorate (ds : List Deco) : DecoState := ds.foldl DecoState.apply {}

/-- The attributes that a run sees, loader.py:171-185: those of the function, or of the partial object made from it. -/
def DecoState.runAttrs (s : DecoState) : FnAttrs := s.inner.getD s.outer

/-- `run.markers.get('keep_alive', False)`, loader.py:86-87, 122-124, test_runner.py:163. -/
def DecoState.runKeepAlive (s : DecoState) : Bool :=
  match s.runAttrs.markers with
  | some r => s.keepAlive.getD r false
  | none => false

/-- `run.timeout`, loader.py:96-101. -/
def DecoState.runTimeout (s : DecoState) : Nat := s.runAttrs.timeout.getD 15

/-! ## ReadyToTest -/

/-- A launch description, as far as finding ReadyToTest actions depends on it. -/
inductive TestEntity where
  /-- a ReadyToTest action; the number is the object -/
  | ready (id : Nat)
  /-- an entity with sub-entities that it describes.  `cond`: they are visited only if this is the case: a condition, or an event for which the entity
  registers a handler -/
  | node (cond : Option Nat) (subs : List TestEntity)
  /-- an entity that has sub-entities visited without describing them, such as an OpaqueFunction -/
  | opaque (subs : List TestEntity)

mutual

/-- `iterate_ready_to_test_actions`, loader.py:51-62: what it yields for an entity. -/
def TestEntity.readies : TestEntity → List Nat
  | .ready id => [id]
  | .node _ subs => TestEntity.readiesAll subs
  | .opaque _ => []

/-- For a list of entities. -/
def TestEntity.readiesAll : List TestEntity → List Nat
  | [] => []
  | e :: es => e.readies ++ TestEntity.readiesAll es

end

mutual

/-- The ReadyToTest actions that are executed, if `holds` tells which conditions hold and which events come. -/
def TestEntity.executed (holds : Nat → Bool) : TestEntity → List Nat
  | .ready id => [id]
  | .node (some c) subs => if holds c then TestEntity.executedAll holds subs else []
  | .node none subs => TestEntity.executedAll holds subs
  | .opaque subs => TestEntity.executedAll holds subs

/-- For a list of entities. -/
def TestEntity.executedAll (holds : Nat → Bool) : List TestEntity → List Nat
  | [] => []
  | e :: es => e.executed holds ++ TestEntity.executedAll holds es

end

/-- The action that is given the callback, loader.py:64-71; `other 0` is an `Exception`. -/
def wiredReady (ents : List TestEntity) : Res Nat :=
  match TestEntity.readiesAll ents with
  | id :: _ => .ok id
  | [] => .error (.other 0)

/-- Is the runner told to start the tests?  actions/ready.py:37-43: each executed action calls its callbacks. -/
def signalled (holds : Nat → Bool) (ents : List TestEntity) : Res Bool :=
  match wiredReady ents with
  | .ok id => .ok ((TestEntity.executedAll holds ents).contains id)
  | .error e => .error e

end Verif
