import Verif.Model.Collect
import Verif.Model.TestLoad

/-!
# Running tests with launch_pytest

launch_pytest/launch_pytest/plugin.py:78-134, 312-505 and fixture.py:30-36: the tests of one launch fixture.

The launch service is abstracted to whether it runs or is over.  It makes progress only while the event loop is driven: while a test runs or while it is
waited for.  What test code does and when a launch ends by itself is given.
-/

namespace Verif

/-- `get_ready_to_test_action`, plugin.py:78-94: the ReadyToTest action with the callback; one that is appended has the number `fresh`. -/
def pyReady (ents : List TestEntity) (fresh : Nat) : Res (Nat × List TestEntity) :=
  match TestEntity.readiesAll ents with
  | [] => .ok (fresh, ents ++ [.ready fresh])
  | [id] => .ok (id, ents)
  | _ => .error .runtimeError

/-- The stage of a launch in which a part of a test belongs: while it is running or after its shutdown. -/
inductive PyStage where
  | active
  | after
  deriving DecidableEq, Repr

/-- What the code of a part of a test does. -/
inductive PyBody where
  | returns
  | raises
  | yields
  deriving DecidableEq, Repr

/-- A collected test, plugin.py:137-251. -/
inductive PyItem where
  /-- a function or a coroutine function, with the argument `shutdown` of its marker -/
  | test (i : Nat) (shutdown : Bool)
  /-- a generator function or an async generator function: up to `yield` -/
  | first (i : Nat) (isAsync : Bool)
  /-- the item that is added for the part after `yield` -/
  | second (i : Nat)
  /-- a generator function or an async generator function, and the fixture's scope is 'function': both parts -/
  | both (i : Nat) (isAsync : Bool)
  /-- a generator function or an async generator function that is marked with `shutdown=True` (one item or two) -/
  | wrong (i : Nat)
  deriving DecidableEq, Repr

namespace PyItem

/-- The test function. -/
def num : PyItem → Nat
  | test i _ => i
  | first i _ => i
  | second i => i
  | both i _ => i
  | wrong i => i

/-- `_launch_pytest_is_shutdown`, plugin.py:198, 240-247. -/
def isShutdown : PyItem → Bool
  | test _ sd => sd
  | first _ _ => false
  | second _ => true
  | both _ _ => false
  | wrong _ => true

/-- The item as Model/Collect.lean has it. -/
def collected (fixture : Nat) (params : Option Nat) (x : PyItem) : TestItem :=
  { id := x.num, mark := some (some fixture), shutdown := x.isShutdown, params }

end PyItem

/-- How a test is reported. -/
inductive PyEnd where
  | passed
  | failed
  | skipped
  /-- another fixture of the test could not be set up -/
  | error
  deriving DecidableEq, Repr

/-- What is not under the control of the plugin. -/
structure PyEnv where
  /-- does the launch execute the ReadyToTest action? -/
  ready : Bool
  /-- the code of the tests -/
  body : Nat → PyStage → PyBody
  /-- the launch ends by itself while this part of a test runs, with this return code -/
  ends : Nat → PyStage → Option Int
  /-- the return code of the launch after it is asked to shut down (with `auto_shutdown=False`: when it is waited for); `none` if it does not end -/
  finish : Option Int
  /-- the other fixtures of the test fail -/
  setupFails : PyItem → Bool
  /-- Python is older than 3.12: StopIteration from an executor is not passed on to an asyncio future, which is never done -/
  old : Bool

/-- `launch_service.task` and `event_loop`. -/
inductive PySvc where
  | running
  | over (rc : Int)
  deriving DecidableEq, Repr

/-- What can be observed. -/
inductive PyObs where
  /-- the code of this test begins -/
  | began (i : Nat) (st : PyStage)
  /-- the launch is asked to shut down (with `auto_shutdown=False` it is only waited for) -/
  | asked
  /-- the launch is over -/
  | ended (rc : Int)
  deriving DecidableEq, Repr

structure PyState where
  svc : PySvc := .running
  /-- test functions whose second item has got the function `shutdown`, plugin.py:343-348, 353-358 -/
  wrapped : List Nat := []
  /-- those whose generator was kept: `gen = local_gen`, plugin.py:426, 480 -/
  gens : List Nat := []
  log : List PyObs := []
  reports : List (PyItem × PyEnd) := []
  /-- nothing happens any more -/
  hung : Bool := false

namespace PyState

/-- `finalize_launch_service`, fixture.py:30-36: `true` if no assertion failed.  `event_loop` is None after the run, launch_service.py:221-225. -/
def finalize (env : PyEnv) (s : PyState) : PyState × Bool :=
  match s.svc with
  | .over _ => (s, true)
  | .running =>
    match env.finish with
    | none => ({ s with log := s.log ++ [.asked], hung := true }, true)
    | some rc => ({ s with log := s.log ++ [.asked, .ended rc], svc := .over rc }, rc = 0)

/-- The code of a part of a test runs and the event loop is driven. -/
def begin (env : PyEnv) (s : PyState) (i : Nat) (st : PyStage) : PyState :=
  match s.svc, env.ends i st with
  | .running, some rc => { s with log := s.log ++ [.began i st, .ended rc], svc := .over rc }
  | _, _ => { s with log := s.log ++ [.began i st] }

/-- The outcome of a test. -/
def report (s : PyState) (x : PyItem) (e : PyEnd) : PyState := { s with reports := s.reports ++ [(x, e)] }

/-- The part after `yield`, plugin.py:408-416, 438-446, 459-469, 493-503: `on_shutdown`, then the rest of the generator has to return. -/
def rest (env : PyEnv) (s : PyState) (x : PyItem) (i : Nat) : PyState :=
  let r := s.finalize env
  if r.1.hung then r.1
  else if r.2 then (r.1.begin env i .after).report x (if env.body i .after = .returns then .passed else .failed)
  else r.1.report x .failed

/-- `pytest_pyfunc_call` (plugin.py:312-363) with the call of the function it sets (plugin.py:366-505). -/
def call (env : PyEnv) (s : PyState) : PyItem → PyState
  | .wrong i => s.report (.wrong i) .failed
  | .test i false => (s.begin env i .active).report (.test i false) (if env.body i .active = .raises then .failed else .passed)
  | .test i true =>
    let r := s.finalize env
    if r.1.hung then r.1
    else if r.2 then (r.1.begin env i .after).report (.test i true) (if env.body i .after = .raises then .failed else .passed)
    else r.1.report (.test i true) .failed
  | .first i a =>
    let s := ({ s with wrapped := i :: s.wrapped }).begin env i .active
    match env.body i .active with
    | .yields => ({ s with gens := i :: s.gens }).report (.first i a) .passed
    | .raises => s.report (.first i a) .failed
    | .returns => if !a && env.old then { s with hung := true } else s.report (.first i a) .failed
  | .second i =>
    -- AttributeError at plugin.py:343 or 353
    if !s.wrapped.contains i then s.report (.second i) .failed
    else if !s.gens.contains i then s.report (.second i) .skipped
    else s.rest env (.second i) i
  | .both i a =>
    let s := s.begin env i .active
    match env.body i .active with
    | .yields => s.rest env (.both i a) i
    | .raises => s.report (.both i a) .failed
    | .returns => if !a && env.old then { s with hung := true } else s.report (.both i a) .failed

/-- A test is run: pytest's runner. -/
def item (env : PyEnv) (s : PyState) (x : PyItem) : PyState :=
  if s.hung then s else if env.setupFails x then s.report x .error else s.call env x

end PyState

/-- The launch fixture is set up (`pytest_fixture_setup`, plugin.py:97-134), the tests are run and the fixture is finalized: the state, and whether the
finalizer's assertion held.  If the launch is over or idle without ReadyToTest having been executed, `event.wait()` is waited for nevertheless. -/
def pyRun (env : PyEnv) (items : List PyItem) : PyState × Bool :=
  if env.ready then
    let s := items.foldl (PyState.item env) {}
    if s.hung then (s, true) else s.finalize env
  else ({ hung := true }, true)

end Verif
