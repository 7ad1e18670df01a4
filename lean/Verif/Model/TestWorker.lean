import Verif.Model.TestResult
import Verif.Py.Dict

/-!
# Running one launch with its tests

launch_testing/launch_testing/test_runner.py:37-203, `_RunnerWorker`: the launch service runs in the main thread, the tests of the active processes
in another thread, and the tests after shutdown in the main thread again.  A state and the steps both threads can make, in any order.

The launch service is modelled as far as the worker depends on it: it is `running` from the point on where `shutdown()` has an effect
(launch_service.py:178) until this ends (launch_service.py:225), and it may end for various reasons.  `LaunchService.run` itself is modelled in
Model/Service.lean.
-/

namespace Verif

/-- Why the launch service ends. -/
inductive StopReason where
  /-- nothing left to do; only with `shutdown_when_idle`, launch_service.py:293-298 -/
  | idle
  /-- SIGINT or SIGTERM -/
  | signal
  /-- an exception in the launch -/
  | fault
  /-- a Shutdown event emitted by the launch itself -/
  | event
  /-- `shutdown()` was called by the test thread -/
  | asked
  deriving DecidableEq, Repr

/-- Where the main thread is. -/
inductive MainPc where
  /-- before `self._test_tr.start()`, line 159 -/
  | setup
  /-- before the launch service runs -/
  | started
  /-- in `self._launch_service.run()`, line 162 -/
  | launching
  /-- the service no longer runs, line 166 is next -/
  | returned
  /-- running the tests after shutdown, lines 175-178 -/
  | testing
  /-- `run` has ended -/
  | ended (e : WorkerEnd)

/-- Where the test thread is. -/
inductive ThreadPc where
  | notStarted
  /-- line 188 -/
  | waiting
  /-- the wait timed out; line 191 is next -/
  | timedOut
  /-- running the tests, lines 196-199 -/
  | testing
  /-- all tests have run and `self._results` is set, or an exception left the test runner; line 202 is next -/
  | finishing
  /-- line 203 is next -/
  | completing
  | ended
  deriving DecidableEq, Repr

/-- The state. -/
structure Worker where
  /-- the `keep_alive` marker, line 163 -/
  keepAlive : Bool
  /-- numbers of tests -/
  numPre : Nat
  numPost : Nat
  main : MainPc := .setup
  thread : ThreadPc := .notStarted
  /-- `_processes_launched` -/
  launched : Bool := false
  /-- `_tests_completed` -/
  completed : Bool := false
  /-- was `shutdown()` called while the service was running? -/
  asked : Bool := false
  /-- the calls on the result of the tests so far, one list for each test that was run -/
  pre : List (List ResultCall) := []
  post : List (List ResultCall) := []
  /-- `self._results`, if the attribute exists -/
  results : Option CaseResult := none
  /-- `proc_info`: for each process the exit code of its last event, or `none` if this is a ProcessStarted event.  (Processes are named: the names that
  ExecuteLocal gives them differ.) -/
  procs : Dict (Option Int) := []
  /-- `proc_output`: what was written, by which process -/
  output : List (String × List UInt8) := []

/-- What happens. -/
inductive WorkerStep where
  /-- line 159 -/
  | startThread
  /-- the service starts running -/
  | launch
  /-- the callback of the ReadyToTest action is called, line 78 -/
  | ready
  /-- a ProcessStarted event is handled, lines 132-139 -/
  | procStart (p : String)
  /-- a ProcessExited event is handled, lines 140-142 -/
  | procExit (p : String) (returncode : Int)
  /-- a ProcessIO event is handled, lines 143-148 -/
  | procOutput (p : String) (text : List UInt8)
  /-- the service ends -/
  | stop (why : StopReason)
  /-- lines 166-173 -/
  | look
  /-- one of the tests after shutdown is run -/
  | postTest (cs : List ResultCall)
  /-- lines 180-182 -/
  | merge
  /-- line 188: the wait ends because the event is set -/
  | wake
  /-- line 188: the wait times out -/
  | timeout
  /-- line 191 -/
  | giveUp
  /-- one of the tests of the active processes is run -/
  | preTest (cs : List ResultCall)
  /-- lines 196-199: the runner returns -/
  | keep
  /-- an exception leaves the runner: a KeyboardInterrupt raised in a test, which unittest does not catch -/
  | interrupt
  /-- line 202 -/
  | complete
  /-- line 203 -/
  | shutdown
  deriving DecidableEq, Repr

namespace Worker

/-- Is the launch service running? -/
def running (s : Worker) : Bool :=
  match s.main with
  | .launching => true
  | _ => false

/-- `self._launch_service.shutdown()` in the test thread, launch_service.py:428-434: does nothing if the service is not running. -/
def callShutdown (s : Worker) : Worker := if s.running then { s with asked := true } else s

/-- The exception that leaves `_print_process_output_summary`, test_runner.py:205-216: ProcessStarted events have no `returncode`, line 206, and output
need not be ASCII, line 213; a UnicodeDecodeError is a ValueError. -/
def summaryError (procs : Dict (Option Int)) (output : List (String × List UInt8)) : Option Err :=
  if procs.any (fun p => p.2.isNone) then some .attributeError
  else if procs.any (fun p => decide (p.2 ≠ some 0) && output.any (fun o => decide (o.1 = p.1) && o.2.any (fun b => decide (128 ≤ b)))) then some .valueError
  else none

/-- How `run` ends if the tests are not completed, lines 166-173. -/
def diedEnd (s : Worker) : WorkerEnd :=
  match summaryError s.procs s.output with
  | some e => .raised e
  | none => .died

/-- One step; `none` if it is not possible. -/
def step (s : Worker) : WorkerStep → Option Worker
  | .startThread =>
    match s.main with
    | .setup => some { s with main := .started, thread := .waiting }
    | _ => none
  | .launch =>
    match s.main with
    | .started => some { s with main := .launching }
    | _ => none
  | .ready => if s.running then some { s with launched := true } else none
  | .procStart p => if s.running then some { s with procs := s.procs.set p none } else none
  | .procExit p rc => if s.running then some { s with procs := s.procs.set p (some rc) } else none
  | .procOutput p text => if s.running then some { s with output := s.output ++ [(p, text)] } else none
  | .stop why =>
    match s.main with
    | .launching =>
      if (why = .idle ∧ s.keepAlive = true) ∨ (why = .asked ∧ s.asked = false) then none else some { s with main := .returned }
    | _ => none
  | .look =>
    match s.main with
    | .returned => some { s with main := if s.completed then .testing else .ended s.diedEnd }
    | _ => none
  | .postTest cs =>
    match s.main with
    | .testing => if s.post.length < s.numPost then some { s with post := s.post ++ [cs] } else none
    | _ => none
  | .merge =>
    match s.main with
    | .testing =>
      if s.post.length < s.numPost then none
      else
        match s.results with
        | some r =>
          some { s with main := .ended (.results (r.append (({} : CaseResult).calls s.post.flatten)))
                        results := some (r.append (({} : CaseResult).calls s.post.flatten)) }
        | none => some { s with main := .ended (.raised .attributeError) }
    | _ => none
  | .wake => if s.thread = .waiting ∧ s.launched then some { s with thread := .testing } else none
  | .timeout => if s.thread = .waiting ∧ !s.launched then some { s with thread := .timedOut } else none
  | .giveUp => if s.thread = .timedOut then some { s.callShutdown with thread := .ended } else none
  | .preTest cs => if s.thread = .testing ∧ s.pre.length < s.numPre then some { s with pre := s.pre ++ [cs] } else none
  | .keep =>
    if s.thread = .testing ∧ s.pre.length = s.numPre then
      some { s with thread := .finishing, results := some (({} : CaseResult).calls s.pre.flatten) }
    else none
  | .interrupt => if s.thread = .testing then some { s with thread := .finishing } else none
  | .complete => if s.thread = .finishing then some { s with thread := .completing, completed := true } else none
  | .shutdown => if s.thread = .completing then some { s.callShutdown with thread := .ended } else none

/-- A new worker, test_runner.py:39-68. -/
def init (keepAlive : Bool) (numPre numPost : Nat) : Worker := { keepAlive, numPre, numPost }

/-- The state after these steps, if they are possible. -/
def run (s : Worker) : List WorkerStep → Option Worker
  | [] => some s
  | a :: as =>
    match s.step a with
    | some s' => run s' as
    | none => none

end Worker

end Verif
