/-!
# KeyboardInterrupt in `LaunchService.run`

launch/launch/launch_service.py, `run_async` (lines 262-363) and `run` (lines 365-385), as far as exceptions are concerned: what is done about the exceptions of the
tasks and futures that were waited for, about exceptions raised in the loop itself, and about KeyboardInterrupt, which leaves the event loop when it is raised in any
task or callback.

What the tasks do is not modelled here (see Model/Service.lean): whether the service is idle and how tasks end are parts of the labels.
-/

namespace Verif

/-- How a task or future that was waited for has ended. -/
inductive TaskEnd where
  | ok
  | cancelled
  | interrupt
  | failed (msg : String)
  deriving DecidableEq, Repr

/-- What is raised in the `try` block, lines 281-343. -/
inductive LoopExc where
  | interrupt
  | cancelled
  | failed (msg : String)
  deriving DecidableEq, Repr

/-- The loop over the completed tasks, launch_service.py:328-343: `task.exception()` raises CancelledError for a cancelled task, the first exception is
raised after the loop, the others are logged.  `completed_tasks` is a set: the list is in the order of iteration. -/
def propagate : List TaskEnd → Option LoopExc → List TaskEnd → Option LoopExc × List TaskEnd
  | [], e, log => (e, log)
  | .ok :: ts, e, log => propagate ts e log
  | .cancelled :: _, _, log => (some .cancelled, log)
  | .interrupt :: ts, none, log => propagate ts (some .interrupt) log
  | .failed m :: ts, none, log => propagate ts (some (.failed m)) log
  | t :: ts, some e, log => propagate ts (some e) (log ++ [t])

/-- Where the coroutine `run_async` is. -/
inductive AsyncPc where
  | looping
  | returned
  /-- ended with KeyboardInterrupt -/
  | raised
  deriving DecidableEq, Repr

/-- The state of a run: `__shutting_down`, the reasons of the Shutdown events it emitted, `return_code`, the errors logged by line 340. -/
structure AsyncRun where
  shutting : Bool := false
  reasons : List String := []
  code : Nat := 0
  logged : List TaskEnd := []
  pc : AsyncPc := .looping
  deriving DecidableEq, Repr

/-- What can happen in the loop of `run_async`. -/
inductive AsyncLabel where
  /-- an iteration begins and the service is idle -/
  | idle
  /-- `asyncio.wait` returns -/
  | completed (ts : List TaskEnd)
  /-- an exception is raised within the `try` block -/
  | raise (e : LoopExc)
  /-- `asyncio.wait` returns, and KeyboardInterrupt is raised while the shutdown is requested -/
  | completedThenInterrupt (ts : List TaskEnd)
  /-- the event loop calls its exception handler -/
  | loopError
  /-- somebody calls `shutdown` -/
  | shutdownCall
  /-- a Shutdown event is handled -/
  | shutdownEvent
  deriving DecidableEq, Repr

namespace AsyncRun

/-- `_shutdown`, launch_service.py:392-414: an event is emitted unless there was a request already. -/
def request (a : AsyncRun) (reason : String) : AsyncRun :=
  { a with shutting := true, reasons := if a.shutting then a.reasons else a.reasons ++ [reason] }

/-- Reason given for a failure, launch_service.py:352. -/
def failureReason (m : String) : String := "Caught exception in launch (see debug for traceback): " ++ m

/-- The `except` clauses, launch_service.py:345-362. -/
def caught (a : AsyncRun) : LoopExc → AsyncRun
  | .interrupt => a
  | .cancelled => { a with code := 1, pc := .returned }
  | .failed m => { a.request (failureReason m) with code := 1 }

/-- `asyncio.wait` has returned, launch_service.py:323-362. -/
def completed (a : AsyncRun) (ts : List TaskEnd) : AsyncRun :=
  match propagate ts none a.logged with
  | (none, log) => { a with logged := log }
  | (some e, log) => ({ a with logged := log } : AsyncRun).caught e

/-- One step; nothing happens after the end.  Lines 286-307 for an idle service, lines 274-277 for the exception handler, lines 428-431 for
`shutdown`, lines 387-390 for the handler of Shutdown events. -/
def step (whenIdle : Bool) (a : AsyncRun) (l : AsyncLabel) : AsyncRun :=
  if a.pc ≠ .looping then a
  else match l with
    | .idle => if !a.shutting && whenIdle then a.request "idle" else if a.shutting then { a with pc := .returned } else a
    | .completed ts => a.completed ts
    | .raise e => a.caught e
    | .completedThenInterrupt ts =>
      match propagate ts none a.logged with
      -- line 356 is not protected against exceptions
      | (some (.failed m), log) => { ({ a with logged := log } : AsyncRun).request (failureReason m) with pc := .raised }
      | _ => a.completed ts
    | .loopError => { a with code := 1 }
    | .shutdownCall => a.request "LaunchService.shutdown() called"
    | .shutdownEvent => { a with shutting := true }

end AsyncRun

/-- What can happen in `run`, launch_service.py:365-385. -/
inductive MainLabel where
  /-- a step of the coroutine -/
  | inner (l : AsyncLabel)
  /-- KeyboardInterrupt leaves `run_until_complete`, line 383: line 385 -/
  | interrupted
  /-- `run_until_complete` returns -/
  | finish
  deriving DecidableEq, Repr

/-- The state of `run`. -/
structure MainRun where
  task : AsyncRun := {}
  result : Option Nat := none
  deriving DecidableEq, Repr

namespace MainRun

/-- One step.  If the coroutine has ended with KeyboardInterrupt, `run_until_complete` raises it and is called again, for a task that is done: then the callback that
would stop the event loop does nothing (asyncio/base_events.py, `_run_until_complete_cb`), so `finish` has no effect. -/
def step (whenIdle : Bool) (r : MainRun) (l : MainLabel) : MainRun :=
  if r.result.isSome then r
  else match l with
    | .inner l => { r with task := r.task.step whenIdle l }
    | .interrupted => r
    | .finish => if r.task.pc = .returned then { r with result := some r.task.code } else r

/-- A call of `run`. -/
def run (whenIdle : Bool) (h : List MainLabel) : MainRun := h.foldl (step whenIdle) {}

end MainRun
end Verif
