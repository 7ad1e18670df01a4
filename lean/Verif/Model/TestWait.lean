import Verif.Model.ProcLookup

/-!
# Waiting for events in launch_testing

launch_testing/launch_testing/io_handler.py (ActiveIoHandler), launch_testing/launch_testing/proc_info_handler.py (ActiveProcInfoHandler),
launch_testing/launch_testing/tools/process.py (ProcessProxy).

A test waits with `threading.Condition.wait_for`, in its own thread, while the launch service appends events in another one.  The condition
variables are modelled after threading.py of Python: waiting calls stand in a queue, `notify` wakes the first one, which stays in no
queue until it has evaluated its condition again; a call whose time is over leaves the queue only when it has the lock again, so
that `notify` may pick it.  What is done with the lock held is one step.  Time is discrete.  Simplification: `ActiveIoHandler` and
`ActiveProcInfoHandler` are taken to be those of one test run.
-/

namespace Verif

/-- What the two handlers have recorded. -/
structure Seen where
  info : ProcInfo := []
  io : IoHandler := {}

/-- The condition variables: `proc_event`, proc_info_handler.py:73-81, and `io_event`, io_handler.py:92-100. -/
inductive Cv where
  | procEvent | ioEvent
  deriving DecidableEq, Repr

/-- A call of `append` or `track` of one of the handlers. -/
inductive SeenOp where
  | report (e : ProcReport)
  | io (op : IoOp)

/-- The condition variable notified: proc_info_handler.py:83-86, io_handler.py:102-110. -/
def SeenOp.cv : SeenOp → Cv
  | .report _ => .procEvent
  | .io _ => .ioEvent

/-- What is recorded: proc_info_handler.py:83-86, io_handler.py:102-110. -/
def Seen.put (s : Seen) : SeenOp → Seen
  | .report e => { s with info := s.info.append e }
  | .io op => { s with io := s.io.step op }

/-- A call of `wait_for`: the condition variable, the condition (which may raise), what the condition stores of the output when it is evaluated
(`actual_output`, process.py:80-85; only `ProcessProxy.wait_for_output` does), and the timeout. -/
structure WaitCall where
  cv : Cv
  pred : Seen → Res Bool
  look : Seen → Option (List Char) := fun _ => none
  timeout : Option Nat

/-- The state of a call: not made yet; waiting, with the time at which it is to end, whether it was notified, and the output stored last; ended, with
the result of `wait_for` (or the exception), the output stored last, and the time. -/
inductive CallPhase where
  | idle
  | blocked (deadline : Option Nat) (woken : Bool) (text : Option (List Char))
  | ended (result : Res Bool) (text : Option (List Char)) (time : Nat)

/-- The state of a test run, as far as it matters to waiting calls. -/
structure CvState where
  seen : Seen := {}
  now : Nat := 0
  queue : Cv → List Nat := fun _ => []
  call : Nat → CallPhase := fun _ => .idle

/-- What happens: something is recorded; call number i is made; call number i, notified or too late, gets the lock again; time passes. -/
inductive CvLabel where
  | put (op : SeenOp)
  | call (i : Nat)
  | wake (i : Nat)
  | tick

/-- A call is given a new state. -/
def CvState.setCall (s : CvState) (i : Nat) (p : CallPhase) : CvState := { s with call := fun j => if j = i then p else s.call j }

/-- A queue is replaced. -/
def CvState.setQueue (s : CvState) (v : Cv) (q : List Nat) : CvState := { s with queue := fun w => if w = v then q else s.queue w }

/-- The time is over. -/
def lateAt (deadline : Option Nat) (now : Nat) : Bool :=
  match deadline with
  | some d => decide (d ≤ now)
  | none => false

/-- The condition is evaluated with the lock held, and the call ends or waits (again).  `Condition.wait_for` of Python: an exception ends the call, and so does
True; after False it waits unless it has waited before (`again`) and the time is over. -/
def CvState.evaluate (C : WaitCall) (s : CvState) (i : Nat) (deadline : Option Nat) (again : Bool) (text : Option (List Char)) : CvState :=
  let text := (C.look s.seen).or text
  match C.pred s.seen with
  | .error e => s.setCall i (.ended (.error e) text s.now)
  | .ok true => s.setCall i (.ended (.ok true) text s.now)
  | .ok false =>
    if again && lateAt deadline s.now then s.setCall i (.ended (.ok false) text s.now)
    else (s.setCall i (.blocked deadline false text)).setQueue C.cv (s.queue C.cv ++ [i])

/-- `Condition.notify()` of Python: the first in the queue. -/
def CvState.notify (s : CvState) (v : Cv) : CvState :=
  match s.queue v with
  | [] => s
  | i :: rest =>
    match s.call i with
    | .blocked d _ t => (s.setCall i (.blocked d true t)).setQueue v rest
    | _ => s.setQueue v rest

/-- One step; `none`: not possible in this state. -/
def CvState.step (C : Nat → WaitCall) (s : CvState) : CvLabel → Option CvState
  | .put op => some ({ s with seen := s.seen.put op }.notify op.cv)
  | .tick => some { s with now := s.now + 1 }
  | .call i =>
    match s.call i with
    | .idle => some (s.evaluate (C i) i ((C i).timeout.map (s.now + ·)) false none)
    | _ => none
  | .wake i =>
    match s.call i with
    | .blocked d woken t =>
      if woken || lateAt d s.now then some ((s.setQueue (C i).cv ((s.queue (C i).cv).erase i)).evaluate (C i) i d true t) else none
    | _ => none

/-! ## The conditions -/

/-- `proc_is_shutdown`, proc_info_handler.py:122-133.  For `process=None` the resolved processes are the keys of a dict, which have no
`[0]`. -/
def shutdownPred (det : Nat → ProcDetails) (q : ProcQuery) (args : ArgQuery) (s : Seen) : Res Bool :=
  match resolveProcesses det s.info.processes q args true with
  | .error .noMatchingProcess => .ok false
  | .error e => .error e
  | .ok ps =>
    if q = .all then .error .typeError
    else match ps with
      | [] => .error .indexError
      | p :: _ =>
        match s.info.byAction p with
        | .error e => .error e
        | .ok (.exited _ _) => .ok true
        | .ok (.started _) => .ok false

/-- `assertWaitForShutdown`, proc_info_handler.py:114-141, as a call of `wait_for`; an AssertionError is raised if that returns False. -/
def waitShutdown (det : Nat → ProcDetails) (q : ProcQuery) (args : ArgQuery) (timeout : Option Nat) : WaitCall :=
  { cv := .procEvent, pred := shutdownPred det q args, timeout := timeout }

/-- `proc_is_started`, proc_info_handler.py:150-160. -/
def startupPred (det : Nat → ProcDetails) (q : ProcQuery) (args : ArgQuery) (s : Seen) : Res Bool :=
  match resolveProcesses det s.info.processes q args true with
  | .error .noMatchingProcess => .ok false
  | .error e => .error e
  | .ok _ => .ok true

/-- `assertWaitForStartup`, proc_info_handler.py:143-168, as a call of `wait_for`; an AssertionError is raised if that returns False. -/
def waitStartup (det : Nat → ProcDetails) (q : ProcQuery) (args : ArgQuery) (timeout : Option Nat) : WaitCall :=
  { cv := .procEvent, pred := startupPred det q args, timeout := timeout }

/-- `msg_found`, io_handler.py:162-179. -/
def msgFound (det : Nat → ProcDetails) (accepts : List Char → Bool) (q : ProcQuery) (args : ArgQuery) (strict : Bool) (stream : StreamArg)
    (s : Seen) : Res Bool :=
  match assertInStream det s.io accepts q args strict stream with
  | .ok _ => .ok true
  | .error .noMatchingProcess => .ok false
  | .error .assertionError => .ok false
  | .error e => .error e

/-- The `wait_for` in `ActiveIoHandler.waitFor`, io_handler.py:181-188. -/
def waitOutput (det : Nat → ProcDetails) (accepts : List Char → Bool) (q : ProcQuery) (args : ArgQuery) (strict : Bool) (stream : StreamArg)
    (timeout : Option Nat) : WaitCall :=
  { cv := .ioEvent, pred := msgFound det accepts q args strict stream, timeout := timeout }

/-- What `waitFor` makes of the result of the wait, io_handler.py:190-206; `later` is what is recorded after the lock was released. -/
def waitForResult (det : Nat → ProcDetails) (q : ProcQuery) (args : ArgQuery) (later : IoHandler) (success : Bool) : Res Bool :=
  if success then .ok true
  else match resolveProcesses det later.processes q args false with
    | .error e => .error e
    | .ok ms => if ms.length = 0 then .error (.other 0) else .ok false

/-- `ProcessProxy.running`, process.py:133-140. -/
def proxyRunning (p : Nat) (s : Seen) : Bool :=
  match s.info.lookup p with
  | some (.started _) => true
  | _ => false

/-- `ProcessProxy.terminated`, process.py:142-149. -/
def proxyTerminated (p : Nat) (s : Seen) : Bool :=
  match s.info.lookup p with
  | some (.exited _ _) => true
  | _ => false

/-- `ProcessProxy.exit_code`, process.py:151-153. -/
def proxyExitCode (p : Nat) (s : Seen) : Res Int :=
  match s.info.byAction p with
  | .error e => .error e
  | .ok (.exited _ rc) => .ok rc
  | .ok (.started _) => .error .attributeError

/-- `ProcessProxy.stderr`, `stdout` and `output`, process.py:109-131: `which` selects the events; for a process that was started. -/
def proxyText (det : Nat → ProcDetails) (p : Nat) (filt : List Char → List Char) (which : Io → Bool) (s : Seen) : Res (List Char) :=
  match s.io.byAction det p with
  | .error e => .error e
  | .ok l =>
    match joinDecoded (l.filter which) with
    | .error e => .error e
    | .ok t => .ok (filt t)

/-- `ProcessProxy.wait_for_shutdown`, process.py:52-62. -/
def proxyWaitShutdown (p : Nat) (timeout : Option Nat) : WaitCall :=
  { cv := .procEvent, pred := fun s => .ok (proxyTerminated p s), timeout := timeout }

/-- `self.running and condition(remember_output())`, process.py:100-102.  (`running` takes the other lock; what it says can change right after.) -/
def proxyOutputPred (det : Nat → ProcDetails) (p : Nat) (filt : List Char → List Char) (cond : List Char → Res Bool) (s : Seen) : Res Bool :=
  if proxyRunning p s then
    match proxyText det p filt (fun _ => true) s with
    | .error e => .error e
    | .ok t => cond t
  else .ok false

/-- What `remember_output` stores, process.py:80-85. -/
def proxyLook (det : Nat → ProcDetails) (p : Nat) (filt : List Char → List Char) (s : Seen) : Option (List Char) :=
  if proxyRunning p s then (proxyText det p filt (fun _ => true) s).toOption else none

/-- `ProcessProxy.wait_for_output`, process.py:64-103; without a condition `cond` is always True. -/
def proxyWaitOutput (det : Nat → ProcDetails) (p : Nat) (filt : List Char → List Char) (cond : List Char → Res Bool) (timeout : Option Nat) :
    WaitCall :=
  { cv := .ioEvent, pred := proxyOutputPred det p filt cond, look := proxyLook det p filt, timeout := timeout }

end Verif
