import Verif.Model.Handlers

/-!
# Events targeted at processes

launch/launch/events/process/signal_process.py, shutdown_process.py and process_targeted_event.py, and what the process actions of a launch do about them:
launch/launch/actions/execute_local.py, `__on_shutdown_process_event` (lines 300-308) and `__on_signal_process_event` (lines 310-352).

Each action that was executed has a handler for both classes of events (lines 671-679); the handlers are called one after the other, the latest registered first
(launch_context.py:213-223, launch_service.py:234-250), until one raises.
-/

namespace Verif

/-- Where the coroutine `__execute_process` is, as far as it matters here. -/
inductive TgtPhase where
  /-- begun, no process yet; also for good if the start failed -/
  | begun
  /-- `connection_made` was called, line 531 -/
  | connected
  /-- transport and protocol are stored, lines 569-588 -/
  | attached
  deriving DecidableEq, Repr

/-- A process action that was executed: `process_details`, the id of the process of `_subprocess_transport`, whether `_subprocess_protocol.complete` is done. -/
structure Tgt where
  details : Details
  transport : Option Nat := none
  complete : Bool := false
  phase : TgtPhase := .begun
  deriving DecidableEq, Repr

/-- What happens to it. -/
inductive TgtStep where
  /-- the process is started, with this id -/
  | connect (pid : Nat)
  /-- the coroutine goes on, `over`: the process has ended already -/
  | attach (over : Bool)
  /-- the end of the process is noticed -/
  | ended
  /-- the process is to be started again -/
  | respawn
  deriving DecidableEq, Repr

/-- `execute` of an action whose description was prepared with this name and command, lines 629-703.  Actions that are executed a second time (which raises, line 654) are not
considered. -/
def Tgt.executed (name : String) (cmd : List String) : Tgt := { details := ⟨name, cmd, none⟩ }

/-- One step; `none` when it is not enabled: lines 536 (`connect`), 569-588 (`attach`), 592 (`ended`), 606-622 (`respawn`; the transport of the old process is kept). -/
def Tgt.step (t : Tgt) : TgtStep → Option Tgt
  | .connect p => if t.phase = .begun then some { t with details := { t.details with pid := some p }, phase := .connected } else none
  | .attach over =>
    if t.phase = .connected then some { t with transport := t.details.pid, complete := over, phase := .attached } else none
  | .ended => if t.phase = .attached && !t.complete then some { t with complete := true } else none
  | .respawn => if t.phase = .attached && t.complete then some { t with phase := .begun } else none

/-- After a history. -/
def Tgt.steps : Tgt → List TgtStep → Option Tgt
  | t, [] => some t
  | t, s :: l => (t.step s).bind fun t' => t'.steps l

/-- The argument `signal_number` of SignalProcess, signal_process.py:35-56: a member of `signal.Signals` or any text. -/
inductive SigVal where
  | signal (name : String)
  | text (s : String)
  deriving DecidableEq, Repr

/-- `signal_name`, signal_process.py:63-70. -/
def SigVal.name : SigVal → String
  | .signal n => n
  | .text s => s

/-- A `process_matcher`, called with an action (its identity and its state); process_targeted_event.py:31-51. -/
abbrev Matcher := Nat → Tgt → Res Bool

/-- `matches_action`, events/matchers.py:22-24. -/
def Matcher.action (target : Nat) : Matcher := fun i _ => .ok (i == target)

/-- `matches_pid`, process_matchers.py:25-33. -/
def Matcher.pid (p : Nat) : Matcher := fun _ t => matchesPid p (some t.details)

/-- `matches_name`, process_matchers.py:36-44. -/
def Matcher.name (n : String) : Matcher := fun _ t => matchesName n (some t.details)

/-- `matches_executable`, process_matchers.py:47-61. -/
def Matcher.executable (x : String) : Matcher := fun _ t => matchesExecutable x (some t.details)

/-- `__on_signal_process_event`, execute_local.py:310-352, on POSIX: what is sent to which process.  `alive`: the operating system still knows the process; otherwise
nothing is sent (`Popen.send_signal` looks first; ProcessLookupError is caught, lines 346-351).  `os.kill` with a text raises TypeError.
`process_details` was set by `execute`. -/
def Tgt.onSignal (m : Res Bool) (v : SigVal) (alive : Bool) (t : Tgt) : Res (Option (Nat × String)) :=
  match m with
  | .error e => .error e
  | .ok false => .ok none
  | .ok true =>
    match t.transport with
    | none => .error .runtimeError
    | some pid =>
      if t.complete then .ok none
      else if !alive then .ok none
      else if v.name = "SIGKILL" then .ok (some (pid, "SIGKILL"))
      else match v with
        | .signal n => .ok (some (pid, n))
        | .text _ => .error .typeError

/-- The handlers of a SignalProcess event, in the order in which they are called, launch_service.py:234-250: which signals were sent to the processes of which actions, and the
exception that ended it. -/
def signalAll (m : Matcher) (v : SigVal) (alive : Nat → Bool) : List (Nat × Tgt) → List (Nat × Nat × String) × Option Err
  | [] => ([], none)
  | (i, t) :: ts =>
    match t.onSignal (m i t) v (alive i) with
    | .error e => ([], some e)
    | .ok none => signalAll m v alive ts
    | .ok (some x) => ((i, x) :: (signalAll m v alive ts).1, (signalAll m v alive ts).2)

/-- The handlers of a ShutdownProcess event, execute_local.py:300-308: the actions that are asked to shut down (what they do then is C35, C107). -/
def shutdownAll (m : Matcher) : List (Nat × Tgt) → List Nat × Option Err
  | [] => ([], none)
  | (i, t) :: ts =>
    match m i t with
    | .error e => ([], some e)
    | .ok false => shutdownAll m ts
    | .ok true => (i :: (shutdownAll m ts).1, (shutdownAll m ts).2)

end Verif
