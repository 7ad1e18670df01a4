import Verif.Spec.Trans

/-!
# ExecuteLocal

launch/launch/actions/execute_local.py: one ExecuteLocal action, its process, its escalation timers and the events that
concern it; the operating system and the rest of the launch are an environment.

What the event loop executes without interruption is one step.  The processes the action starts are numbered in the order
they are started (the number stands for the pid).  The two escalation timers are simplified to what the model of TimerAction
establishes: they fire at most once, not before their period, and not after being cancelled.

Not modelled here: output (Model/Output.lean), `prepare` (Model/Executable.lean), logging, Windows, the user's `on_exit`, and that
the operating system may have ended a process before the event loop notices (`send_signal` then raises
ProcessLookupError, which is ignored).
-/

namespace Verif

/-- Arguments of the action, and properties of the context that do not change. -/
structure ProcCfg where
  respawn : Bool := false
  maxRetries : Int := -1
  /-- `respawn_delay` is positive -/
  delayed : Bool := false
  sigtermTimeout : Nat := 5
  sigkillTimeout : Nat := 5
  /-- `context.noninteractive` -/
  noninteractive : Bool := false

/-- Signals. -/
inductive Sig where
  | int
  | term
  | kill
  | user (n : Nat)
  deriving DecidableEq, Repr

/-- A future that may not exist yet. -/
inductive AFut where
  | unset
  | pending
  | done
  deriving DecidableEq, Repr

/-- Where the coroutine `__execute_process` is: not existing; created; awaiting the start of the process; a process exists but the
coroutine was not resumed; awaiting the end of process `n`; waiting for the respawn delay; ended, after `__cleanup`; ended by an
exception. -/
inductive ProcTask where
  | absent
  | scheduled
  | starting
  | spawned (n : Nat)
  | running (n : Nat)
  | delaying
  | ended
  | failed
  deriving DecidableEq, Repr

/-- An escalation timer. -/
inductive EscTimer where
  | absent
  | scheduled
  | waiting (deadline : Nat)
  | fired
  | cancelled
  deriving DecidableEq, Repr

/-- Events that concern the action; `own`: the signal was requested by the action itself. -/
inductive ProcEv where
  | shutdownProcess (mine : Bool)
  | signal (s : Sig) (mine : Bool) (own : Bool)
  | shutdown (dueToSigint : Bool)
  | started (n : Nat)
  | exited (n : Nat) (code : Int)
  | otherStarted
  | timer (s : Sig)
  deriving DecidableEq, Repr

/-- A signal that was delivered. -/
structure Delivered where
  sig : Sig
  proc : Nat
  time : Nat
  own : Bool
  deriving DecidableEq, Repr

/-- State of the action, execute_local.py:209-225.  `transport`: the number of the process of `_subprocess_transport` and
`_subprocess_protocol`; `procs`: the processes started so far with their exit codes, if the event loop has noticed their end;
`deferred`: the handlers registered at lines 285-288 (the value of `send_sigint`), the latest first, as they are visited; `ctxShut`: `context.is_shutdown`.
Ghost fields: `log` (start and exit events emitted), `signals`, `shutAt` (when the shutdown procedure began),
`resolved` (how often the completion future got a result), `raised` (exceptions raised by `execute` and
by the handler of signals). -/
structure ProcAct where
  executed : Bool := false
  comp : AFut := .unset
  shut : AFut := .unset
  transport : Option Nat := none
  procs : List (Option Int) := []
  task : ProcTask := .absent
  retries : Nat := 0
  sigterm : EscTimer := .absent
  sigkill : EscTimer := .absent
  deferred : List Bool := []
  ctxShut : Bool := false
  now : Nat := 0
  queue : List ProcEv := []
  log : List ProcEv := []
  signals : List Delivered := []
  shutAt : Option Nat := none
  resolved : Nat := 0
  raised : Nat := 0
  deriving DecidableEq, Repr

/-- What can happen. -/
inductive ProcLabel where
  /-- `execute` -/
  | execute
  /-- the coroutine begins; `ok`: evaluating the launch configuration `emulate_tty` does not raise -/
  | begin (ok : Bool)
  /-- the operating system starts the process -/
  | spawn
  /-- starting it fails -/
  | spawnFail
  /-- the coroutine resumes after the start -/
  | attach
  /-- the event loop notices the end of process `n` -/
  | procExit (n : Nat) (code : Int)
  /-- the coroutine resumes after the end of the process -/
  | observe
  /-- the wait for the respawn delay ends -/
  | delayOver
  /-- the task of an escalation timer begins -/
  | timerBegin (s : Sig)
  /-- an escalation timer fires -/
  | timerFire (s : Sig)
  /-- time passes -/
  | tick
  /-- the context is marked as shut down -/
  | setShut
  /-- an event is emitted by somebody else -/
  | emit (e : ProcEv)
  /-- somebody calls `_shutdown_process`, as the timer of a launch_testing Test does (launch_testing/launch_testing/actions/test.py:75-79) -/
  | ask (sendSigint : Bool)
  /-- the service processes the next event -/
  | process
  deriving DecidableEq, Repr

namespace ProcAct

/-- `TimerAction.cancel`, timer_action.py:144-157: no effect on a timer that fired. -/
def cancelTimer : EscTimer → EscTimer
  | .scheduled => .cancelled
  | .waiting _ => .cancelled
  | t => t

/-- `__cleanup`, execute_local.py:506-516. -/
def cleanup (a : ProcAct) : ProcAct :=
  { a with
    sigterm := cancelTimer a.sigterm
    sigkill := cancelTimer a.sigkill
    comp := .done
    task := .ended
    resolved := a.resolved + 1 }

/-- `_shutdown_process`, execute_local.py:267-298, including the execution of the actions it returns: two timers
(`__get_shutdown_timer_actions`, lines 451-498) and the emission of a signal event (`__get_sigint_event`, lines 500-504).
`process_details` is set by `execute`, before the handlers calling this are registered. -/
def shutdownProcess (sendSigint : Bool) (a : ProcAct) : ProcAct :=
  if a.shut ≠ .pending then a
  else if a.comp = .unset then { a with shut := .done }
  else if a.comp = .done then { a with shut := .done }
  else if a.transport = none then { a with deferred := sendSigint :: a.deferred }
  else
    { a with
      shut := .done
      sigterm := .scheduled
      sigkill := .scheduled
      shutAt := some a.now
      queue := a.queue ++ (if sendSigint then [.signal .int true true] else []) }

/-- Is `_subprocess_protocol.complete` done? -/
def complete (a : ProcAct) (n : Nat) : Bool :=
  match a.procs[n]? with
  | some (some _) => true
  | _ => false

/-- `__on_signal_process_event`, execute_local.py:310-352. -/
def onSignal (s : Sig) (own : Bool) (a : ProcAct) : ProcAct :=
  match a.transport with
  | none => { a with raised := a.raised + 1 }
  | some n => if a.complete n then a else { a with signals := a.signals ++ [⟨s, n, a.now, own⟩] }

/-- Handling of the next event by the handlers registered at execute_local.py:671-703 and 285-288, and by the handler of TimerEvents,
whose effect is to emit the signal event (lines 473-476, 488-491).  The action's own handlers
exist once `execute` went beyond line 703, that is if there is a completion future. -/
def process (c : ProcCfg) (a : ProcAct) : Option ProcAct :=
  match a.queue with
  | [] => none
  | e :: q =>
    let a : ProcAct := { a with queue := q }
    some (match e with
      | .shutdownProcess mine => if a.comp ≠ .unset && mine then a.shutdownProcess true else a
      | .signal s mine own => if a.comp ≠ .unset && mine then a.onSignal s own else a
      | .shutdown sig =>
        let a := { a with ctxShut := true }
        if a.comp ≠ .unset then a.shutdownProcess (!sig || c.noninteractive) else a
      | .started _ => a.deferred.foldl (fun a b => a.shutdownProcess b) a
      | .otherStarted => a.deferred.foldl (fun a b => a.shutdownProcess b) a
      | .exited _ _ => a
      | .timer s => { a with queue := a.queue ++ [.signal s true true] })

/-- `execute`, execute_local.py:651-722.  That `get_output_loggers` may raise is not modelled. -/
def execute (a : ProcAct) : ProcAct :=
  if a.executed then { a with raised := a.raised + 1 }
  else
    let a := { a with executed := true }
    if a.ctxShut then a
    else { a with comp := .pending, shut := .pending, task := .scheduled }

/-- The coroutine after the end of process `n`, execute_local.py:592-622. -/
def observe (c : ProcCfg) (n : Nat) (code : Int) (a : ProcAct) : ProcAct :=
  let a : ProcAct := { a with queue := a.queue ++ [.exited n code], log := a.log ++ [.exited n code] }
  if !a.ctxShut && a.shut = .pending && c.respawn && (c.maxRetries < 0 || (a.retries : Int) < c.maxRetries) then
    { a with retries := a.retries + 1, task := if c.delayed then .delaying else .scheduled }
  else a.cleanup

/-- The escalation timer for a signal. -/
def timerOf (a : ProcAct) : Sig → EscTimer
  | .term => a.sigterm
  | .kill => a.sigkill
  | _ => .absent

/-- Replace it. -/
def setTimer (a : ProcAct) (s : Sig) (t : EscTimer) : ProcAct :=
  match s with
  | .term => { a with sigterm := t }
  | .kill => { a with sigkill := t }
  | _ => a

/-- Period of the escalation timer for a signal, execute_local.py:461-464. -/
def period (c : ProcCfg) : Sig → Nat
  | .kill => c.sigtermTimeout + c.sigkillTimeout
  | _ => c.sigtermTimeout

/-- Events other parts of the launch may emit: everything but this action's own process and timer events. -/
def foreign : ProcEv → Bool
  | .shutdownProcess _ => true
  | .signal _ _ own => !own
  | .shutdown _ => true
  | .otherStarted => true
  | _ => false

/-- One step; `none` when the label is not enabled. -/
def step (c : ProcCfg) (a : ProcAct) : ProcLabel → Option ProcAct
  | .execute => some a.execute
  -- execute_local.py:545-566
  | .begin ok => if a.task = .scheduled then some { a with task := if ok then .starting else .failed } else none
  -- execute_local.py:569-579
  | .spawn =>
    if a.task = .starting then some { a with procs := a.procs ++ [none], task := .spawned a.procs.length } else none
  -- execute_local.py:580-585
  | .spawnFail => if a.task = .starting then some a.cleanup else none
  -- execute_local.py:587-592
  | .attach =>
    match a.task with
    | .spawned n =>
      some { a with transport := some n, task := .running n
                    queue := a.queue ++ [.started n], log := a.log ++ [.started n] }
    | _ => none
  | .procExit n code => if a.procs[n]? = some none then some { a with procs := a.procs.set n (some code) } else none
  | .observe =>
    match a.task with
    | .running n =>
      match a.procs[n]? with
      | some (some code) => some (a.observe c n code)
      | _ => none
    | _ => none
  -- execute_local.py:615-622; the timeout may end the wait at any time
  | .delayOver =>
    if a.task = .delaying then
      some (if a.shut = .done then a.cleanup else { a with task := .scheduled })
    else none
  -- timer_action.py:95-98
  | .timerBegin s =>
    if a.timerOf s = .scheduled then some (a.setTimer s (.waiting (a.now + period c s))) else none
  -- timer_action.py:99-101
  | .timerFire s =>
    match a.timerOf s with
    | .waiting d =>
      if d ≤ a.now then some { a.setTimer s .fired with queue := a.queue ++ [.timer s] } else none
    | _ => none
  | .tick => some { a with now := a.now + 1 }
  | .setShut => some { a with ctxShut := true }
  | .emit e => if foreign e then some { a with queue := a.queue ++ [e] } else none
  | .ask b => some (a.shutdownProcess b)
  | .process => a.process c

end ProcAct
end Verif
