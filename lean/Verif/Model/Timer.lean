import Verif.Spec.Trans

/-!
# TimerAction

launch/launch/actions/timer_action.py: one TimerAction, the tasks its executions create, the events it
emits, and the rest of the system as an environment that handles events, lets time pass and calls `cancel()`.

What the event loop executes without interruption is one step (`emit_event` does not suspend, the queue being
unbounded).  Futures are numbered.  Time is counted in ticks.

Not modelled: the locals captured and restored, logging, the parsing of timers.
-/

namespace Verif

/-- A task running `_wait_to_fire_event`: not begun; waiting for a cancellation future until a deadline; ended (`ok`: without
an exception). -/
inductive TimerTask where
  | scheduled
  | waiting (canc : Nat) (deadline : Nat)
  | ended (ok : Bool)
  deriving DecidableEq, Repr

/-- Events in the queue that matter: this timer's TimerEvent and Shutdown. -/
inductive TimerEv where
  | timer
  | shutdown
  deriving DecidableEq, Repr

/-- State of a TimerAction and its environment, timer_action.py:84-91.  `comp`, `canc` are the members `_completed_future`
and `_canceled_future`; `isDone` are the futures with a result, in the order they got it; `cancelHandlers` is the number
of handlers registered at lines 198-204; `installed`: the context has the handler for TimerEvents.
Ghost fields: `executions`, `performed` (how often the actions were performed). -/
structure Timer where
  canceled : Bool := false
  comp : Option Nat := none
  canc : Option Nat := none
  nextFut : Nat := 0
  isDone : List Nat := []
  tasks : List TimerTask := []
  cancelHandlers : Nat := 0
  installed : Bool := false
  queue : List TimerEv := []
  now : Nat := 0
  executions : Nat := 0
  performed : Nat := 0
  deriving DecidableEq, Repr

/-- What can happen. -/
inductive TimerLabel where
  /-- `execute`; `cancelOnShutdown` is the value of that argument, `none` if evaluating it raises -/
  | execute (cancelOnShutdown : Option Bool)
  /-- `cancel()` is called -/
  | cancel
  /-- a task begins; `period` is the value of that argument at this time, `none` if evaluating it raises -/
  | begin (i : Nat) (period : Option Nat)
  /-- the wait of a task ends -/
  | resume (i : Nat)
  /-- time passes -/
  | tick
  /-- a Shutdown event is emitted -/
  | emitShutdown
  /-- the service processes the next event -/
  | process
  deriving DecidableEq, Repr

namespace Timer

/-- `cancel`, timer_action.py:144-157. -/
def cancel (t : Timer) : Timer :=
  match t.canc with
  | none => { t with canceled := true }
  | some f => if f ∈ t.isDone then { t with canceled := true }
    else { t with canceled := true, isDone := t.isDone ++ [f] }

/-- `execute`, timer_action.py:159-206.  If evaluating `cancel_on_shutdown` raises, the task was created
already. -/
def execute (cos : Option Bool) (t : Timer) : Timer :=
  let t := { t with comp := some t.nextFut, canc := some (t.nextFut + 1), nextFut := t.nextFut + 2
                    executions := t.executions + 1 }
  if t.canceled then { t with isDone := t.isDone ++ [t.nextFut - 2] }
  else
    { t with
      installed := true
      tasks := t.tasks ++ [.scheduled]
      cancelHandlers := t.cancelHandlers + (if cos = some true then 1 else 0) }

/-- The rest of `_wait_to_fire_event` after the wait, timer_action.py:99-101, for task `i`.  The members
are read at this time.  `set_result` of a future that has a result raises. -/
def fire (i : Nat) (t : Timer) : Timer :=
  let cancelled := match t.canc with | none => false | some f => decide (f ∈ t.isDone)
  let t := if cancelled then t else { t with queue := t.queue ++ [.timer] }
  match t.comp with
  | none => { t with tasks := t.tasks.set i (.ended false) }
  | some f =>
    if f ∈ t.isDone then { t with tasks := t.tasks.set i (.ended false) }
    else { t with isDone := t.isDone ++ [f], tasks := t.tasks.set i (.ended true) }

/-- Handling of the next event: the handler of TimerEvents performs the actions (timer_action.py:139-142, 181-190), the handlers of
Shutdown cancel (lines 198-204). -/
def process (t : Timer) : Option Timer :=
  match t.queue with
  | [] => none
  | .timer :: q =>
    some { t with queue := q, performed := t.performed + (if t.installed then 1 else 0) }
  | .shutdown :: q =>
    let t := { t with queue := q }
    some (if t.cancelHandlers = 0 then t else t.cancel)

/-- One step; `none` when the label is not enabled. -/
def step (t : Timer) : TimerLabel → Option Timer
  | .execute cos => some (t.execute cos)
  | .cancel => some t.cancel
  -- timer_action.py:95-98
  | .begin i period =>
    if t.tasks[i]? = some .scheduled then
      match period, t.canc with
      | some p, some f => some { t with tasks := t.tasks.set i (.waiting f (t.now + p)) }
      | _, _ => some { t with tasks := t.tasks.set i (.ended false) }
    else none
  | .resume i =>
    match t.tasks[i]? with
    | some (.waiting f d) => if f ∈ t.isDone ∨ d ≤ t.now then some (t.fire i) else none
    | _ => none
  | .tick => some { t with now := t.now + 1 }
  | .emitShutdown => some { t with queue := t.queue ++ [.shutdown] }
  | .process => t.process

end Timer
end Verif
