import Verif.Py.Value

/-!
# Waiting for events in tests

launch_pytest/launch_pytest/tools/process.py:32-256.  Time is discrete; the operating system's and the event loop's timers are exact.
-/

namespace Verif

/-- What goes on around a wait. -/
structure WaitEnv where
  /-- what the condition gives when it is evaluated at a time (it looks at the output stored so far) -/
  cond : Nat → Bool
  /-- the time at which the first evaluation of the condition is made, process.py:50, 79 -/
  first : Nat
  /-- the time at which the event handler has been registered and `start` is taken, process.py:51-52, 80-81 -/
  start : Nat
  /-- the times at which the handler sets the event, in order: those of the process's output (or start, or exit) events -/
  sets : List Nat
  /-- the time that passes between a wake-up (with `pyevent.clear()`) and the evaluation of the condition, process.py:59-60, 85-86.  It is zero
  inside an event loop, where nothing else runs between them. -/
  lag : Nat → Nat
  /-- does an event at the very moment of the timeout win? -/
  tie : Bool

/-- How a wait ends. -/
inductive WaitEnd where
  | returned (value : Bool) (time : Nat)
  | raised (e : Err)
  deriving DecidableEq, Repr

/-- The timeout of one wait, at `deadline`: the asynchronous version leaves the loop (process.py:57-58), the synchronous one goes on as
if woken (process.py:84-87) and then leaves the loop. -/
def WaitEnv.timedOut (E : WaitEnv) (sync : Bool) (deadline : Nat) : WaitEnd :=
  if sync then .returned (E.cond (deadline + E.lag deadline)) (deadline + E.lag deadline) else .returned false deadline

/-- The loop, process.py:54-62 and 83-88, entered with `cond_value` false.  The list has the settings of the event still to come or not
cleared yet, `cleared` is the time of the last `pyevent.clear()`, `now` that of the last evaluation. -/
def WaitEnv.loop (E : WaitEnv) (sync : Bool) (deadline : Nat) : List Nat → Nat → Nat → WaitEnd
  | [], _, now => if now < deadline then E.timedOut sync deadline else .returned false now
  | t :: ts, cleared, now =>
    if t ≤ cleared then E.loop sync deadline ts cleared now
    else if now < deadline then
      let w := max now t
      if w < deadline || (w = deadline && E.tie) then
        let e := w + E.lag w
        if E.cond e then .returned true e else E.loop sync deadline ts w e
      else E.timedOut sync deadline
    else .returned false now

/-- `_wait_for_event_with_condition` and `_wait_for_event_with_condition_sync`, process.py:45-62, 74-88.  `start - now + timeout` raises
TypeError for None. -/
def WaitEnv.waitCond (E : WaitEnv) (sync : Bool) (timeout : Option Nat) : WaitEnd :=
  if E.cond E.first then .returned true E.start
  else match timeout with
    | none => .raised .typeError
    | some t => E.loop sync (E.start + t) E.sets E.start E.start

/-- `_wait_for_event` and `_wait_for_event_sync`, process.py:32-42, 65-71; `none`: waits for ever. -/
def WaitEnv.waitEvent (E : WaitEnv) (timeout : Option Nat) : Option (Bool × Nat) :=
  match E.sets.find? (fun t => E.start < t), timeout with
  | some t, none => some (true, t)
  | none, none => none
  | some t, some d => if t < E.start + d || (t = E.start + d && E.tie) then some (true, t) else some (false, E.start + d)
  | none, some d => some (false, E.start + d)

end Verif
