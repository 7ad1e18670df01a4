import Verif.Model.Service

/-!
# Timers in a launch

launch/launch/actions/timer_action.py, as far as the context is concerned: what a timer keeps when it is executed, and what
happens when it has fired.  When a timer fires, and whether it is cancelled, is modelled in Model/Timer.lean; here the TimerEvent
comes from the environment (the label `emit`).

Not modelled here: timers cancelled before they are executed (timer_action.py:169-176, they keep nothing and register nothing) and
the handler that cancels the timer at shutdown (timer_action.py:196-204), which has no effect on the context but being registered.
-/

namespace Verif

/-- The timers of a program.  `handler`: the general handler for TimerEvents; `opq`: its OpaqueFunction, whose identity is `helper`;
`ident i`: the identity of the `i`th TimerAction object; `timerAt n`: the TimerAction whose `execute` is the function `n`;
`timerOf e`: the timer a TimerEvent carries; `actions i`: the actions given to the timer. -/
structure Timers where
  handler : Nat
  opq : Nat
  helper : ActId
  ident : Nat → ActId
  timerAt : Nat → Option Nat
  timerOf : Event → Option Nat
  actions : Nat → List Entity

/-- `TimerAction.execute`, timer_action.py:157-206: the futures are made (one of them is the timer's own), the general handler is
registered once per context, and the locals are kept. -/
def Timers.execute (T : Timers) (c : Ctx) : Resp :=
  { effects := [.newFuture] ++ (if T.handler ∈ c.registered then [] else [.register T.handler false]) ++ [.capture]
    result := .ok [] }

/-- `TimerAction.handle`, timer_action.py:136-139, called by the OpaqueFunction of the general handler, timer_action.py:182-186, which
takes the event from the locals. -/
def Timers.handle (T : Timers) (c : Ctx) : Resp :=
  match c.locals.getCombined.1.get? "event" with
  | some (.event e) =>
    match T.timerOf e with
    | some i => { effects := [.extendLocals ((c.captured.lookup (T.ident i)).getD [])], result := .ok (T.actions i) }
    | none => { result := .error .attributeError }
  | _ => { result := .error .attributeError }

/-- The user's program together with its timers, timer_action.py:157-206. -/
def Prog.withTimers (P : Prog) (T : Timers) : Prog :=
  { P with
    matchesEv := fun h e => if h = T.handler then (T.timerOf e).isSome else P.matchesEv h e
    once := fun h => if h = T.handler then false else P.once h
    callback := fun h e c => if h = T.handler then { result := .ok [.act T.helper none (.custom T.opq [] [])] } else P.callback h e c
    fn := fun n c =>
      if n = T.opq then T.handle c
      else match T.timerAt n with
        | some _ => T.execute c
        | none => P.fn n c }

end Verif
