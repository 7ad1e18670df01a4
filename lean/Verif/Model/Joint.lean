import Verif.Model.System

/-!
# The service and the process actions with one queue of events

launch/launch/launch_service.py, launch/launch/launch_context.py and launch/launch/actions/execute_local.py: the model of the service (Model/Service.lean) and one
model of a process action (Model/ExecuteLocal.lean) for each of some actions of the program, with the queue of the context as the only queue, and with the
flag `is_shutdown` of the context as the only such flag.

The state is that of Model/System.lean.  The field `queue` of the process actions is not used, it is empty: the events are in the queue of the service.
-/

namespace Verif

/-- The event objects of the processes.  `enc i e`: the object for event `e` of process action `i`; `see i ev`: what event object `ev` is for process
action `i`, if its handlers (execute_local.py:671-703, 285-288) or those of its timers match it. -/
structure Codes where
  enc : Nat → ProcEv → Event
  see : Nat → Event → Option ProcEv

/-- `ev` is not an event that some process action of the launch itself emits. -/
def Codes.others (K : Codes) (ids : List Nat) (ev : Event) : Bool := ids.all fun i => (K.see i ev).all ProcAct.foreign

/-- Process action `a` handles an event; the second part is what it emits meanwhile. -/
def ProcAct.handle (c : ProcCfg) (a : ProcAct) : Option ProcEv → ProcAct × List ProcEv
  | none => (a, [])
  | some e =>
    match ProcAct.process c { a with queue := [e] } with
    | none => (a, [])
    | some a' => ({ a' with queue := [] }, a'.queue)

/-- `context.is_shutdown` is seen by the process actions, launch_context.py:86-92, execute_local.py:606, 660. -/
def Sys.mark (y : Sys) : Sys := { y with act := fun i => { y.act i with ctxShut := (y.act i).ctxShut || y.svc.ctx.isShutdown } }

/-- `context.emit_event_sync` for each of the events, launch_context.py:229-232. -/
def emitAll (c : Ctx) (es : List Event) : Ctx := es.foldl Ctx.emit c

/-- What can happen: a step of the service that does not handle an event; the service handles the next event, the process actions `told` handle it, and
meanwhile the events `q` are emitted; a step of process action `i`. -/
inductive JointLabel where
  | svc (l : Label)
  | handle (fuel : Nat) (told : List Nat) (q : List Event)
  | proc (i : Nat) (l : ProcLabel)
  deriving DecidableEq, Repr

/-- A step of the service other than the handling of an event.  The events of processes are emitted by their actions only. -/
def Sys.stepSvc (P : Prog) (O : Oracle) (ids : List Nat) (K : Codes) (y : Sys) (l : Label) : Option Sys :=
  (y.svc.step P O l).bind fun s' =>
    if (s'.ctx.emitted.drop y.svc.ctx.emitted.length).all (K.others ids) then some ({ y with svc := s' } : Sys).mark else none

/-- What process action `i` becomes when the service, now in state `s'`, has handled event `e`: it was executed meanwhile (then its handlers were registered after
the copy of the handlers that was iterated was made, launch_service.py:234), or it has handled the event, or its handlers were not reached. -/
def Sys.served (ids : List Nat) (cfg : Nat → ProcCfg) (K : Codes) (y : Sys) (s' : Svc) (told : List Nat) (e : Event) (i : Nat) : ProcAct × List ProcEv :=
  if i ∈ executedIn ids y.svc s' then ((y.act i).execute, [])
  else if i ∈ ids ∧ i ∈ told then (y.act i).handle (cfg i) (K.see i e)
  else (y.act i, [])

/-- The handlers of the next event are called, launch_service.py:228-257: those of the service and of the user, and those of the process actions.  `q` is what is emitted
by all of them.  If a handler raises, those after it are not called; so if none has raised, `told` are all process actions.
Simplification: if a handler of a process action raises, all handlers of the user have been called nevertheless. -/
def Sys.stepHandle (P : Prog) (O : Oracle) (ids : List Nat) (cfg : Nat → ProcCfg) (K : Codes) (y : Sys) (fuel : Nat) (told : List Nat) (q : List Event) :
    Option Sys :=
  match y.svc.ctx.queue with
  | [] => none
  | e :: rest =>
    (y.svc.step P O (.process fuel)).bind fun s' =>
      let res := y.served ids cfg K s' told e
      let ok := s'.task == .done true && ids.all fun i => (res i).1.raised == (y.act i).raised
      if (!ok || ids.all fun i => told.contains i) &&
          (executedIn ids y.svc s').all (Sys.executes ids y.act s') &&
          q.filter (K.others ids) == s'.ctx.emitted.drop y.svc.ctx.emitted.length &&
          ids.all fun i => (q.filterMap (K.see i)).filter (fun x => !ProcAct.foreign x) == (res i).2 then
        some (Sys.mark
          { svc := { s' with
              ctx := { s'.ctx with queue := rest ++ q, emitted := y.svc.ctx.emitted ++ q }
              task := .done ok, evFailed := s'.evFailed || !ok }
            act := fun i => (res i).1
            failed := y.failed || !ok })
      else none

/-- A step of process action `i` outside the handling of events; what it emits gets into the queue of the service, launch_context.py:229-237.  Nothing but the end of
`run_async` is executed while that ends. -/
def Sys.stepProc (P : Prog) (O : Oracle) (ids : List Nat) (cfg : Nat → ProcCfg) (K : Codes) (y : Sys) (i : Nat) (l : ProcLabel) : Option Sys :=
  if i ∈ ids then
    ((y.act i).step (cfg i) l).bind fun a =>
      if y.svc.pc = .ending && !a.queue.isEmpty then none
      else
        let y' := y.set P O i { a with queue := [] }
        some { y' with svc := { y'.svc with ctx := emitAll y'.svc.ctx (a.queue.map (K.enc i)) } }
  else none

/-- One step, for the process actions `ids` with these arguments; `none` when the label is not enabled.  A future of a process action gets its result from the action
only; executing an action and marking it as shut down are effects of steps of the service. -/
def Sys.stepJoint (P : Prog) (O : Oracle) (ids : List Nat) (cfg : Nat → ProcCfg) (K : Codes) (y : Sys) : JointLabel → Option Sys
  | .svc (.process _) => none
  | .svc (.futureDone f r) =>
    if ids.any fun i => (y.svc.ctx.futuresOf (.user i)).contains f then none else y.stepSvc P O ids K (.futureDone f r)
  | .svc l => y.stepSvc P O ids K l
  | .handle fuel told q => y.stepHandle P O ids cfg K fuel told q
  | .proc _ .execute => none
  | .proc _ .process => none
  | .proc _ .setShut => none
  | .proc _ (.emit _) => none
  | .proc i l => y.stepProc P O ids cfg K i l

end Verif
