import Verif.Model.System

/-!
# The events of the process actions in the queue of the service

launch/launch/actions/execute_local.py:587-601 and launch/launch/launch_context.py:234-237: `await context.emit_event(…)` puts a ProcessStarted or
ProcessExited event into the queue of the context, which is unbounded, so that `put` does not suspend: the event is in the queue of the service before
anything else happens.
-/

namespace Verif

/-- The events are put into the queue; `enc i e` is the event object for start or exit `e` of process action `i`.  Nothing but the end of `run_async`
is executed while that ends. -/
def Sys.announce (P : Prog) (O : Oracle) (ids : List Nat) (cfg : Nat → ProcCfg) (enc : Nat → ProcEv → Event) (i : Nat) : List ProcEv → Sys → Option Sys
  | [], y => some y
  | e :: es, y => (y.step P O ids cfg (.svc (.emit (enc i e)))).bind (Sys.announce P O ids cfg enc i es)

/-- One step of the service with its process actions, in which the start and exit events a process action emits (those that it adds to its ghost field
`log`, execute_local.py:592, 601) get into the queue of the service. -/
def Sys.stepEv (P : Prog) (O : Oracle) (ids : List Nat) (cfg : Nat → ProcCfg) (enc : Nat → ProcEv → Event) (y : Sys) : SysLabel → Option Sys
  | .svc l => y.step P O ids cfg (.svc l)
  | .proc i l =>
    (y.step P O ids cfg (.proc i l)).bind fun y' =>
      Sys.announce P O ids cfg enc i ((y'.act i).log.drop (y.act i).log.length) y'

end Verif
