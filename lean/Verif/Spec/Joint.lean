import Verif.Model.Joint
import Verif.Spec.LaunchProcess

/-!
# Specification vocabulary for the service and its processes with one queue
-/

namespace Verif

/-- The event objects are what they should be: a Shutdown event is seen by every process action as what it is, an event of a process action by that action,
and the start of a process by the others as the start of some other process; and there are no other events of these kinds. -/
structure Codes.Lawful (K : Codes) : Prop where
  shutdown : ∀ i r sig, K.see i (.shutdown r sig) = some (.shutdown sig)
  onlyShutdown : ∀ i ev sig, K.see i ev = some (.shutdown sig) → ∃ r, ev = .shutdown r sig
  own : ∀ i e, ProcAct.foreign e = false → K.see i (K.enc i e) = some e
  onlyOwn : ∀ i ev e, K.see i ev = some e → ProcAct.foreign e = false → ev = K.enc i e
  start : ∀ i j n, j ≠ i → K.see j (K.enc i (.started n)) = some .otherStarted
  others : ∀ i j e, j ≠ i → ProcAct.foreign e = false → (∀ n, e ≠ .started n) → K.see j (K.enc i e) = none

/-- `y` is reached by these steps from a new service, with process actions that were not executed. -/
def Sys.ReachesJoint (P : Prog) (O : Oracle) (env : Dict String) (ids : List Nat) (cfg : Nat → ProcCfg) (K : Codes) (ls : List JointLabel) (y : Sys) : Prop :=
  runSteps (Sys.stepJoint P O ids cfg K) { svc := Svc.init env } ls = some y

/-- Process action `i` as the model of a single action (Model/ExecuteLocal.lean) has it: with the part of the queue that it sees as its own queue. -/
def Sys.view (K : Codes) (y : Sys) (i : Nat) : ProcAct := { y.act i with queue := y.svc.ctx.queue.filterMap (K.see i) }

/-- Everything that is due was done: no event is left, and no timer of process action `i` can begin or fire. -/
def Sys.SettledFor (cfg : Nat → ProcCfg) (i : Nat) (y : Sys) : Prop :=
  y.svc.ctx.queue = [] ∧ ∀ s, (y.act i).step (cfg i) (.timerBegin s) = none ∧ (y.act i).step (cfg i) (.timerFire s) = none

end Verif
