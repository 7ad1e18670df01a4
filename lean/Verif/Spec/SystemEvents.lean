import Verif.Model.SystemEvents
import Verif.Spec.System

/-!
# Specification vocabulary for the events of processes
-/

namespace Verif

/-- `y` is reached by these steps from a new service, with process actions that were not executed. -/
def Sys.ReachesEv (P : Prog) (O : Oracle) (env : Dict String) (ids : List Nat) (cfg : Nat → ProcCfg) (enc : Nat → ProcEv → Event) (ls : List SysLabel)
    (y : Sys) : Prop :=
  runSteps (Sys.stepEv P O ids cfg enc) { svc := Svc.init env } ls = some y

/-- What is to be said about processes that were started one after the other and ended with these exit codes; the first one has number `k`. -/
def lifeEvents : Nat → List Int → List ProcEv
  | _, [] => []
  | k, code :: codes => .started k :: .exited k code :: lifeEvents (k + 1) codes

end Verif
