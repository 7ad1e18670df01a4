import Verif.Model.System
import Verif.Spec.Service
import Verif.Spec.ExecuteLocal

/-!
# Specification vocabulary for the service with its processes
-/

namespace Verif

/-- `y` is reached by these steps from a new service, with process actions that were not executed. -/
def Sys.Reaches (P : Prog) (O : Oracle) (env : Dict String) (ids : List Nat) (cfg : Nat → ProcCfg) (ls : List SysLabel) (y : Sys) : Prop :=
  runSteps (Sys.step P O ids cfg) { svc := Svc.init env } ls = some y

/-- Every process the action has started has ended, and its end was reported. -/
def ProcAct.AllEnded (a : ProcAct) : Prop :=
  ∀ n < a.started, ∃ code, a.procs[n]? = some (some code) ∧ .exited n code ∈ a.log

/-- The action is over: all its processes have ended, and it starts no other one, whatever happens to it (other than being executed). -/
def ProcAct.Over (c : ProcCfg) (a : ProcAct) : Prop :=
  a.AllEnded ∧ ∀ ls a', .execute ∉ ls → runSteps (ProcAct.step c) a ls = some a' → a'.started = a.started

/-- A process of the action is running. -/
def ProcAct.Runs (a : ProcAct) : Prop := ∃ n : Nat, a.procs[n]? = some none

instance (a : ProcAct) : Decidable a.Runs :=
  decidable_of_iff (none ∈ a.procs) (by
    constructor
    · intro h; obtain ⟨n, hn, he⟩ := List.getElem_of_mem h; exact ⟨n, by rw [List.getElem?_eq_getElem hn, he]⟩
    · rintro ⟨n, hn⟩; exact List.mem_of_getElem? hn)

/-- A call of `run`. -/
def SysLabel.isStart : SysLabel → Bool
  | .svc (.start _) => true
  | _ => false

end Verif
