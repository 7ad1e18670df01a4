import Verif.Spec.Joint

/-!
# Specification vocabulary for processes that the launch needs
-/

namespace Verif

/-- Handler `k` ends the launch when event `ev` is handled: it matches it, and what it gives always contains a Shutdown action (or an EmitEvent with a Shutdown
event) without a condition.  So it is for `OnProcessExit(target_action=…, on_exit=[…, Shutdown()])`, and for `on_exit=[Shutdown()]` of a process action, with
the exits of that process. -/
def Prog.EndsLaunch (P : Prog) (k : Nat) (ev : Event) : Prop :=
  P.matchesEv k ev = true ∧
    ∀ c, ∃ es id r sig, (P.callback k ev c).result = .ok es ∧ .act id none (.emitEvent (.shutdown r sig)) ∈ es

end Verif
