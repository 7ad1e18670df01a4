import Verif.Spec.ExecuteLocal

/-! # Specification of the escalation -/

namespace Verif

/-- Process `n` was sent signal `s` by the action itself. -/
def ProcAct.Sent (a : ProcAct) (n : Nat) (s : Sig) : Prop := ∃ d ∈ a.signals, d.sig = s ∧ d.proc = n ∧ d.own = true

/-- Everything that is due was done: no event is left, and no timer can begin or fire. -/
def ProcAct.Settled (c : ProcCfg) (a : ProcAct) : Prop :=
  a.queue = [] ∧ ∀ s, a.step c (.timerBegin s) = none ∧ a.step c (.timerFire s) = none

/-- The timer for signal `s` is still to fire, later. -/
def ProcAct.Awaits (a : ProcAct) (s : Sig) : Prop := ∃ d, a.timerOf s = .waiting d ∧ a.now < d

/-- Process `n` runs and the action observes it. -/
def ProcAct.RunsProc (a : ProcAct) (n : Nat) : Prop := a.task = .running n ∧ a.procs[n]? = some none

end Verif
