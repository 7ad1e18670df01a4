import Verif.Model.LaunchProcess
import Verif.Spec.Escalation

/-! # Specification of launch_process -/

namespace Verif

/-- Nobody has asked the action to shut down without SIGINT: no Shutdown event caused by Ctrl-C waits to be handled, and no request of that kind waits for the
start of the process. -/
def ProcAct.NoCtrlC (a : ProcAct) : Prop := .shutdown true ∉ a.queue ∧ false ∉ a.deferred

/-- … and nobody does. -/
def NoCtrlCLabel (l : ProcLabel) : Prop := l ≠ .emit (.shutdown true) ∧ l ≠ .ask false

end Verif
