import Verif.Model.LaunchTest
import Verif.Spec.TestWorker

/-! # What a user of `launch_test` expects -/

namespace Verif

/-- The launch of a run was skipped, or it ended with results among which there is no failure, error or unexpected success. -/
def WorkerEnd.Fine : WorkerEnd → Prop
  | .skipTest _ => True
  | .results r => r.failures = [] ∧ r.errors = [] ∧ r.unexpectedSuccesses = []
  | .died => False
  | .raised _ => False

/-- The test file can be used: it exists and can be imported, and in each run exactly the arguments of `generate_test_description` get a value. -/
structure TestCommand.Usable {V : Type} (c : TestCommand V) (M : TestModule V) : Prop where
  isFile : c.isFile = true
  module : c.module = .ok M
  valid : ∀ p ∈ M.runs, ∀ a, a ∈ p.keys ↔ a ∈ M.baseArgs

end Verif
