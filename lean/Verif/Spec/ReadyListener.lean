import Verif.Model.ReadyListener
import Verif.Spec.Output

/-!
# Specification vocabulary for StdoutReadyListener
-/

namespace Verif

/-- What the process of the action `a` wrote to its standard output, as it arrived in these events. -/
def stdoutOf (a : Nat) (es : List OutChunk) : List UInt8 :=
  (es.filter fun e => e.action == a && e.fd == 1).flatMap OutChunk.bytes

/-- The output of the action arrives in pieces that are texts ending at line ends. -/
def ByLines (a : Nat) (es : List OutChunk) : Prop :=
  ∀ e ∈ es, e.action = a → e.fd = 1 → ∃ t : List Char, e.bytes = encode (t ++ ['\n'])

end Verif
