import Verif.Model.Oracle
import Verif.Model.Context

/-!
# What the escalation timeouts mean
-/

namespace Verif

/-- The number written in a text, as Python's `float(text)` reads it. -/
def numberIn (O : Oracle) (text : String) : Res PyVal :=
  match O.parseFloat text with
  | some x => .ok (.float x)
  | none => .error .valueError

/-- The launch configuration of this name, and 5 if there is none. -/
def configuredOrFive (c : Ctx) (name : String) : String :=
  match c.lc.get? name with
  | some v => v
  | none => "5"

/-- The Python source of the sum of two numbers. -/
def sumSource (a b : String) : String := "float(" ++ a ++ ") + float(" ++ b ++ ")"

/-- Python adds: `literal a x` says that the text `a` is, in Python source, an expression for the number `x`; the sum of two such is evaluated, and written
as a text which is read as the sum. -/
def PythonAdds (O : Oracle) (literal : String → Flt → Prop) (add : Flt → Flt → Flt) : Prop :=
  ∀ a b x y, literal a x → literal b y → ∃ s, O.pyEval ["math"] (sumSource a b) = .ok s ∧ O.parseFloat s = some (add x y)

end Verif
