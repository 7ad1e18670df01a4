import Verif.Model.PerLogger

/-!
# Which formatter counts
-/

namespace Verif

/-- The operation is about the logger of this name, given by the name or as an object. -/
def TraitOp.About {F : Type} (logger : String) : TraitOp F → Prop
  | .setFor l _ => l = .name logger ∨ l = .object logger
  | .unsetFor l => l = .name logger ∨ l = .object logger
  | .setFormatter _ => False

/-- The last operation about this logger set the formatter `f` for it. -/
def LastSetFor {F : Type} (logger : String) (ops : List (TraitOp F)) (f : F) : Prop :=
  ∃ before l after, ops = before ++ .setFor l f :: after ∧ (l = .name logger ∨ l = .object logger) ∧ ∀ op ∈ after, ¬ op.About logger

/-- The last formatter that was set for the handler as a whole is `f`. -/
def LastSet {F : Type} (ops : List (TraitOp F)) (f : Option F) : Prop :=
  ∃ before after, ops = before ++ .setFormatter f :: after ∧ ∀ op ∈ after, ∀ g, op ≠ .setFormatter g

end Verif
