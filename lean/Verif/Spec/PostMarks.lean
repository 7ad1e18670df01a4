import Verif.Model.PostMarks

/-!
# When a class is for tests after shutdown
-/

namespace Verif

/-- The operation gives the class itself this mark. -/
def MarkOp.Gives (op : MarkOp) (c : Nat) (b : Bool) : Prop := (op = .decorate c ∧ b = true) ∨ op = .assign c b

/-- The mark the class itself was given last. -/
def LastMark (ops : List MarkOp) (c : Nat) (b : Bool) : Prop := ∃ before op after, ops = before ++ op :: after ∧ op.Gives c b ∧ ∀ o ∈ after, ∀ b', ¬ o.Gives c b'

/-- The mark of the nearest class in the order of inheritance that was given one. -/
def NearestMark (mro : Nat → List Nat) (ops : List MarkOp) (c : Nat) (b : Bool) : Prop :=
  ∃ nearer d further, mro c = nearer ++ d :: further ∧ LastMark ops d b ∧ ∀ x ∈ nearer, ∀ op ∈ ops, ∀ b', ¬ op.Gives x b'

end Verif
