import Verif.Model.Typed
import Verif.Spec.Subst

/-! # Specification of typed values -/

namespace Verif

/-- `isinstance(v, t)`: every boolean also is an int in Python. -/
inductive IsA : PyVal → ScalarTy → Prop
  | int (i : Int) : IsA (.int i) .int
  | boolInt (b : Bool) : IsA (.bool b) .int
  | float (f : Flt) : IsA (.float f) .float
  | bool (b : Bool) : IsA (.bool b) .bool
  | str (s : String) : IsA (.str s) .str

/-- `type(v) is t`. -/
inductive ExactlyA : PyVal → ScalarTy → Prop
  | int (i : Int) : ExactlyA (.int i) .int
  | float (f : Flt) : ExactlyA (.float f) .float
  | bool (b : Bool) : ExactlyA (.bool b) .bool
  | str (s : String) : ExactlyA (.str s) .str

/-- Instances of a data type: of the scalar type, a list with all members of the member type, or (no type requested) an instance of one of the
supported types. -/
def OfType (v : PyVal) : Option DataTy → Prop
  | some (.scalar t) => IsA v t
  | some (.list t) => ∃ l, v = .list l ∧ ∀ x ∈ l, IsA x t
  | none => (∃ t, IsA v t) ∨ ∃ l t, v = .list l ∧ ∀ x ∈ l, IsA x t

/-- Like `OfType`, with strings admitted in the place of scalars. -/
def OfTypeOrStr (v : PyVal) : Option DataTy → Prop
  | some (.scalar t) => IsA v t ∨ IsA v .str
  | some (.list t) => ∃ l, v = .list l ∧ ∀ x ∈ l, IsA x t ∨ IsA x .str
  | none => (∃ t, IsA v t) ∨ ∃ l t, v = .list l ∧ ∀ x ∈ l, IsA x t ∨ IsA x .str

/-- The object for a scalar or a list of scalars. -/
def TVal.ofValue : PyVal → TVal
  | .list l => .seq (l.map TVal.ofScalar)
  | v => TVal.ofScalar v

/-- Two lists of the same length, related item by item. -/
inductive Each2 {α β : Type} (R : α → β → Prop) : List α → List β → Prop
  | nil : Each2 R [] []
  | cons {x : α} {y : β} {xs : List α} {ys : List β} : R x y → Each2 R xs ys → Each2 R (x :: xs) (y :: ys)

/-- A substitution as users write it: one substitution, or several texts and substitutions, at least one of them a substitution.
The second argument is the list of texts and substitutions to be concatenated. -/
inductive Written : TVal → List Sub → Prop
  | one (s : Sub) : Written (.sub s) [s]
  | several {l : List TVal} {ss : List Sub} : Each2 (fun x s => x = .sub s ∨ ∃ t, x = .str t ∧ s = .text t) l ss → (∃ s, TVal.sub s ∈ l) →
    Written (.seq l) ss

/-- The result of a list given by scalars and substitutions, item by item from left to right: scalars stay what they are, substitutions are performed
and their texts converted to the member type. -/
inductive ItemsGive (O : Oracle) (t : ScalarTy) : List TVal → Ctx → Ctx → List PyVal → Prop
  | nil (c : Ctx) : ItemsGive O t [] c c []
  | scalar {x : TVal} {v : PyVal} {xs : List TVal} {c c' : Ctx} {vs : List PyVal} : x = TVal.ofScalar v → ExactlyA v t →
    ItemsGive O t xs c c' vs → ItemsGive O t (x :: xs) c c' (v :: vs)
  | written {x : TVal} {ss : List Sub} {xs : List TVal} {c c1 c' : Ctx} {s : String} {v : PyVal} {vs : List PyVal} : Written x ss →
    performSubs O ss c = (c1, .ok s) → coerceToType O s (some (.scalar t)) = .ok v → ItemsGive O t xs c1 c' vs → ItemsGive O t (x :: xs) c c' (v :: vs)

end Verif
