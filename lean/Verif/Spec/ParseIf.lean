import Verif.Model.ParseIf
import Verif.Spec.Typed

/-! # Specification of values that may contain substitutions -/

namespace Verif

/-- What one value of a file becomes: a text without substitutions the plain text, a text with substitutions the list of its parts, anything else
what it is. -/
inductive Becomes (F : Front) : PyVal → IfSub → Prop
  | plain {s t : String} : F.subst s = .ok [.text t] → Becomes F (.str s) (.val (.str t))
  | parts {s : String} {l : List Sub} : F.subst s = .ok l → (∀ t, l ≠ [.text t]) → Becomes F (.str s) (.subs l)
  | same {v : PyVal} : (∀ s, v ≠ .str s) → Becomes F v (.val v)

/-- Two plain values have the same Python type. -/
def SameType : PyVal → PyVal → Prop
  | .int _, .int _ | .float _, .float _ | .bool _, .bool _ | .str _, .str _ | .list _, .list _ => True
  | .other n, .other k => n = k
  | _, _ => False

/-- All plain values among the results have the same type. -/
def Uniform (rs : List IfSub) : Prop := ∀ v w, IfSub.val v ∈ rs → IfSub.val w ∈ rs → SameType v w

/-- The texts of a list of values of a file that may contain substitutions, evaluated from left to right. -/
inductive TextsGive (F : Front) : List String → Ctx → Ctx → List String → Prop
  | nil (c : Ctx) : TextsGive F [] c c []
  | cons {s v : String} {l : List Sub} {ss vs : List String} {c c1 c' : Ctx} : F.subst s = .ok l → performSubs F.O l c = (c1, .ok v) →
    TextsGive F ss c1 c' vs → TextsGive F (s :: ss) c c' (v :: vs)

end Verif
