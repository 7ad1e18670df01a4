import Verif.Model.Oracle

/-!
# Versions
-/

namespace Verif

/-- A version of three numbers. -/
structure Version where
  major : Nat
  minor : Nat
  patch : Nat
  deriving DecidableEq, Repr

/-- The first version is the second one or a later one. -/
def Version.NotBefore (v w : Version) : Prop :=
  w.major < v.major ∨ (w.major = v.major ∧ (w.minor < v.minor ∨ (w.minor = v.minor ∧ w.patch ≤ v.patch)))

/-- The text is a number of a version: Python reads it as this number, and it has no dot. -/
def IsNumber (O : Oracle) (s : String) (n : Nat) : Prop := '.' ∉ s.toList ∧ O.parseInt s = some n

/-- The text is this version, written with two dots. -/
def IsVersion (O : Oracle) (text : String) (v : Version) : Prop :=
  ∃ a b c, text = a ++ "." ++ b ++ "." ++ c ∧ IsNumber O a v.major ∧ IsNumber O b v.minor ∧ IsNumber O c v.patch

end Verif
