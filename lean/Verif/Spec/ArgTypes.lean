import Verif.Model.ArgTypes

/-!
# What the checks are to find out
-/

namespace Verif

/-- The object is an instance of the class or of a subclass of it. -/
def InstanceOf (C : PyClasses) (o : PyThing) (c : Nat) : Prop :=
  match o with
  | .inst d => C.sub d c = true
  | .cls d => C.sub (C.metaOf d) c = true

/-- The object is a class, and the class is a subclass of `c`. -/
def SubclassOf (C : PyClasses) (o : PyThing) (c : Nat) : Prop := ∃ d, o = .cls d ∧ C.sub d c = true

/-- The class occurs in the type, which may be a tuple of types. -/
inductive Mentions : TypeArg → Nat → Prop
  | cls (c : Nat) : Mentions (.cls c) c
  | tuple (l : List TypeArg) (t : TypeArg) (c : Nat) (h : t ∈ l) (m : Mentions t c) : Mentions (.tuple l) c

/-- A class, or a tuple of such. -/
inductive OnlyTypes : TypeArg → Prop
  | cls (c : Nat) : OnlyTypes (.cls c)
  | tuple (l : List TypeArg) (h : ∀ t ∈ l, OnlyTypes t) : OnlyTypes (.tuple l)

end Verif
