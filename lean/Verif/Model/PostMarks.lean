import Verif.Model.TestLoad
import Verif.Py.Value

/-!
# Tests after shutdown, and classes that inherit from each other

launch_testing/launch_testing/decorator.py, and how the loaders read what it writes, loader.py:188-213.
-/

namespace Verif

/-- What happens to the attribute `__post_shutdown_test__`. -/
inductive MarkOp where
  /-- `post_shutdown_test()` decorates a class -/
  | decorate (c : Nat)
  /-- `post_shutdown_test()` decorates something that is not a class -/
  | decorateOther
  /-- a class body, or anybody else, assigns the attribute -/
  | assign (c : Nat) (b : Bool)
  deriving DecidableEq, Repr

/-- One of these, on the attributes of the classes themselves: decorator.py:18-22. -/
def markStep (own : List (Nat × Bool)) : MarkOp → List (Nat × Bool) × Res Unit
  | .decorate c => ((c, true) :: own, .ok ())
  | .decorateOther => (own, .error .typeError)
  | .assign c b => ((c, b) :: own, .ok ())

/-- A history of these, exceptions being caught. -/
def runMarks (own : List (Nat × Bool)) : List MarkOp → List (Nat × Bool)
  | [] => own
  | op :: ops => runMarks (markStep own op).1 ops

/-- The attribute of the class itself: the value assigned last. -/
def ownMark (own : List (Nat × Bool)) (c : Nat) : Option Bool := own.lookup c

/-- `getattr(c, '__post_shutdown_test__', False)`, loader.py:202: the attribute of the first class in the order of inheritance `mro c` (which begins with `c`) that has it. -/
def postAttr (mro : Nat → List Nat) (own : List (Nat × Bool)) (c : Nat) : Bool := ((mro c).findSome? (ownMark own)).getD false

/-- The tests that a loader gives, loader.py:188-213. -/
def markedTests (mro : Nat → List Nat) (own : List (Nat × Bool)) (loadPost : Bool) (classes : List (Nat × List String)) : List (Nat × String) :=
  loadTests (postAttr mro own) loadPost classes

end Verif
