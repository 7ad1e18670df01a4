/-!
# Order of collected tests

launch_pytest/launch_pytest/plugin.py:137-309.
-/

namespace Verif

/-- A collected item, as far as the order depends on it.  Fixture functions and parameters are numbered; `==` of parameters is taken to be the
equality of values. -/
structure TestItem where
  id : Nat
  /-- the closest `launch` marker: its `fixture` keyword argument -/
  mark : Option (Option Nat) := none
  /-- `_launch_pytest_is_shutdown`, plugin.py:254-256 -/
  shutdown : Bool := false
  /-- `item.callspec.params.get(name)`, plugin.py:271-274 -/
  params : Option Nat := none
  deriving DecidableEq, Repr

namespace TestItem

/-- `is_launch_test`, plugin.py:137-140. -/
def isLaunch (x : TestItem) : Bool := x.mark.isSome

/-- `get_launch_test_fixture`, plugin.py:158-163. -/
def fixture (x : TestItem) : Option Nat :=
  match x.mark with
  | some f => f
  | none => none

end TestItem

/-- `is_same_launch_test_fixture`, plugin.py:259-275.  `functionScope f`: the fixture's scope is 'function'. -/
def sameFixture (functionScope : Nat → Bool) (l r : TestItem) : Bool :=
  match l.fixture, r.fixture with
  | some f, some g => if f ≠ g then false else if functionScope f then false else l.params == r.params
  | _, _ => false

/-- The inner loop, plugin.py:301-307: the last position of a normal test with the same fixture; `j` is the position of the head. -/
def newPosition (fs : Nat → Bool) (x : TestItem) : List TestItem → Nat → Option Nat → Option Nat
  | [], _, pos => pos
  | y :: ys, j, pos => newPosition fs x ys (j + 1) (if sameFixture fs x y && x.shutdown && !y.shutdown then some j else pos)

/-- `items.insert(pos, x)`. -/
def insertAt (pos : Nat) (x : TestItem) (l : List TestItem) : List TestItem := l.take pos ++ x :: l.drop pos

/-- One step of the outer loop, plugin.py:299-309. -/
def moveItem (fs : Nat → Bool) (items : List TestItem) (ix : TestItem × Nat) : List TestItem :=
  if !ix.1.isLaunch then items
  else match newPosition fs ix.1 (items.drop (ix.2 + 1)) (ix.2 + 1) none with
    | some pos => insertAt pos ix.1 (items.eraseIdx ix.2)
    | none => items

/-- `pytest_collection_modifyitems`, plugin.py:278-309; `items[::-1]` is a copy. -/
def modifyItems (fs : Nat → Bool) (items : List TestItem) : List TestItem := (items.zipIdx.reverse).foldl (moveItem fs) items

end Verif
