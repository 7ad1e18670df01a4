import Verif.Model.TestBind

/-! # Specification of what tests are given -/

namespace Verif

variable {V : Type}

/-- What the calls of `bind` for one run and phase give under a name: that of the last call that has the name.  Other calls do not matter. -/
def lastGiven (given : BindCall V → Dict V) (run : Nat) (post : Bool) (name : String) : List (BindCall V) → Option V
  | [] => none
  | b :: bs => (lastGiven given run post name bs).or (if b.run = run ∧ b.post = post then (given b).get? name else none)

/-- The classes of a module before tests are loaded: base classes are older, nothing is bound yet, and there are no tests. -/
structure ModuleHeap (h : TestHeap V) : Prop where
  base : ∀ c b, (h.classes c).base = some b → b < c
  unbound : ∀ c n f, (h.classes c).attrs n = some f → f.bound = []

/-- The test classes of the module, as unittest finds them: the methods exist, their names begin with `test`, and the class has the fixtures that it
inherits at least from `unittest.TestCase`. -/
def TestClasses (h : TestHeap V) (classes : List (Nat × List String)) : Prop :=
  ∀ c ms, (c, ms) ∈ classes → c < h.nextClass ∧
    (∀ m ∈ ms, (∃ x, m = "test" ++ x) ∧ ∃ f, h.classAttr c m = some f) ∧
    ∀ n ∈ ["setUp", "tearDown", "setUpClass", "tearDownClass"], ∃ f, h.classAttr c n = some f

/-- Calls that give dictionaries. -/
def GiveDicts (calls : List (BindCall V)) : Prop := ∀ b ∈ calls, b.attributes.Wf ∧ b.args.Wf

/-- The function has the parameters of `f` and gets the arguments that `given` tells for their names, nothing else. -/
def GetsArgs (g : Option (Fn V)) (f : Fn V) (given : String → Option V) : Prop :=
  ∃ g', g = some g' ∧ g'.params = f.params ∧ ∀ a, g'.bound.get? a = if a ∈ f.params then given a else none

end Verif
