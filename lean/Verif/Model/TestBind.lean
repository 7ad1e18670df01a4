import Verif.Model.TestLoad

/-!
# Objects bound to tests

launch_testing/launch_testing/loader.py:75-160, 162-308: the classes and instances of tests that are made for each run, and what `TestRun.bind` does to them.
-/

namespace Verif

/-- A function object: its parameters and the keyword arguments bound so far. -/
structure Fn (V : Type) where
  params : List String
  bound : Dict V := []

/-- `_partially_bind_matching_args`, loader.py:252-256.  `functools.partial` of a partial object merges the keyword arguments, later ones win; a keyword
argument that is bound stays in the signature. -/
def Fn.bindArgs {V : Type} (f : Fn V) (args : Dict V) : Fn V := { f with bound := f.bound.update (bindMatching f.params args) }

/-- A class: its base class (an older one), the functions and the injected attributes in its dictionary. -/
structure ClassObj (V : Type) where
  base : Option Nat := none
  attrs : String → Option (Fn V) := fun _ => none
  props : String → Option V := fun _ => none

/-- An instance of a test class with `_testMethodName` and the functions in its dictionary. -/
structure TestObj (V : Type) where
  cls : Nat := 0
  method : String := ""
  attrs : String → Option (Fn V) := fun _ => none

/-- All classes and tests, numbered in the order of their creation. -/
structure TestHeap (V : Type) where
  classes : Nat → ClassObj V := fun _ => {}
  nextClass : Nat := 0
  tests : Nat → TestObj V := fun _ => {}
  nextTest : Nat := 0

/-- A function changed at one place. -/
def put {α β : Type} [DecidableEq α] (f : α → β) (a : α) (b : β) : α → β := fun x => if x = a then b else f x

namespace TestHeap

variable {V : Type}

/-- `getattr(cls, name)`: the class and its base classes in order.  Simplification: one base class. -/
def classAttr (h : TestHeap V) (c : Nat) (n : String) : Option (Fn V) :=
  match (h.classes c).attrs n with
  | some f => some f
  | none =>
    match (h.classes c).base with
    | some b => if b < c then h.classAttr b n else none
    | none => none
termination_by c

/-- `getattr(test, name)`: the instance, then its class. -/
def testAttr (h : TestHeap V) (t : Nat) (n : String) : Option (Fn V) :=
  match (h.tests t).attrs n with
  | some f => some f
  | none => h.classAttr (h.tests t).cls n

/-- `setattr(test, name, f)`. -/
def setTestAttr (h : TestHeap V) (t : Nat) (n : String) (f : Fn V) : TestHeap V :=
  { h with tests := put h.tests t { h.tests t with attrs := put (h.tests t).attrs n (some f) } }

/-- `setattr(cls, name, f)`. -/
def setClassAttr (h : TestHeap V) (c : Nat) (n : String) (f : Fn V) : TestHeap V :=
  { h with classes := put h.classes c { h.classes c with attrs := put (h.classes c).attrs n (some f) } }

/-! ## Loading -/

/-- A new instance for each method, loader.py:203-207 (`unittest.TestLoader.loadTestsFromTestCase`). -/
def newTests (h : TestHeap V) (c : Nat) : List String → TestHeap V × List Nat
  | [] => (h, [])
  | m :: ms =>
    let h1 : TestHeap V := { h with tests := put h.tests h.nextTest { cls := c, method := m }, nextTest := h.nextTest + 1 }
    ((h1.newTests c ms).1, h.nextTest :: (h1.newTests c ms).2)

/-- `loadTestsFromTestCase` of the loader, loader.py:200-210: a new subclass of the test class, if it is to be run in this phase. -/
def loadClass (h : TestHeap V) (post : Nat → Bool) (loadPost : Bool) (c : Nat) (methods : List String) : TestHeap V × List Nat :=
  if post c = loadPost then
    ({ h with classes := put h.classes h.nextClass { base := some c }, nextClass := h.nextClass + 1 } : TestHeap V).newTests h.nextClass methods
  else (h, [])

/-- `loadTestsFromModule`, loader.py:177-178. -/
def loadModule (h : TestHeap V) (post : Nat → Bool) (loadPost : Bool) : List (Nat × List String) → TestHeap V × List Nat
  | [] => (h, [])
  | (c, ms) :: cs =>
    let r := h.loadClass post loadPost c ms
    let s := r.1.loadModule post loadPost cs
    (s.1, r.2 ++ s.2)

/-- The new name of a test in a parametrized run, loader.py:105-113. -/
def rename (h : TestHeap V) (suffix : String) (t : Nat) : TestHeap V :=
  match h.testAttr t (h.tests t).method with
  | none => h
  | some f =>
    let name := (h.tests t).method ++ suffix
    { h with tests := put h.tests t { h.tests t with method := name, attrs := put (h.tests t).attrs name (some f) } }

/-- The tests of a run: those for the active processes and those after shutdown. -/
structure Suites where
  pre : List Nat
  post : List Nat

/-- The tests of one of the two phases. -/
def Suites.of (s : Suites) : Bool → List Nat
  | false => s.pre
  | true => s.post

/-- One run, loader.py:104-113, 174-179; `suffix` is `none` if there are no parameters. -/
def loadRun (h : TestHeap V) (post : Nat → Bool) (classes : List (Nat × List String)) (suffix : Option String) : TestHeap V × Suites :=
  let a := h.loadModule post false classes
  let b := a.1.loadModule post true classes
  match suffix with
  | none => (b.1, ⟨a.2, b.2⟩)
  | some x => ((a.2 ++ b.2).foldl (fun h t => h.rename x t) b.1, ⟨a.2, b.2⟩)

/-- All runs, loader.py:174-180. -/
def loadRuns (h : TestHeap V) (post : Nat → Bool) (classes : List (Nat × List String)) : List (Option String) → TestHeap V × List Suites
  | [] => (h, [])
  | x :: xs =>
    let r := h.loadRun post classes x
    let s := r.1.loadRuns post classes xs
    (s.1, r.2 :: s.2)

/-! ## Binding -/

/-- `_iterate_test_classes_in_test_suite`, loader.py:281-286. -/
def classesOf (h : TestHeap V) (suite : List Nat) : List Nat :=
  suite.foldl (fun cs t => if (h.tests t).cls ∈ cs then cs else cs ++ [(h.tests t).cls]) []

/-- `_give_attribute_to_tests`, loader.py:259-278, without the warning. -/
def giveAttribute (h : TestHeap V) (suite : List Nat) (name : String) (v : V) : TestHeap V :=
  (h.classesOf suite).foldl (fun h c => { h with classes := put h.classes c { h.classes c with props := put (h.classes c).props name (some v) } }) h

/-- The function is replaced by one with the matching arguments bound, loader.py:222-239.  (The methods exist: those of tests have been found, and
`unittest.TestCase` has the others.) -/
def bindTestAttr (h : TestHeap V) (args : Dict V) (t : Nat) (n : String) : TestHeap V :=
  match h.testAttr t n with
  | some f => h.setTestAttr t n (f.bindArgs args)
  | none => h

/-- The same for a class, loader.py:242-249. -/
def bindClassAttr (h : TestHeap V) (args : Dict V) (c : Nat) (n : String) : TestHeap V :=
  match h.classAttr c n with
  | some f => h.setClassAttr c n (f.bindArgs args)
  | none => h

/-- One test, loader.py:222-239. -/
def bindTest (h : TestHeap V) (args : Dict V) (t : Nat) : TestHeap V :=
  ((h.bindTestAttr args t (h.tests t).method).bindTestAttr args t "setUp").bindTestAttr args t "tearDown"

/-- One class, loader.py:242-249. -/
def bindClass (h : TestHeap V) (args : Dict V) (c : Nat) : TestHeap V := (h.bindClassAttr args c "setUpClass").bindClassAttr args c "tearDownClass"

/-- `_bind_test_args_to_tests`, loader.py:216-249. -/
def bindArgs (h : TestHeap V) (suite : List Nat) (args : Dict V) : TestHeap V :=
  let h1 := suite.foldl (fun h t => h.bindTest args t) h
  (h1.classesOf suite).foldl (fun h c => h.bindClass args c) h1

/-- `TestRun.bind`, loader.py:126-144. -/
def bind (h : TestHeap V) (suite : List Nat) (attributes args : Dict V) : TestHeap V :=
  (attributes.foldl (fun h p => h.giveAttribute suite p.1 p.2) h).bindArgs suite args

end TestHeap

/-- A call of `TestRun.bind`, test_runner.py:91-126: for which run and phase, with which attributes and arguments. -/
structure BindCall (V : Type) where
  run : Nat
  post : Bool
  attributes : Dict V
  args : Dict V

/-- The calls one after another. -/
def TestHeap.bindCalls {V : Type} (runs : List TestHeap.Suites) (h : TestHeap V) (calls : List (BindCall V)) : TestHeap V :=
  calls.foldl (fun h b => match runs[b.run]? with
    | some s => h.bind (s.of b.post) b.attributes b.args
    | none => h) h

end Verif
