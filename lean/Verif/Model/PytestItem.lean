import Verif.Model.TestResult
import Verif.Model.TextMatch

/-!
# Launch tests as pytest items

launch_testing/launch_testing/pytest/hooks.py: which modules pytest takes for launch tests, the verdict of the item such a module has, and what is
shown when it fails.

Not modelled: the import of modules, versions of pytest before 7, `--launch-args`, hooks of other plugins.
-/

namespace Verif

/-- How an item ends: hooks.py:98-117. -/
inductive ItemEnd where
  | passed
  /-- a LaunchTestFailure with these results -/
  | failed (results : List (String × LaunchResult))
  | raised (e : Err)

/-- `LaunchTestItem.runtest`, hooks.py:98-117.  `runner.validate()` is taken to succeed. -/
def itemRun (runs : List LaunchRun) : ItemEnd :=
  match runAll runs with
  | .error e => .raised e
  | .ok l => if l.any (fun p => !p.2.wasSuccessful) then .failed l else .passed

/-- Is it a `unittest.TestCase`?  Sub-tests (`_SubTest`) are, `_ErrorHolder`s are not. -/
def Subject.isTestCase : Subject → Bool
  | .case _ => true
  | .subTest _ _ => true
  | .fixture _ => false

/-- `id()`; `descr` gives the description of a sub-test, which unittest appends to the id of the test case. -/
def Subject.idWith (descr : CaseId → Nat → List Char) : Subject → List Char
  | .case t => t.id
  | .subTest t n => t.id ++ ' ' :: descr t n
  | .fixture name => name.toList

/-- The failures of `repr_failure`, hooks.py:119-126. -/
def shownFailures (descr : CaseId → Nat → List Char) (results : List (String × LaunchResult)) : List (List Char × List Char) :=
  results.flatMap fun r =>
    ((r.2.data.errors ++ r.2.data.failures).filter fun e => e.1.isTestCase && !r.2.wasSuccessful).map fun e =>
      (e.1.idWith descr, e.2.toList)

/-- `sep.join(parts)`. -/
def joinParts (sep : List Char) : List (List Char) → List Char
  | [] => []
  | [x] => x
  | x :: y :: l => x ++ sep ++ joinParts sep (y :: l)

/-- `max_length`, hooks.py:49-54. -/
def reprWidth (failures : List (List Char × List Char)) : Nat :=
  match failures.flatMap fun f => splitLines f.2 with
  | [] => 3
  | l :: ls => (l :: ls).foldl (fun n x => max n x.length) 0

/-- One failure, hooks.py:58-61. -/
def reprOne (width : Nat) (f : List Char × List Char) : List Char :=
  joinParts ['\n'] [List.replicate width '=', "FAIL: ".toList ++ f.1, List.replicate width '-', f.2]

/-- `LaunchTestFailureRepr._fulldescr`, hooks.py:48-63. -/
def reprText (failures : List (List Char × List Char)) : List Char :=
  '\n' :: joinParts ['\n', '\n'] (failures.map (reprOne (reprWidth failures)))

/-! ## Collection -/

/-- A mark: its name, and a number standing for its arguments. -/
structure PyMark where
  name : String
  args : Nat
  deriving DecidableEq, Repr

/-- What importing a module gives: a SyntaxError, another exception, a module without the function `generate_test_description`, or one with it and
its marks. -/
inductive PyImported where
  | syntaxError
  | raises (e : Err)
  | plain
  | entrypoint (marks : List PyMark)

/-- What pytest collects. -/
inductive PyCollected where
  | launchModule (markers : List PyMark)
  | module
  | package
  deriving DecidableEq, Repr

/-- `pytest_launch_collect_makemodule`, hooks.py:219-231, for the entrypoint found. -/
def launchModule (marks : List PyMark) : Option PyCollected :=
  if marks.any (fun m => m.name == "launch_test") then some (.launchModule marks) else none

/-- `pytest_pycollect_makemodule`, hooks.py:192-205, with `find_launch_test_entrypoint`, lines 176-189.  `isInit`: the file is called
`__init__.py`. -/
def makeModule (isInit : Bool) : PyImported → Res PyCollected
  | .raises e => .error e
  | .entrypoint marks =>
    match launchModule marks with
    | some m => .ok m
    | none => .ok (if isInit then .package else .module)
  | _ => .ok (if isInit then .package else .module)

end Verif
