import Verif.Py.Value

/-!
# Results of launch tests

launch_testing/launch_testing/test_result.py, test_runner.py:219-275, launch_test.py:102-128 and junitxml.py.

A result is what the calls of `unittest` on it make of it: `startTest`, `addFailure` and so on.  Times are not modelled.
-/

namespace Verif

/-- A test case.  `unittest.TestCase.__eq__` compares the class and the name of the method; `classId` is the class object, which
loader.py:203-208 makes afresh for each run and for tests before and after shutdown; `className` is what `unittest.util.strclass` gives for it. -/
structure CaseId where
  classId : Nat
  className : String
  method : String
  deriving DecidableEq, Repr, Inhabited

/-- What an entry of a result is about. -/
inductive Subject where
  | case (t : CaseId)
  /-- a sub-test (`with self.subTest()`): an object of its own, not equal to the test case it is part of -/
  | subTest (t : CaseId) (n : Nat)
  /-- `setUpClass`, `tearDownClass`, `setUpModule` or `tearDownModule`: unittest's `_ErrorHolder` -/
  | fixture (name : String)
  deriving DecidableEq, Repr

/-- A call that `unittest` makes on the result; messages are the formatted ones. -/
inductive ResultCall where
  | start (t : CaseId)
  | stop (t : CaseId)
  | success (t : CaseId)
  | failure (s : Subject) (msg : String)
  | error (s : Subject) (msg : String)
  | skip (s : Subject) (reason : String)
  | expectedFailure (s : Subject) (msg : String)
  | unexpectedSuccess (s : Subject)
  deriving DecidableEq, Repr

/-- `unittest.TestResult` with what test_result.py adds to it. -/
structure CaseResult where
  /-- the keys of `__test_cases`, test_result.py:73; for FailResult and SkipResult: `testCases` -/
  cases : List CaseId := []
  failures : List (Subject × String) := []
  errors : List (Subject × String) := []
  skipped : List (Subject × String) := []
  expectedFailures : List (Subject × String) := []
  unexpectedSuccesses : List Subject := []
  testsRun : Nat := 0
  deriving DecidableEq, Repr

namespace CaseResult

/-- `self.__test_cases[test] = …`, as far as the keys go. -/
def addCase (l : List CaseId) (t : CaseId) : List CaseId := if t ∈ l then l else l ++ [t]

/-- test_result.py:85-94 and the methods of unittest.TestResult. -/
def call (r : CaseResult) : ResultCall → CaseResult
  | .start t => { r with cases := addCase r.cases t, testsRun := r.testsRun + 1 }
  | .stop _ => r
  | .success _ => r
  | .failure s m => { r with failures := r.failures ++ [(s, m)] }
  | .error s m => { r with errors := r.errors ++ [(s, m)] }
  | .skip s m => { r with skipped := r.skipped ++ [(s, m)] }
  | .expectedFailure s m => { r with expectedFailures := r.expectedFailures ++ [(s, m)] }
  | .unexpectedSuccess s => { r with unexpectedSuccesses := r.unexpectedSuccesses ++ [s] }

/-- A result on which these calls have been made. -/
def calls (r : CaseResult) (cs : List ResultCall) : CaseResult := cs.foldl call r

/-- `TestResult.append`, test_result.py:96-104. -/
def append (r o : CaseResult) : CaseResult :=
  { cases := o.cases.foldl addCase r.cases
    failures := r.failures ++ o.failures
    errors := r.errors ++ o.errors
    skipped := r.skipped ++ o.skipped
    expectedFailures := r.expectedFailures ++ o.expectedFailures
    unexpectedSuccesses := r.unexpectedSuccesses ++ o.unexpectedSuccesses
    testsRun := r.testsRun + o.testsRun }

end CaseResult

/-- The result of a run: its class decides about `wasSuccessful`. -/
inductive LaunchResult where
  /-- TestResult: `wasSuccessful` of unittest.TestResult -/
  | ran (r : CaseResult)
  /-- FailResult, test_result.py:20-39 -/
  | failed (r : CaseResult)
  /-- SkipResult, test_result.py:42-61 -/
  | skippedAll (r : CaseResult)
  deriving DecidableEq, Repr

namespace LaunchResult

/-- The data. -/
def data : LaunchResult → CaseResult
  | ran r => r
  | failed r => r
  | skippedAll r => r

/-- `wasSuccessful`. -/
def wasSuccessful : LaunchResult → Bool
  | ran r => r.failures.isEmpty && r.errors.isEmpty && r.unexpectedSuccesses.isEmpty
  | failed _ => false
  | skippedAll _ => true

/-- `FailResult(test_run, message)`, test_result.py:23-31. -/
def fail (allCases : List CaseId) (message : String) : LaunchResult :=
  .failed { cases := allCases, failures := allCases.map fun t => (.case t, message), testsRun := allCases.length }

/-- `SkipResult(test_run, skip_reason)`, test_result.py:45-53. -/
def skip (allCases : List CaseId) (reason : String) : LaunchResult :=
  .skippedAll { cases := allCases, skipped := allCases.map fun t => (.case t, reason), testsRun := allCases.length }

end LaunchResult

/-- How `_RunnerWorker.run` ends. -/
inductive WorkerEnd where
  | results (r : CaseResult)
  /-- a SkipTest exception -/
  | skipTest (reason : String)
  /-- a _LaunchDiedException -/
  | died
  /-- any other exception -/
  | raised (e : Err)

/-- A run of `LoadTestsFromPythonModule` and how its worker ends. -/
structure LaunchRun where
  /-- `str(run)`, loader.py:159-167 -/
  name : String
  /-- `all_cases()`, loader.py:155-157 -/
  cases : List CaseId
  ends : WorkerEnd

/-- The message of test_runner.py:271. -/
def diedMessage : String := "Launch stopped before the active tests finished."

/-- The loop of `LaunchTestRunner.run`, test_runner.py:249-275; the results in the order in which the dictionary has them. -/
def runAll : List LaunchRun → Res (List (String × LaunchResult))
  | [] => .ok []
  | r :: rs =>
    match r.ends with
    | .results x =>
      match runAll rs with
      | .ok l => .ok ((r.name, .ran x) :: l)
      | .error e => .error e
    | .skipTest reason =>
      match runAll rs with
      | .ok l => .ok ((r.name, .skip r.cases reason) :: l)
      | .error e => .error e
    -- line 273: `break`
    | .died => .ok [(r.name, .fail r.cases diedMessage)]
    | .raised e => .error e

/-- The exit code, launch_test.py:125-128: `none` if an exception leaves `run` (`main` then ends with `parser.error`, exit code 2). -/
def launchTestExit (runs : List LaunchRun) : Option Nat :=
  match runAll runs with
  | .ok l => some (if l.all (fun p => p.2.wasSuccessful) then 0 else 1)
  | .error _ => none

/-! ## The xUnit report -/

/-- `<testcase>`, junitxml.py:76-112. -/
structure CaseXml where
  classname : String
  name : String
  failures : List String
  errors : List String
  skipped : List String
  deriving DecidableEq, Repr

/-- `<testsuite>`, junitxml.py:54-73. -/
structure SuiteXml where
  name : String
  tests : Nat
  failures : Nat
  errors : Nat
  skipped : Nat
  cases : List CaseXml
  deriving DecidableEq, Repr

/-- `<testsuites>`, junitxml.py:19-51. -/
structure ReportXml where
  name : String
  tests : Nat
  failures : Nat
  errors : Nat
  suites : List SuiteXml
  deriving DecidableEq, Repr

/-- `s.partition(' ')` without the separator. -/
def partitionBlank : List Char → List Char × List Char
  | [] => ([], [])
  | c :: cs => if c = ' ' then ([], cs) else (c :: (partitionBlank cs).1, (partitionBlank cs).2)

/-- `s.rpartition('.')` without the separator: what is before the last dot (nothing if there is none) and what is after it. -/
def rpartitionDot (cs : List Char) : List Char × List Char :=
  if '.' ∈ cs then (((cs.reverse.dropWhile (· ≠ '.')).drop 1).reverse, (cs.reverse.takeWhile (· ≠ '.')).reverse) else ([], cs)

/-- `test_case.id()`: unittest gives `'%s.%s' % (strclass(self.__class__), self._testMethodName)`. -/
def CaseId.id (t : CaseId) : List Char := t.className.toList ++ '.' :: t.method.toList

/-- junitxml.py:86-89: the attributes `classname` and `name`. -/
def xmlNames (id : List Char) : String × String :=
  let p := partitionBlank id
  let q := rpartitionDot p.1
  (String.ofList q.1, String.ofList (stripChars (q.2 ++ ' ' :: p.2)))

/-- The messages of those entries that are equal to the test case, junitxml.py:92-110. -/
def messagesOf (t : CaseId) (l : List (Subject × String)) : List String :=
  (l.filter fun e => e.1 = .case t).map (·.2)

/-- `unittestCaseToXml`, junitxml.py:76-112. -/
def caseXml (r : CaseResult) (t : CaseId) : CaseXml :=
  { classname := (xmlNames t.id).1
    name := (xmlNames t.id).2
    failures := messagesOf t r.failures
    errors := messagesOf t r.errors
    skipped := messagesOf t r.skipped }

/-- `unittestResultToXml`, junitxml.py:54-73. -/
def suiteXml (name : String) (r : CaseResult) : SuiteXml :=
  { name, tests := r.testsRun, failures := r.failures.length, errors := r.errors.length, skipped := r.skipped.length
    cases := r.cases.map (caseXml r) }

/-- `unittestResultsToXml`, junitxml.py:19-51. -/
def reportXml (name : String) (rs : List (String × LaunchResult)) : ReportXml :=
  { name
    tests := rs.foldl (fun n p => n + p.2.data.testsRun) 0
    failures := rs.foldl (fun n p => n + p.2.data.failures.length) 0
    errors := rs.foldl (fun n p => n + p.2.data.errors.length) 0
    suites := rs.map fun p => suiteXml p.1 p.2.data }

end Verif
