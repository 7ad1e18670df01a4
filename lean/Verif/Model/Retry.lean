import Verif.Py.Value

/-!
# retry_on_failure

launch_testing/launch_testing/markers.py:29-63.  What `unittest` does is modelled as far as the decorator touches it: `_outcome` of a TestCase has
`success` and, before Python 3.11, a list `errors` of what is to be reported; from Python 3.11 on failures of sub-tests go to `failures` and other
exceptions in sub-tests to `errors` of the test result, which all tests share.
-/

namespace Verif

/-- What one execution of the decorated function does. -/
structure TestRun where
  /-- the failures of its sub-tests (`with self.subTest()`): `true` for an AssertionError, `false` for another exception -/
  subTests : List Bool := []
  /-- how it ends; `none`: it returns -/
  raises : Option Err := none

/-- The `self` of the test. -/
inductive TestSelf where
  /-- not a unittest.TestCase: there is no `_outcome` -/
  | plain
  /-- a TestCase, Python < 3.11: `_outcome.errors` exists -/
  | caseErrors
  /-- a TestCase, Python ≥ 3.11 -/
  | caseResult
  deriving DecidableEq, Repr

/-- The state `unittest` keeps. -/
structure TestState where
  success : Bool := true
  /-- `_outcome.errors`, Python < 3.11: reported at the end of the test -/
  errors : List Bool := []
  /-- `_outcome.result.errors`, including those of earlier tests -/
  resultErrors : List Bool := []
  /-- `_outcome.result.failures`, including those of earlier tests -/
  resultFailures : List Bool := []
  deriving DecidableEq, Repr

/-- The sub-tests of one execution report their failures (unittest). -/
def TestState.exec (kind : TestSelf) (r : TestRun) (s : TestState) : TestState :=
  match kind with
  | .plain => s
  | .caseErrors => { s with errors := s.errors ++ r.subTests, success := s.success && r.subTests.isEmpty }
  | .caseResult =>
    { s with
      resultFailures := s.resultFailures ++ r.subTests.filter (fun b => b)
      resultErrors := s.resultErrors ++ r.subTests.filter (fun b => !b)
      success := s.success && r.subTests.isEmpty }

/-- The `except AssertionError` part, markers.py:51-58. -/
def TestState.forget (kind : TestSelf) (s : TestState) : Res TestState :=
  match kind with
  | .plain => .error .attributeError
  | .caseErrors => .ok { s with errors := [], success := true }
  | .caseResult => .ok { s with resultErrors := [], success := true }

/-- What a call of the decorated function leads to. -/
structure Retried where
  executions : Nat
  sleeps : Nat
  state : TestState
  raises : Option Err
  deriving DecidableEq, Repr

/-- The loop, markers.py:43-61, from the kth execution on.  `n` is the counter, `delay`: whether a delay is given. -/
def retryLoop (kind : TestSelf) (delay : Bool) (runs : Nat → TestRun) : Nat → Nat → Nat → TestState → Retried
  | 0, k, sl, s => { executions := k + 1, sleeps := sl, state := s.exec kind (runs k), raises := (runs k).raises }
  | 1, k, sl, s => { executions := k + 1, sleeps := sl, state := s.exec kind (runs k), raises := (runs k).raises }
  | n + 2, k, sl, s =>
    let s1 := s.exec kind (runs k)
    -- line 47: `assert self._outcome.success`
    let raised := match (runs k).raises with
      | some e => some e
      | none => if kind ≠ TestSelf.plain && !s1.success then some .assertionError else none
    match raised with
    | none => { executions := k + 1, sleeps := sl, state := s1, raises := none }
    | some .assertionError =>
      match s1.forget kind with
      | .error e => { executions := k + 1, sleeps := sl, state := s1, raises := some e }
      | .ok s2 => retryLoop kind delay runs (n + 1) (k + 1) (if delay then sl + 1 else sl) s2
    | some e => { executions := k + 1, sleeps := sl, state := s1, raises := some e }

/-- `_wrapper`, markers.py:41-61; `times` is positive (line 37). -/
def retry (kind : TestSelf) (delay : Bool) (times : Nat) (runs : Nat → TestRun) (s : TestState) : Retried :=
  retryLoop kind delay runs times 0 0 s

end Verif
