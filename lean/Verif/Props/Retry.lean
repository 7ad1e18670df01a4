import Verif.Model.Retry

/-! # C55 retry_on_failure runs the test until the first success -/

namespace Verif

/-- An execution fails: it raises AssertionError, or it returns although a sub-test failed. -/
def TestRun.Fails (r : TestRun) : Prop := r.raises = some .assertionError ∨ (r.raises = none ∧ r.subTests ≠ [])

/-- An execution passes. -/
def TestRun.Passes (r : TestRun) : Prop := r.raises = none ∧ r.subTests = []

/-- The failures to be reported. -/
def TestState.reported (s : TestState) : List Bool := s.errors ++ s.resultErrors ++ s.resultFailures

theorem retryLoop_bounds (kind : TestSelf) (delay : Bool) (runs : Nat → TestRun) : ∀ (n k sl : Nat) (s : TestState),
    k + 1 ≤ (retryLoop kind delay runs n k sl s).executions ∧ (retryLoop kind delay runs n k sl s).executions ≤ k + max n 1 ∧
    (retryLoop kind delay runs n k sl s).sleeps = sl + (if delay then (retryLoop kind delay runs n k sl s).executions - (k + 1) else 0)
  | 0, k, sl, s => by simp [retryLoop]
  | 1, k, sl, s => by simp [retryLoop]
  | n + 2, k, sl, s => by
    have ih := retryLoop_bounds kind delay runs (n + 1) (k + 1)
    unfold retryLoop
    simp only
    split
    · refine ⟨Nat.le_refl _, by show k + 1 ≤ _; omega, by simp⟩
    · split
      · refine ⟨Nat.le_refl _, by show k + 1 ≤ _; omega, by simp⟩
      · rename_i s2 _
        obtain ⟨h1, h2, h3⟩ := ih (if delay = true then sl + 1 else sl) s2
        refine ⟨by omega, by omega, ?_⟩
        rw [h3]
        cases delay with
        | false => simp
        | true => simp only [if_true] at h1 ⊢; omega
    · refine ⟨Nat.le_refl _, by show k + 1 ≤ _; omega, by simp⟩

/-- C55: the test is executed at least once and at most `times` times, whatever happens, and the delay is waited between every two executions. -/
theorem C55_bounds (kind : TestSelf) (delay : Bool) (times : Nat) (ht : 0 < times) (runs : Nat → TestRun) (s : TestState) :
    1 ≤ (retry kind delay times runs s).executions ∧ (retry kind delay times runs s).executions ≤ times ∧
    (retry kind delay times runs s).sleeps = if delay then (retry kind delay times runs s).executions - 1 else 0 := by
  obtain ⟨h1, h2, h3⟩ := retryLoop_bounds kind delay runs times 0 0 s
  refine ⟨by simpa [retry] using h1, by unfold retry; omega, ?_⟩
  unfold retry
  rw [h3]
  simp

/-- Nothing of the executions so far is left to be reported. -/
def TestState.Clean (s : TestState) : Prop := s.success = true ∧ s.errors = []

theorem retryLoop_spec (delay : Bool) (runs : Nat → TestRun) : ∀ (j n k sl : Nat) (s : TestState), s.Clean → j < max n 1 →
    (∀ i, i < j → (runs (k + i)).Fails) → (¬ (runs (k + j)).Fails ∨ j + 1 = max n 1) →
    (retryLoop .caseErrors delay runs n k sl s).executions = k + j + 1 ∧
    (retryLoop .caseErrors delay runs n k sl s).raises = (runs (k + j)).raises ∧
    (retryLoop .caseErrors delay runs n k sl s).state.errors = (runs (k + j)).subTests ∧
    (retryLoop .caseErrors delay runs n k sl s).state.resultErrors = s.resultErrors ∧
    (retryLoop .caseErrors delay runs n k sl s).state.resultFailures = s.resultFailures
  | j, 0, k, sl, s, hs, hj, hf, hl => by
    have : j = 0 := by omega
    subst this
    simp [retryLoop, TestState.exec, hs.2]
  | j, 1, k, sl, s, hs, hj, hf, hl => by
    have : j = 0 := by omega
    subst this
    simp [retryLoop, TestState.exec, hs.2]
  | 0, n + 2, k, sl, s, hs, hj, hf, hl => by
    have hl' : ¬ (runs k).Fails := by
      rcases hl with h | h
      · simpa using h
      · omega
    unfold retryLoop
    simp only [Nat.add_zero]
    cases hr : (runs k).raises with
    | none =>
      have hsub : (runs k).subTests = [] := by
        cases hh : (runs k).subTests with
        | nil => rfl
        | cons b bs => exact absurd (.inr ⟨hr, by rw [hh]; simp⟩) hl'
      simp [TestState.exec, hsub, hs.1, hs.2]
    | some e =>
      have he : e ≠ .assertionError := fun h => hl' (.inl (by rw [hr, h]))
      cases e <;> first | exact absurd rfl he | simp [TestState.exec, hs.2]
  | j + 1, n + 2, k, sl, s, hs, hj, hf, hl => by
    have h0 := hf 0 (by omega)
    simp only [Nat.add_zero] at h0
    have key : retryLoop .caseErrors delay runs (n + 2) k sl s =
        retryLoop .caseErrors delay runs (n + 1) (k + 1) (if delay then sl + 1 else sl)
          { (s.exec .caseErrors (runs k)) with errors := [], success := true } := by
      rcases h0 with h | ⟨h, h'⟩
      · rw [retryLoop]
        simp only [h, TestState.forget]
      · have : ((runs k).subTests.isEmpty) = false := by
          cases hh : (runs k).subTests with
          | nil => exact absurd hh h'
          | cons _ _ => rfl
        rw [retryLoop]
        simp [h, TestState.exec, this, TestState.forget]
    have ih := retryLoop_spec delay runs j (n + 1) (k + 1) (if delay then sl + 1 else sl)
      { (s.exec .caseErrors (runs k)) with errors := [], success := true } ⟨rfl, rfl⟩ (by omega)
      (fun i hi => by have := hf (i + 1) (by omega); rwa [show k + 1 + i = k + (i + 1) by omega])
      (by
        rw [show k + 1 + j = k + (j + 1) by omega]
        rcases hl with h | h
        · exact .inl h
        · exact .inr (by omega))
    rw [key]
    obtain ⟨h1, h2, h3, h4, h5⟩ := ih
    refine ⟨by omega, ?_, ?_, h4, h5⟩
    · rw [h2, show k + 1 + j = k + (j + 1) by omega]
    · rw [h3, show k + 1 + j = k + (j + 1) by omega]

/-- C55 for Python before 3.11: the executions go on exactly up to the first one that does not fail, or to the last one allowed; only this one
counts: its exception is raised and the failures of its sub-tests are reported, nothing of the others, and nothing of other tests is touched. -/
theorem C55_until_first_success_partial (delay : Bool) (times : Nat) (runs : Nat → TestRun) (s : TestState) (hs : s.Clean) (j : Nat)
    (hj : j < times) (hf : ∀ i, i < j → (runs i).Fails) (hl : ¬ (runs j).Fails ∨ j + 1 = times) :
    (retry .caseErrors delay times runs s).executions = j + 1 ∧ (retry .caseErrors delay times runs s).raises = (runs j).raises ∧
    (retry .caseErrors delay times runs s).state.reported = (runs j).subTests ++ s.resultErrors ++ s.resultFailures := by
  obtain ⟨h1, h2, h3, h4, h5⟩ := retryLoop_spec delay runs j times 0 0 s hs (by omega)
    (fun i hi => by simpa using hf i hi) (by
      rcases hl with h | h
      · exact .inl (by simpa using h)
      · exact .inr (by omega))
  unfold retry TestState.reported
  simp only [Nat.zero_add] at h1 h2 h3
  exact ⟨h1, h2, by rw [h3, h4, h5]⟩

/-- The failures of the sub-tests of the executions `k`, …, `k + n - 1`. -/
def failedSubTests (runs : Nat → TestRun) (k : Nat) : Nat → List Bool
  | 0 => []
  | n + 1 => (runs k).subTests.filter (fun b => b) ++ failedSubTests runs (k + 1) n

theorem retryLoop_spec' (delay : Bool) (runs : Nat → TestRun) : ∀ (j n k sl : Nat) (s : TestState), s.success = true → j < max n 1 →
    (∀ i, i < j → (runs (k + i)).Fails) → (¬ (runs (k + j)).Fails ∨ j + 1 = max n 1) →
    (retryLoop .caseResult delay runs n k sl s).executions = k + j + 1 ∧
    (retryLoop .caseResult delay runs n k sl s).raises = (runs (k + j)).raises ∧
    (retryLoop .caseResult delay runs n k sl s).state.resultFailures = s.resultFailures ++ failedSubTests runs k (j + 1) ∧
    (retryLoop .caseResult delay runs n k sl s).state.resultErrors =
      (if j = 0 then s.resultErrors else []) ++ (runs (k + j)).subTests.filter (fun b => !b)
  | j, 0, k, sl, s, hs, hj, hf, hl => by
    have : j = 0 := by omega
    subst this
    simp [retryLoop, TestState.exec, failedSubTests]
  | j, 1, k, sl, s, hs, hj, hf, hl => by
    have : j = 0 := by omega
    subst this
    simp [retryLoop, TestState.exec, failedSubTests]
  | 0, n + 2, k, sl, s, hs, hj, hf, hl => by
    have hl' : ¬ (runs k).Fails := by
      rcases hl with h | h
      · simpa using h
      · omega
    unfold retryLoop
    simp only [Nat.add_zero]
    cases hr : (runs k).raises with
    | none =>
      have hsub : (runs k).subTests = [] := by
        refine Classical.byContradiction fun h => hl' (.inr ⟨hr, h⟩)
      simp [TestState.exec, hsub, hs, failedSubTests]
    | some e =>
      have he : e ≠ .assertionError := fun h => hl' (.inl (by rw [hr, h]))
      cases e <;> first | exact absurd rfl he | simp [TestState.exec, failedSubTests]
  | j + 1, n + 2, k, sl, s, hs, hj, hf, hl => by
    have h0 := hf 0 (by omega)
    simp only [Nat.add_zero] at h0
    have key : retryLoop .caseResult delay runs (n + 2) k sl s =
        retryLoop .caseResult delay runs (n + 1) (k + 1) (if delay then sl + 1 else sl)
          { (s.exec .caseResult (runs k)) with resultErrors := [], success := true } := by
      rcases h0 with h | ⟨h, h'⟩
      · rw [retryLoop]
        simp only [h, TestState.forget]
      · have : ((runs k).subTests.isEmpty) = false := by
          cases hh : (runs k).subTests with
          | nil => exact absurd hh h'
          | cons _ _ => rfl
        rw [retryLoop]
        simp [h, TestState.exec, this, TestState.forget]
    have ih := retryLoop_spec' delay runs j (n + 1) (k + 1) (if delay then sl + 1 else sl)
      { (s.exec .caseResult (runs k)) with resultErrors := [], success := true } rfl (by omega)
      (fun i hi => by have := hf (i + 1) (by omega); rwa [show k + 1 + i = k + (i + 1) by omega])
      (by
        rw [show k + 1 + j = k + (j + 1) by omega]
        rcases hl with h | h
        · exact .inl h
        · exact .inr (by omega))
    rw [key]
    obtain ⟨h1, h2, h3, h4⟩ := ih
    refine ⟨by omega, ?_, ?_, ?_⟩
    · rw [h2, show k + 1 + j = k + (j + 1) by omega]
    · rw [h3]; simp [TestState.exec, failedSubTests]
    · rw [h4, show k + 1 + j = k + (j + 1) by omega]; simp

/-- C55 from Python 3.11 on: the executions go on exactly up to the first one that does not fail, or to the last one allowed, and this one's exception (or
none) is raised.  The errors in its sub-tests are reported, but also the failures of the sub-tests of all executions, and the errors reported before
are lost if there was a retry.  Missing: these two, see `C55_subtest_failure_kept_violated` and `C55_erases_errors_violated`. -/
theorem C55_subtests_partial (delay : Bool) (times : Nat) (runs : Nat → TestRun) (s : TestState) (hs : s.success = true) (j : Nat)
    (hj : j < times) (hf : ∀ i, i < j → (runs i).Fails) (hl : ¬ (runs j).Fails ∨ j + 1 = times) :
    (retry .caseResult delay times runs s).executions = j + 1 ∧ (retry .caseResult delay times runs s).raises = (runs j).raises ∧
    (retry .caseResult delay times runs s).state.resultFailures = s.resultFailures ++ failedSubTests runs 0 (j + 1) ∧
    (retry .caseResult delay times runs s).state.resultErrors =
      (if j = 0 then s.resultErrors else []) ++ (runs j).subTests.filter (fun b => !b) := by
  obtain ⟨h1, h2, h3, h4⟩ := retryLoop_spec' delay runs j times 0 0 s hs (by omega)
    (fun i hi => by simpa using hf i hi) (by
      rcases hl with h | h
      · exact .inl (by simpa using h)
      · exact .inr (by omega))
  simp only [Nat.zero_add] at h1 h2 h4
  exact ⟨h1, h2, h3, h4⟩

/-- C55 from Python 3.11 on, for tests without sub-tests: the executions go on exactly up to the first one that does not fail, or to the last one
allowed, and this one's exception (or none) is raised.  What becomes of the errors of other tests is `C55_erases_errors_violated`. -/
theorem C55_no_subtests_partial (delay : Bool) (times : Nat) (runs : Nat → TestRun) (s : TestState) (hs : s.success = true)
    (hsub : ∀ i, (runs i).subTests = []) (j : Nat)
    (hj : j < times) (hf : ∀ i, i < j → (runs i).Fails) (hl : ¬ (runs j).Fails ∨ j + 1 = times) :
    (retry .caseResult delay times runs s).executions = j + 1 ∧ (retry .caseResult delay times runs s).raises = (runs j).raises ∧
    (retry .caseResult delay times runs s).state.resultFailures = s.resultFailures := by
  obtain ⟨h1, h2, h3, _⟩ := C55_subtests_partial delay times runs s hs j hj hf hl
  have : ∀ n k, failedSubTests runs k n = [] := by
    intro n
    induction n with
    | zero => intro k; rfl
    | succ n ih => intro k; simp [failedSubTests, hsub, ih]
  exact ⟨h1, h2, by rw [h3, this]; simp⟩

/-- An error in a sub-test of the first execution, and one in the last: only the last one is reported. -/
example : (retry .caseResult false 2 (fun k => if k = 0 then { subTests := [false] } else { subTests := [true, false] }) {}).state =
    { success := false, resultErrors := [false], resultFailures := [true] } := by decide

/-- C55 is violated from Python 3.11 on: a sub-test that failed in the first execution is reported although the second one passed. -/
theorem C55_subtest_failure_kept_violated : ∃ runs : Nat → TestRun, (runs 1).Passes ∧
    (retry .caseResult false 3 runs {}).executions = 2 ∧ (retry .caseResult false 3 runs {}).raises = none ∧
    (retry .caseResult false 3 runs {}).state.reported ≠ [] :=
  ⟨fun k => if k = 0 then { subTests := [true] } else {}, ⟨rfl, rfl⟩, by decide, by decide, by decide⟩

/-- C55 is violated from Python 3.11 on: a retry erases the errors earlier tests have reported, so that a run of tests with errors counts as
successful. -/
theorem C55_erases_errors_violated (earlier : List Bool) : ∃ runs : Nat → TestRun, (runs 1).Passes ∧
    (retry .caseResult false 3 runs { resultErrors := earlier }).state.reported = [] :=
  ⟨fun k => if k = 0 then { raises := some .assertionError } else {}, ⟨rfl, rfl⟩, rfl⟩

/-- C55 is violated for tests that are not methods of a unittest.TestCase: the first failure ends in an AttributeError, without any retry. -/
theorem C55_plain_violated (delay : Bool) (times : Nat) (ht : 1 < times) (runs : Nat → TestRun) (s : TestState)
    (h : (runs 0).raises = some .assertionError) :
    (retry .plain delay times runs s).executions = 1 ∧ (retry .plain delay times runs s).raises = some .attributeError := by
  obtain ⟨n, rfl⟩ : ∃ n, times = n + 2 := ⟨times - 2, by omega⟩
  simp [retry, retryLoop, h, TestState.forget]

/-- Two failures, one by a sub-test, then a success: three executions of five allowed, nothing to report. -/
example : (retry .caseErrors true 5 (fun k => if k = 0 then { raises := some .assertionError } else if k = 1 then { subTests := [true] } else {})
    { resultFailures := [true] }) = { executions := 3, sleeps := 2, state := { resultFailures := [true] }, raises := none } := by decide

/-- Another exception ends the retries. -/
example : (retry .caseErrors true 5 (fun k => if k = 0 then { raises := some .assertionError } else { raises := some .valueError })
    {}).raises = some .valueError := by decide

end Verif
