import Verif.Spec.LaunchTest
import Verif.Props.TestLoad
import Verif.Props.TestResult
import Verif.Props.TestReport
import Verif.Props.TestWorker

/-! # C109, C110: the command `launch_test` -/

namespace Verif

variable {V : Type}

/-! ## Exit code -/

theorem usable_iff (c : TestCommand V) (M : TestModule V) :
    c.Usable M ↔ c.isFile = true ∧ c.module = .ok M ∧ validateRuns M.baseArgs M.runs = .ok () := by
  have h := C88_validate M.baseArgs M.runs
  constructor
  · rintro ⟨h1, h2, h3⟩
    obtain ⟨u, h4⟩ := h.2 h3
    cases u
    exact ⟨h1, h2, h4⟩
  · rintro ⟨h1, h2, h3⟩
    exact ⟨h1, h2, h.1 ⟨_, h3⟩⟩

theorem main_usable (str : V → String) (c : TestCommand V) (M : TestModule V) (h : c.Usable M) :
    c.main str =
      if c.showArgs then
        match M.runs with
        | [] => { exit := 2 }
        | _ :: _ =>
          match c.describe with
          | .error _ => { exit := 2 }
          | .ok () => { exit := 0, shown := true }
      else c.finish (c.runs str M) := by
  obtain ⟨h1, h2, h3⟩ := (usable_iff c M).1 h
  simp only [TestCommand.main, h1, h2, h3]
  rfl

theorem main_unusable (str : V → String) (c : TestCommand V) (h : ∀ M, ¬ c.Usable M) : c.main str = { exit := 2 } := by
  simp only [TestCommand.main]
  split
  · rfl
  · rename_i h1
    split
    · rfl
    · rename_i M h2
      split
      · rfl
      · rename_i h3
        exact absurd ((usable_iff c M).2 ⟨by simpa using h1, h2, h3⟩) (h M)

theorem fine_iff (r : LaunchRun) : r.Fine ↔ r.ends.Fine := by
  cases h : r.ends <;> simp [LaunchRun.Fine, WorkerEnd.Fine, h, LaunchResult.wasSuccessful, and_assoc]

theorem mem_testRunsFrom (str : V → String) (name : String) (classes : List TestClass) (ends : Nat → WorkerEnd) (ps : List (Dict V)) (i : Nat) (r : LaunchRun) :
    r ∈ testRunsFrom str name classes ends i ps ↔ ∃ k p, ps[k]? = some p ∧ r = testRun str name classes ends (i + k) p := by
  induction ps generalizing i with
  | nil => simp [testRunsFrom]
  | cons q ps ih =>
    simp only [testRunsFrom, List.mem_cons, ih]
    constructor
    · rintro (h | ⟨k, p, h1, h2⟩)
      · exact ⟨0, q, rfl, h⟩
      · exact ⟨k + 1, p, h1, by rw [h2]; congr 1; omega⟩
    · rintro ⟨k, p, h1, h2⟩
      cases k with
      | zero => cases h1; exact .inl h2
      | succ k => exact .inr ⟨k, p, h1, by rw [h2]; congr 1; omega⟩

theorem runs_fine (str : V → String) (c : TestCommand V) (M : TestModule V) :
    (∀ r ∈ c.runs str M, r.Fine) ↔ ∀ i < M.runs.length, (c.ends i).Fine := by
  simp only [TestCommand.runs, mem_testRunsFrom]
  constructor
  · intro h i hi
    have := h _ ⟨i, M.runs[i], List.getElem?_eq_getElem hi, rfl⟩
    rw [fine_iff] at this
    simpa [testRun] using this
  · rintro h r ⟨k, p, h1, rfl⟩
    rw [fine_iff]
    have hk : k < M.runs.length := by
      rw [List.getElem?_eq_some_iff] at h1
      exact h1.1
    simpa [testRun] using h k hk

theorem finish_zero (c : TestCommand V) (runs : List LaunchRun) :
    (c.finish runs).exit = 0 ↔ launchTestExit runs = some 0 ∧ (c.xmlPath ≠ "" → c.write = .ok ()) := by
  simp only [TestCommand.finish, launchTestExit]
  cases runAll runs with
  | error e => simp
  | ok l =>
    simp only [Option.some.injEq]
    by_cases hx : c.xmlPath = ""
    · simp [hx]
    · simp only [hx, if_false]
      cases hw : c.write <;> simp [hx]

/-- C109 (success): `launch_test` exits with 0 exactly if the test file can be used and either its arguments were to be shown, and could be, or every run
is fine and the report, if one is wanted, was written.  In particular no problem of the test file, of a launch or of a test is taken for a success. -/
theorem C109_success (str : V → String) (c : TestCommand V) :
    (c.main str).exit = 0 ↔ ∃ M, c.Usable M ∧
      ((c.showArgs = true ∧ M.runs ≠ [] ∧ c.describe = .ok ()) ∨
        (c.showArgs = false ∧ (∀ i < M.runs.length, (c.ends i).Fine) ∧ (c.xmlPath ≠ "" → c.write = .ok ()))) := by
  by_cases hM : ∃ M, c.Usable M
  · obtain ⟨M, hM⟩ := hM
    have hu : ∀ M', c.Usable M' → M' = M := by
      intro M' h'
      have := h'.module.symm.trans hM.module
      cases this; rfl
    rw [main_usable str c M hM]
    constructor
    · intro h
      refine ⟨M, hM, ?_⟩
      cases hs : c.showArgs with
      | true =>
        rw [hs] at h
        simp only [if_true] at h
        cases hr : M.runs with
        | nil => rw [hr] at h; cases h
        | cons p ps =>
          rw [hr] at h
          simp only at h
          cases hd : c.describe with
          | error e => rw [hd] at h; cases h
          | ok u => cases u; exact .inl ⟨rfl, by simp, rfl⟩
      | false =>
        rw [hs] at h
        have h := (finish_zero c _).1 (by simpa using h)
        exact .inr ⟨rfl, (runs_fine str c M).1 ((C86_exit _).1 h.1), h.2⟩
    · rintro ⟨M', h', h⟩
      rw [hu M' h'] at h
      rcases h with ⟨h1, h2, h3⟩ | ⟨h1, h2, h3⟩
      · rw [h1, h3]
        cases hr : M.runs with
        | nil => exact absurd hr h2
        | cons p ps => rfl
      · rw [h1]
        show (c.finish _).exit = 0
        exact (finish_zero c _).2 ⟨(C86_exit _).2 ((runs_fine str c M).2 h2), h3⟩
  · have h : ∀ M, ¬ c.Usable M := fun M h => hM ⟨M, h⟩
    rw [main_unusable str c h]
    constructor
    · intro h; cases h
    · rintro ⟨M, h', _⟩; exact absurd h' (h M)

theorem finish_exit (c : TestCommand V) (runs : List LaunchRun) : (c.finish runs).exit = 0 ∨ (c.finish runs).exit = 1 ∨ (c.finish runs).exit = 2 := by
  simp only [TestCommand.finish]
  cases runAll runs with
  | error e => simp
  | ok l =>
    simp only
    by_cases hx : c.xmlPath = ""
    · simp only [hx, if_true]
      split <;> simp
    · simp only [hx, if_false]
      cases c.write with
      | error e => simp
      | ok u => cases u; simp only; split <;> simp

/-- The exit codes. -/
theorem C109_codes (str : V → String) (c : TestCommand V) : (c.main str).exit = 0 ∨ (c.main str).exit = 1 ∨ (c.main str).exit = 2 := by
  by_cases hM : ∃ M, c.Usable M
  · obtain ⟨M, hM⟩ := hM
    rw [main_usable str c M hM]
    split
    · split
      · simp
      · split <;> simp
    · exact finish_exit c _
  · rw [main_unusable str c (fun M h => hM ⟨M, h⟩)]
    simp

theorem runAll_raises (runs : List LaunchRun) :
    (∃ e, runAll runs = .error e) ↔ ∃ before r after x, runs = before ++ r :: after ∧ r.ends = .raised x ∧ ∀ b ∈ before, b.ends ≠ .died := by
  induction runs with
  | nil =>
    simp only [runAll, reduceCtorEq, exists_false, false_iff]
    rintro ⟨before, r, after, x, h, _⟩
    cases before <;> cases h
  | cons r rs ih =>
    have step : ∀ (hne : r.ends ≠ .died), (∀ x, r.ends ≠ .raised x) →
        ((∃ before r' after x, rs = before ++ r' :: after ∧ r'.ends = .raised x ∧ ∀ b ∈ before, b.ends ≠ .died) ↔
          ∃ before r' after x, r :: rs = before ++ r' :: after ∧ r'.ends = .raised x ∧ ∀ b ∈ before, b.ends ≠ .died) := by
      intro hne hnr
      constructor
      · rintro ⟨before, r', after, x, h1, h2, h3⟩
        refine ⟨r :: before, r', after, x, by rw [h1]; rfl, h2, ?_⟩
        intro b hb
        rcases List.mem_cons.1 hb with rfl | hb
        · exact hne
        · exact h3 b hb
      · rintro ⟨before, r', after, x, h1, h2, h3⟩
        cases before with
        | nil =>
          simp only [List.nil_append, List.cons.injEq] at h1
          rw [← h1.1] at h2
          exact absurd h2 (hnr x)
        | cons b bs =>
          simp only [List.cons_append, List.cons.injEq] at h1
          exact ⟨bs, r', after, x, h1.2, h2, fun b hb => h3 b (List.mem_cons_of_mem _ hb)⟩
    cases he : r.ends with
    | results x =>
      rw [← step (by simp [he]) (by simp [he]), ← ih]
      simp only [runAll, he]
      cases runAll rs <;> simp
    | skipTest x =>
      rw [← step (by simp [he]) (by simp [he]), ← ih]
      simp only [runAll, he]
      cases runAll rs <;> simp
    | died =>
      simp only [runAll, he, reduceCtorEq, exists_false, false_iff]
      rintro ⟨before, r', after, x, h1, h2, h3⟩
      cases before with
      | nil =>
        simp only [List.nil_append, List.cons.injEq] at h1
        rw [← h1.1, he] at h2
        cases h2
      | cons b bs =>
        simp only [List.cons_append, List.cons.injEq] at h1
        exact h3 b (List.mem_cons_self ..) (by rw [← h1.1]; exact he)
    | raised e =>
      simp only [runAll, he]
      constructor
      · intro _
        exact ⟨[], r, rs, e, rfl, he, by simp⟩
      · intro _; exact ⟨_, rfl⟩

/-! ## Launching -/

/-- C109 (nothing is launched for nothing): if the test file cannot be used, because of any of its runs, or only its arguments are to be shown, then no
run at all is launched and no report is written. -/
theorem C109_no_launch (str : V → String) (c : TestCommand V) (h : (∀ M, ¬ c.Usable M) ∨ c.showArgs = true) :
    (c.main str).launched = 0 ∧ (c.main str).report = none := by
  by_cases hM : ∃ M, c.Usable M
  · obtain ⟨M, hM⟩ := hM
    rcases h with h | h
    · exact absurd hM (h M)
    · rw [main_usable str c M hM, h, if_pos rfl]
      split
      · exact ⟨rfl, rfl⟩
      · split <;> exact ⟨rfl, rfl⟩
  · rw [main_unusable str c (fun M h => hM ⟨M, h⟩)]
    exact ⟨rfl, rfl⟩

theorem length_testRunsFrom (str : V → String) (name : String) (classes : List TestClass) (ends : Nat → WorkerEnd) (ps : List (Dict V)) (i : Nat) :
    (testRunsFrom str name classes ends i ps).length = ps.length := by
  induction ps generalizing i with
  | nil => rfl
  | cons p ps ih => simp [testRunsFrom, ih]

theorem launchedRuns_all (str : V → String) (name : String) (classes : List TestClass) (ends : Nat → WorkerEnd) (ps : List (Dict V)) (i k : Nat) :
    k < launchedRuns (testRunsFrom str name classes ends i ps) ↔
      k < ps.length ∧ ∀ j < k, ends (i + j) ≠ .died ∧ ∀ x, ends (i + j) ≠ .raised x := by
  induction ps generalizing i k with
  | nil => simp [testRunsFrom, launchedRuns]
  | cons p ps ih =>
    have good : ∀ (hg : ends i ≠ .died ∧ ∀ x, ends i ≠ .raised x),
        (k < launchedRuns (testRunsFrom str name classes ends (i + 1) ps) + 1 ↔
          k < ps.length + 1 ∧ ∀ j < k, ends (i + j) ≠ .died ∧ ∀ x, ends (i + j) ≠ .raised x) := by
      intro hg
      cases k with
      | zero => simp
      | succ k =>
        rw [Nat.add_lt_add_iff_right, ih, Nat.add_lt_add_iff_right]
        refine and_congr_right fun _ => ?_
        constructor
        · intro h j hj
          cases j with
          | zero => exact hg
          | succ j => have := h j (by omega); rwa [show i + 1 + j = i + (j + 1) by omega] at this
        · intro h j hj
          have := h (j + 1) (by omega)
          rwa [show i + (j + 1) = i + 1 + j by omega] at this
    have bad : ∀ (hb : ¬ (ends i ≠ .died ∧ ∀ x, ends i ≠ .raised x)),
        (k < 1 ↔ k < ps.length + 1 ∧ ∀ j < k, ends (i + j) ≠ .died ∧ ∀ x, ends (i + j) ≠ .raised x) := by
      intro hb
      constructor
      · intro hk
        exact ⟨by omega, fun j hj => by omega⟩
      · rintro ⟨_, h⟩
        cases k with
        | zero => omega
        | succ k => exact absurd (h 0 (by omega)) hb
    simp only [testRunsFrom, launchedRuns, List.length_cons]
    have he : (testRun str name classes ends i p).ends = ends i := rfl
    rw [he]
    cases h : ends i with
    | results x => exact good (by simp [h])
    | skipTest x => exact good (by simp [h])
    | died => exact bad (by simp [h])
    | raised x => exact bad (by simp [h])

/-- C109 (all runs are launched, in order, until one dies): a run is launched exactly if the runs before it ended properly. -/
theorem C109_launched (str : V → String) (c : TestCommand V) (M : TestModule V) (hM : c.Usable M) (hs : c.showArgs = false) (k : Nat) :
    k < (c.main str).launched ↔ k < M.runs.length ∧ ∀ j < k, c.ends j ≠ .died ∧ ∀ x, c.ends j ≠ .raised x := by
  have h1 : (c.main str).launched = launchedRuns (c.runs str M) := by
    rw [main_usable str c M hM, hs]
    simp only [Bool.false_eq_true, if_false, TestCommand.finish]
    split
    · rfl
    · split
      · rfl
      · split <;> rfl
  rw [h1]
  have := launchedRuns_all str (c.package ++ "." ++ c.base ++ ".launch_tests") M.classes c.ends M.runs 0 k
  simpa [TestCommand.runs] using this

/-! ## Report -/

theorem names_runAll (runs : List LaunchRun) (l : List (String × LaunchResult)) (h : runAll runs = .ok l) :
    l.map (·.1) = (runs.take (launchedRuns runs)).map (·.name) := by
  induction runs generalizing l with
  | nil => simp only [runAll, Except.ok.injEq] at h; subst h; rfl
  | cons r rs ih =>
    simp only [runAll] at h
    simp only [launchedRuns]
    cases he : r.ends with
    | results x =>
      rw [he] at h
      cases hr : runAll rs with
      | error e => simp [hr] at h
      | ok l' =>
        simp only [hr, Except.ok.injEq] at h
        subst h
        simp [ih l' hr]
    | skipTest x =>
      rw [he] at h
      cases hr : runAll rs with
      | error e => simp [hr] at h
      | ok l' =>
        simp only [hr, Except.ok.injEq] at h
        subst h
        simp [ih l' hr]
    | died => simp only [he, Except.ok.injEq] at h; subst h; simp
    | raised x => simp [he] at h

/-- C109 (report): if a report is wanted, then, unless the exit code is 2, it has been written to the given file and has a suite for each run that was
launched, whether its tests succeeded or not. -/
theorem C109_report (str : V → String) (c : TestCommand V) (hs : c.showArgs = false) (hx : c.xmlPath ≠ "") (he : (c.main str).exit ≠ 2) :
    ∃ M rep, c.Usable M ∧ (c.main str).report = some (c.xmlPath, rep) ∧
      rep.suites.map (·.name) = ((c.runs str M).take (c.main str).launched).map (·.name) := by
  by_cases hM : ∃ M, c.Usable M
  · obtain ⟨M, hM⟩ := hM
    rw [main_usable str c M hM, hs] at he ⊢
    simp only [Bool.false_eq_true, if_false, TestCommand.finish, hx] at he ⊢
    cases hr : runAll (c.runs str M) with
    | error e => simp [hr] at he
    | ok l =>
      rw [hr] at he
      simp only at he ⊢
      cases hw : c.write with
      | error e => simp [hw] at he
      | ok u =>
        cases u
        refine ⟨M, _, hM, rfl, ?_⟩
        simp only [reportXml, List.map_map]
        have := names_runAll _ _ hr
        rw [← this]
        rfl
  · rw [main_unusable str c (fun M h => hM ⟨M, h⟩)] at he
    exact absurd rfl he

/-- C109 (errors are told from failures): the exit code is 1 only if all of this worked and the tests of a run did not succeed or its launch died. -/
theorem C109_failure (str : V → String) (c : TestCommand V) (h : (c.main str).exit = 1) :
    ∃ M, c.Usable M ∧ c.showArgs = false ∧ (c.xmlPath ≠ "" → c.write = .ok ()) ∧
      ∃ i < M.runs.length, (∃ r, c.ends i = .results r ∧ ¬ (c.ends i).Fine) ∨ c.ends i = .died := by
  by_cases hM : ∃ M, c.Usable M
  · obtain ⟨M, hM⟩ := hM
    rw [main_usable str c M hM] at h
    cases hs : c.showArgs with
    | true =>
      rw [hs] at h
      simp only [if_true] at h
      split at h
      · cases h
      · split at h <;> cases h
    | false =>
      rw [hs] at h
      simp only [Bool.false_eq_true, if_false] at h
      have hw : c.xmlPath ≠ "" → c.write = .ok () := by
        intro hx
        simp only [TestCommand.finish, hx, if_false] at h
        cases hr : runAll (c.runs str M) with
        | error e => simp [hr] at h
        | ok l =>
          rw [hr] at h
          cases hw : c.write with
          | error e => simp [hw] at h
          | ok u => cases u; rfl
      refine ⟨M, hM, rfl, hw, ?_⟩
      have hnf : ¬ ∀ r ∈ c.runs str M, r.Fine := by
        intro hf
        have := (finish_zero c (c.runs str M)).2 ⟨(C86_exit _).2 hf, hw⟩
        omega
      have hnr : ¬ ∃ e, runAll (c.runs str M) = .error e := by
        rintro ⟨e, hr⟩
        simp [TestCommand.finish, hr] at h
      rw [runAll_raises] at hnr
      -- the first run that is not fine
      have first : ∀ runs : List LaunchRun, (¬ ∀ r ∈ runs, r.Fine) → ∃ before r after, runs = before ++ r :: after ∧ ¬ r.Fine ∧ ∀ b ∈ before, b.Fine := by
        intro runs
        induction runs with
        | nil => intro h; exact absurd (by simp) h
        | cons r rs ih =>
          intro h
          by_cases hr : r.Fine
          · have : ¬ ∀ r ∈ rs, r.Fine := by
              intro h'; exact h (by simpa [hr] using h')
            obtain ⟨b, x, a, h1, h2, h3⟩ := ih this
            refine ⟨r :: b, x, a, by rw [h1]; rfl, h2, ?_⟩
            intro y hy
            rcases List.mem_cons.1 hy with rfl | hy
            · exact hr
            · exact h3 y hy
          · exact ⟨[], r, rs, rfl, hr, by simp⟩
      obtain ⟨before, r, after, h1, h2, h3⟩ := first _ hnf
      have hrm : r ∈ c.runs str M := by rw [h1]; simp
      simp only [TestCommand.runs, mem_testRunsFrom] at hrm
      obtain ⟨k, p, hk, rfl⟩ := hrm
      have hkl : k < M.runs.length := by
        rw [List.getElem?_eq_some_iff] at hk
        exact hk.1
      refine ⟨k, hkl, ?_⟩
      rw [fine_iff] at h2
      have he : (testRun str (c.package ++ "." ++ c.base ++ ".launch_tests") M.classes c.ends (0 + k) p).ends = c.ends k := by simp [testRun]
      rw [he] at h2
      cases hend : c.ends k with
      | results x => exact .inl ⟨x, rfl, by rw [← hend]; exact h2⟩
      | skipTest x => rw [hend] at h2; exact absurd trivial h2
      | died => exact .inr rfl
      | raised x =>
        refine absurd ⟨before, _, after, x, h1, by rw [he]; exact hend, ?_⟩ hnr
        intro b hb hd
        have := (fine_iff b).1 (h3 b hb)
        rw [hd] at this
        exact this
  · rw [main_unusable str c (fun M h => hM ⟨M, h⟩)] at h
    cases h

/-- C109 (failures): if the tests of a run do not succeed or its launch dies, the exit code is 1, and the report, if one is wanted, is written.  Missing:
launches that end with an exception, see `C109_died_violated`. -/
theorem C109_failure_partial (str : V → String) (c : TestCommand V) (M : TestModule V) (hM : c.Usable M) (hs : c.showArgs = false) (hw : c.write = .ok ())
    (hr : ∀ i < M.runs.length, ∀ x, c.ends i ≠ .raised x) (hf : ∃ i < M.runs.length, ¬ (c.ends i).Fine) :
    (c.main str).exit = 1 ∧ (c.xmlPath ≠ "" → ∃ rep, (c.main str).report = some (c.xmlPath, rep)) := by
  have h0 : (c.main str).exit ≠ 0 := by
    intro h
    obtain ⟨M', h1, h2⟩ := (C109_success str c).1 h
    have := h1.module.symm.trans hM.module
    cases this
    rcases h2 with ⟨h2, _⟩ | ⟨_, h2, _⟩
    · rw [hs] at h2; cases h2
    · obtain ⟨i, hi, h3⟩ := hf
      exact h3 (h2 i hi)
  have h2 : (c.main str).exit ≠ 2 := by
    rw [main_usable str c M hM, hs]
    simp only [Bool.false_eq_true, if_false, TestCommand.finish, hw]
    cases ha : runAll (c.runs str M) with
    | error e =>
      obtain ⟨before, r, after, x, h3, h4, _⟩ := (runAll_raises _).1 ⟨e, ha⟩
      have hrm : r ∈ c.runs str M := by rw [h3]; simp
      simp only [TestCommand.runs, mem_testRunsFrom] at hrm
      obtain ⟨k, p, hk, rfl⟩ := hrm
      rw [List.getElem?_eq_some_iff] at hk
      exact absurd (by simpa [testRun] using h4) (hr k hk.1 x)
    | ok l =>
      simp only
      split
      · simp only; split <;> simp
      · simp only; split <;> simp
  have h1 : (c.main str).exit = 1 := by
    rcases C109_codes str c with h | h | h
    · exact absurd h h0
    · exact h
    · exact absurd h h2
  refine ⟨h1, fun hx => ?_⟩
  obtain ⟨_, rep, _, h3, _⟩ := C109_report str c hs hx h2
  exact ⟨rep, h3⟩

/-- C109 is violated: if a run ends with an exception, the exit code is 2 as for a file that does not exist, and there is no report, not even about the
runs before it.  This happens whenever a launch dies and a process that failed has written something that is not ASCII. -/
theorem C109_died_violated (str : V → String) (c : TestCommand V) (M : TestModule V) (hM : c.Usable M) (hs : c.showArgs = false)
    (i : Nat) (hi : i < M.runs.length) (hb : ∀ j < i, c.ends j ≠ .died)
    (k : Bool) (n m : Nat) (before after : List WorkerStep) (s : Worker) (h : (Worker.init k n m).run (before ++ .look :: after) = some s)
    (hc : .complete ∉ before) (hu : ¬ Unexited before) (hp : Unprintable before) (he : s.main = .ended (c.ends i)) :
    (c.main str).exit = 2 ∧ (c.main str).report = none := by
  rw [C85_unprintable_violated k n m before after s h hc hu hp] at he
  injection he with he
  have hx : ∃ e, runAll (c.runs str M) = .error e := by
    rw [runAll_raises]
    have hlen : i < (c.runs str M).length := by
      rw [TestCommand.runs, length_testRunsFrom]; exact hi
    have hends : ∀ (j : Nat) (hj : j < (c.runs str M).length), ((c.runs str M)[j]).ends = c.ends j := by
      have : ∀ (name : String) (ps : List (Dict V)) (a j : Nat) (hj : j < (testRunsFrom str name M.classes c.ends a ps).length),
          ((testRunsFrom str name M.classes c.ends a ps)[j]).ends = c.ends (a + j) := by
        intro name ps
        induction ps with
        | nil => intro a j hj; simp [testRunsFrom] at hj
        | cons p ps ih =>
          intro a j hj
          cases j with
          | zero => rfl
          | succ j =>
            simp only [testRunsFrom, List.getElem_cons_succ]
            rw [ih]
            congr 1
            omega
      intro j hj
      have := this (c.package ++ "." ++ c.base ++ ".launch_tests") M.runs 0 j hj
      rw [Nat.zero_add] at this
      exact this
    refine ⟨(c.runs str M).take i, (c.runs str M)[i], (c.runs str M).drop (i + 1), .valueError, ?_, ?_, ?_⟩
    · rw [← List.drop_eq_getElem_cons hlen, List.take_append_drop]
    · rw [hends i hlen, he]
    · intro b hb' hd
      obtain ⟨j, hj, rfl⟩ := List.getElem_of_mem hb'
      rw [List.length_take] at hj
      rw [List.getElem_take, hends j (by omega)] at hd
      exact hb j (by omega) hd
  obtain ⟨e, hx⟩ := hx
  rw [main_usable str c M hM, hs]
  simp [TestCommand.finish, hx]

/-! ## Names -/

theorem joinChars_inj (xs ys : List (List Char)) (hx : ∀ x ∈ xs, ',' ∉ x) (hy : ∀ y ∈ ys, ',' ∉ y) (hl : xs.length = ys.length)
    (h : joinChars [',', ' '] xs = joinChars [',', ' '] ys) : xs = ys := by
  induction xs generalizing ys with
  | nil => cases ys with
    | nil => rfl
    | cons _ _ => simp at hl
  | cons x xs ih =>
    cases ys with
    | nil => simp at hl
    | cons y ys =>
      simp only [List.length_cons, Nat.add_right_cancel_iff] at hl
      cases xs with
      | nil => cases ys with
        | nil => simp only [joinChars] at h; rw [h]
        | cons _ _ => simp at hl
      | cons x' xs =>
        cases ys with
        | nil => simp at hl
        | cons y' ys =>
          simp only [joinChars, List.append_assoc, List.cons_append, List.nil_append] at h
          have cut : ∀ (a a' b b' : List Char), ',' ∉ a → ',' ∉ a' → a ++ ',' :: b = a' ++ ',' :: b' → a = a' ∧ b = b' := by
            intro a
            induction a with
            | nil =>
              intro a' b b' _ h2 h3
              cases a' with
              | nil => simpa using h3
              | cons d ds =>
                simp only [List.nil_append, List.cons_append, List.cons.injEq] at h3
                exact absurd (by rw [← h3.1]; exact List.mem_cons_self ..) h2
            | cons d ds ih2 =>
              intro a' b b' h1 h2 h3
              cases a' with
              | nil =>
                simp only [List.nil_append, List.cons_append, List.cons.injEq] at h3
                exact absurd (by rw [h3.1]; exact List.mem_cons_self ..) h1
              | cons d' ds' =>
                simp only [List.cons_append, List.cons.injEq] at h3
                have := ih2 ds' b b' (fun h => h1 (List.mem_cons_of_mem _ h)) (fun h => h2 (List.mem_cons_of_mem _ h)) h3.2
                exact ⟨by rw [h3.1, this.1], this.2⟩
          have h1 := cut x y _ _ (hx x (List.mem_cons_self ..)) (hy y (List.mem_cons_self ..)) h
          have h2 := ih (y' :: ys) (fun z hz => hx z (List.mem_cons_of_mem _ hz)) (fun z hz => hy z (List.mem_cons_of_mem _ hz)) hl (by simpa using h1.2)
          rw [h1.1, h2]

theorem formatParams_inj (str : V → String) (p q : Dict V) (hk : p.keys = q.keys) (hp : ∀ x ∈ p, ',' ∉ (str x.2).toList)
    (hq : ∀ x ∈ q, ',' ∉ (str x.2).toList) (h : formatParams str p = formatParams str q) : p.map (fun x => (x.1, str x.2)) = q.map (fun x => (x.1, str x.2)) := by
  have hl : p.length = q.length := by
    have := congrArg List.length hk
    simpa [Dict.keys] using this
  have hv : p.map (fun x => (str x.2).toList) = q.map (fun x => (str x.2).toList) := by
    cases p with
    | nil => cases q with
      | nil => rfl
      | cons _ _ => simp at hl
    | cons a p =>
      cases q with
      | nil => simp at hl
      | cons b q =>
        simp only [formatParams, List.isEmpty_cons, Bool.false_eq_true, if_false] at h
        have h := String.ofList_injective h
        simp only [List.cons_append, List.cons.injEq, true_and] at h
        refine joinChars_inj _ _ ?_ ?_ (by simpa using hl) (List.append_cancel_right h)
        · intro x hx
          obtain ⟨y, hy, rfl⟩ := List.mem_map.1 hx
          exact hp y hy
        · intro x hx
          obtain ⟨y, hy, rfl⟩ := List.mem_map.1 hx
          exact hq y hy
  clear hp hq h
  induction p generalizing q with
  | nil => cases q with
    | nil => rfl
    | cons _ _ => simp at hl
  | cons a p ih =>
    cases q with
    | nil => simp at hl
    | cons b q =>
      simp only [Dict.keys, List.map_cons, List.cons.injEq] at hk hv ⊢
      refine ⟨?_, ih q hk.2 (by simpa using hl) hv.2⟩
      rw [hk.1, String.toList_injective hv.1]

theorem keys_prefix_zipDict (ns : List String) (vs : List V) (d : Dict V) : d.keys <+: (zipDict ns vs d).keys := by
  induction ns generalizing vs d with
  | nil => exact List.prefix_rfl
  | cons n ns ih =>
    cases vs with
    | nil => exact List.prefix_rfl
    | cons v vs =>
      refine List.IsPrefix.trans ?_ (ih vs (d.set n v))
      rw [Dict.keys_set]
      split
      · exact List.prefix_rfl
      · exact List.prefix_append ..

theorem zipDict_keys_prefix (ns : List String) (vs ws : List V) (d e : Dict V) (hde : d.keys = e.keys) (hl : vs.length ≤ ws.length) :
    (zipDict ns vs d).keys <+: (zipDict ns ws e).keys := by
  induction ns generalizing vs ws d e with
  | nil => simp only [zipDict]; rw [hde]; exact List.prefix_rfl
  | cons n ns ih =>
    cases vs with
    | nil => simp only [zipDict]; rw [hde]; exact keys_prefix_zipDict _ _ _
    | cons v vs =>
      cases ws with
      | nil => simp at hl
      | cons w ws => exact ih vs ws _ _ (by rw [Dict.keys_set, Dict.keys_set, hde]) (by simpa using hl)

theorem zipDict_wf (ns : List String) (vs : List V) (d : Dict V) (h : d.Wf) : (zipDict ns vs d).Wf := by
  induction ns generalizing vs d with
  | nil => exact h
  | cons n ns ih => cases vs with
    | nil => exact h
    | cons v vs => exact ih vs _ (Dict.Wf.set h n v)

theorem prefix_same {l l' : List String} (h : l <+: l') (hn : l'.Nodup) (hs : ∀ a ∈ l', a ∈ l) : l = l' := by
  obtain ⟨t, rfl⟩ := h
  cases t with
  | nil => simp
  | cons a t =>
    have h1 := hs a (by simp)
    rw [List.nodup_append] at hn
    exact absurd rfl (hn.2.2 a h1 a (by simp))

/-- In a usable test file, all runs have the same parameters. -/
theorem usable_keys (c : TestCommand V) (M : TestModule V) (hM : c.Usable M) (p q : Dict V) (hp : p ∈ M.runs) (hq : q ∈ M.runs) : p.keys = q.keys := by
  have hs : ∀ a, a ∈ p.keys ↔ a ∈ q.keys := fun a => (hM.valid p hp a).trans (hM.valid q hq a).symm
  unfold TestModule.runs at hp hq
  split at hp
  · rename_i hn
    rw [hn] at hq
    simp only [List.mem_singleton] at hp hq
    rw [hp, hq]
  · rename_i argnames argvalues hn
    rw [hn] at hq
    simp only [paramRuns, List.mem_map] at hp hq
    obtain ⟨x, _, rfl⟩ := hp
    obtain ⟨y, _, rfl⟩ := hq
    rcases Nat.le_total x.toTuple.length y.toTuple.length with hl | hl
    · exact prefix_same (zipDict_keys_prefix _ _ _ _ _ rfl hl) (zipDict_wf _ _ _ Dict.wf_nil) fun a h => (hs a).2 h
    · exact (prefix_same (zipDict_keys_prefix _ _ _ _ _ rfl hl) (zipDict_wf _ _ _ Dict.wf_nil) fun a h => (hs a).1 h).symm

/-- C110 (names of runs and tests): two runs of a parametrized test file whose parameters look different have different names, and so have their tests, if
no parameter has a comma.  Missing: parameters with commas, such as lists and tuples, see `C110_names_violated`. -/
theorem C110_names_partial (str : V → String) (c : TestCommand V) (M : TestModule V) (hM : c.Usable M) (i j : Nat) (p q : Dict V)
    (hi : M.runs[i]? = some p) (hj : M.runs[j]? = some q) (hd : ∃ a v w, p.get? a = some v ∧ q.get? a = some w ∧ str v ≠ str w)
    (hp : ∀ x ∈ p, ',' ∉ (str x.2).toList) (hq : ∀ x ∈ q, ',' ∉ (str x.2).toList) (name : String) :
    (testRun str name M.classes c.ends i p).name ≠ (testRun str name M.classes c.ends j q).name ∧
      ∀ m : String, m ++ formatParams str p ≠ m ++ formatParams str q := by
  have hk : p.keys = q.keys := usable_keys c M hM p q (List.mem_of_getElem? hi) (List.mem_of_getElem? hj)
  have key : formatParams str p ≠ formatParams str q := by
    intro h
    have h1 := formatParams_inj str p q hk hp hq h
    obtain ⟨a, v, w, h2, h3, h4⟩ := hd
    have get : ∀ (d : Dict V) (a : String) (v : V), d.get? a = some v → Dict.get? (d.map fun x => (x.1, str x.2)) a = some (str v) := by
      intro d a v
      induction d with
      | nil => intro h; cases h
      | cons x d ih =>
        obtain ⟨b, w⟩ := x
        simp only [Dict.get?, List.map_cons]
        split
        · intro h; cases h; rfl
        · exact ih
    have h5 := get p a v h2
    rw [h1, get q a w h3] at h5
    injection h5 with h5
    exact h4 h5.symm
  have app : ∀ m : String, m ++ formatParams str p ≠ m ++ formatParams str q := by
    intro m h
    refine key (String.toList_injective ?_)
    have := congrArg String.toList h
    rw [String.toList_append, String.toList_append] at this
    exact List.append_cancel_left this
  exact ⟨app name, app⟩

/-- C110 is violated: runs with the parameters `('a, b', 'c')` and `('a', 'b, c')` have the same name, and so have their tests. -/
theorem C110_names_violated : formatParams id (zipDict ["x", "y"] ["a, b", "c"] []) = formatParams id (zipDict ["x", "y"] ["a", "b, c"] []) := by
  decide +kernel

theorem mem_runCases (suffix : String) (i n : Nat) (post : Bool) (cs : List TestClass) (j : Nat) (t : CaseId) :
    t ∈ runCases suffix i n post cs j ↔
      ∃ k c m, cs[k]? = some c ∧ c.post = post ∧ m ∈ c.methods ∧ t = ⟨i * n + (j + k), c.name, m ++ suffix⟩ := by
  induction cs generalizing j with
  | nil => simp [runCases]
  | cons d cs ih =>
    simp only [runCases, List.mem_append, ih]
    constructor
    · rintro (h | ⟨k, c, m, h1, h2, h3, h4⟩)
      · split at h
        · rename_i hd
          obtain ⟨m, h1, h2⟩ := List.mem_map.1 h
          exact ⟨0, d, m, rfl, hd, h1, h2.symm⟩
        · cases h
      · exact ⟨k + 1, c, m, h1, h2, h3, by rw [h4]; congr 1; omega⟩
    · rintro ⟨k, c, m, h1, h2, h3, h4⟩
      cases k with
      | zero =>
        simp only [List.getElem?_cons_zero, Option.some.injEq] at h1
        subst h1
        left
        rw [if_pos h2, List.mem_map]
        exact ⟨m, h3, h4.symm⟩
      | succ k => exact .inr ⟨k, c, m, h1, h2, h3, by rw [h4]; congr 1; omega⟩

/-- C110 (runs are kept apart): a test of one run is never taken for a test of another run, even if they have the same name: each test of each class is in
each run, with a class object that no other run has. -/
theorem C110_tests (str : V → String) (name : String) (classes : List TestClass) (ends : Nat → WorkerEnd) (i : Nat) (p : Dict V) (t : CaseId) :
    t ∈ (testRun str name classes ends i p).cases ↔
      ∃ k c m, classes[k]? = some c ∧ m ∈ c.methods ∧ t = ⟨i * classes.length + k, c.name, m ++ formatParams str p⟩ := by
  simp only [testRun, List.mem_append, mem_runCases, Nat.zero_add]
  constructor
  · rintro (⟨k, c, m, h1, _, h2, h3⟩ | ⟨k, c, m, h1, _, h2, h3⟩) <;> exact ⟨k, c, m, h1, h2, h3⟩
  · rintro ⟨k, c, m, h1, h2, h3⟩
    cases hp : c.post with
    | false => exact .inl ⟨k, c, m, h1, hp, h2, h3⟩
    | true => exact .inr ⟨k, c, m, h1, hp, h2, h3⟩

theorem C110_apart (str : V → String) (name : String) (classes : List TestClass) (ends : Nat → WorkerEnd) (i j : Nat) (p q : Dict V) (hij : i ≠ j) (t : CaseId) :
    ¬ (t ∈ (testRun str name classes ends i p).cases ∧ t ∈ (testRun str name classes ends j q).cases) := by
  rw [C110_tests, C110_tests]
  rintro ⟨⟨k, c, m, h1, _, h2⟩, ⟨k', c', m', h1', _, h2'⟩⟩
  rw [h2] at h2'
  have h3 := congrArg CaseId.classId h2'
  simp only at h3
  have hk : k < classes.length := (List.getElem?_eq_some_iff.1 h1).1
  have hk' : k' < classes.length := (List.getElem?_eq_some_iff.1 h1').1
  have e1 : (i * classes.length + k) / classes.length = i := by
    rw [Nat.add_comm, Nat.add_mul_div_right _ _ (by omega), Nat.div_eq_of_lt hk]; omega
  have e2 : (j * classes.length + k') / classes.length = j := by
    rw [Nat.add_comm, Nat.add_mul_div_right _ _ (by omega), Nat.div_eq_of_lt hk']; omega
  rw [h3, e2] at e1
  exact hij e1.symm

/-! ## Examples -/

/-- Two runs with a test before and one after shutdown; in the second run the test after shutdown fails. -/
def sampleCommand : TestCommand String where
  isFile := true
  module := .ok ⟨["exe"], some ("exe", [.other "a", .other "b"]), [⟨"t.TestIt", false, ["test_it"]⟩, ⟨"t.TestAfter", true, ["test_exit"]⟩]⟩
  packageName := "pkg"
  base := "my_test"
  showArgs := false
  xmlPath := "out.xml"
  describe := .ok ()
  ends := fun i => if i = 0 then .results {} else .results { failures := [(.case ⟨3, "t.TestAfter", "test_exit[b]"⟩, "1 != 0")] }
  write := .ok ()

example : (sampleCommand.main id).exit = 1 ∧ (sampleCommand.main id).launched = 2 ∧
    ((sampleCommand.main id).report.map fun r => r.2.suites.map (·.name)) = some ["pkg.my_test.launch_tests[a]", "pkg.my_test.launch_tests[b]"] :=
  ⟨by decide +kernel, by decide +kernel, by decide +kernel⟩

-- it is usable
example : ∃ M, sampleCommand.Usable M := ⟨_, (usable_iff _ _).2 ⟨rfl, rfl, by rfl⟩⟩

-- the first launch dies
example : ({ sampleCommand with ends := fun _ => .died }.main id).exit = 1 ∧ ({ sampleCommand with ends := fun _ => .died }.main id).launched = 1 :=
  ⟨by decide +kernel, by decide +kernel⟩

-- the first launch ends with an exception
example : ({ sampleCommand with ends := fun _ => .raised .valueError }.main id).exit = 2 ∧
    ({ sampleCommand with ends := fun _ => .raised .valueError }.main id).report = none := ⟨by decide +kernel, by decide +kernel⟩

-- a parameter that `generate_test_description` does not have
example : ({ sampleCommand with module := .ok ⟨["exe"], some ("exe, x", [.tuple ["a", "b"]]), []⟩ }.main id) = { exit := 2 } := by decide +kernel

-- only the arguments are shown
example : ({ sampleCommand with showArgs := true }.main id) = { exit := 0, shown := true } := by decide +kernel

-- names of tests
example : (testRun id "x" [⟨"t.TestIt", false, ["test_it"]⟩] (fun _ => .died) 0 (zipDict ["x", "y"] ["a", "b"] [])).cases =
    [⟨0, "t.TestIt", "test_it[a, b]"⟩] := by decide +kernel

end Verif
