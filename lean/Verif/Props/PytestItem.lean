import Verif.Model.PytestItem
import Verif.Props.TestResult

/-!
# Launch tests as pytest items: C96
-/

namespace Verif

/-! ## Verdict -/

/-- A run with a test that failed and a sub-test with an error, and one that died. -/
def sampleRuns : List LaunchRun :=
  [⟨"m[a=1]", [⟨0, "T", "test_a"⟩], .results (({} : CaseResult).calls [.start ⟨0, "T", "test_a"⟩, .error (.subTest ⟨0, "T", "test_a"⟩ 1) "boom",
      .failure (.case ⟨0, "T", "test_a"⟩) "bad", .error (.fixture "tearDownClass (T)") "lost"])⟩,
   ⟨"m[a=2]", [⟨1, "T", "test_a"⟩], .died⟩]

/-- The item passes exactly if launch_test would end with exit code 0, that is if every run is fine. -/
theorem C96_verdict (runs : List LaunchRun) : (itemRun runs = .passed ↔ launchTestExit runs = some 0) ∧
    (itemRun runs = .passed ↔ ∀ r ∈ runs, r.Fine) := by
  have h1 : itemRun runs = .passed ↔ launchTestExit runs = some 0 := by
    unfold itemRun launchTestExit
    cases runAll runs with
    | error e => simp
    | ok l =>
      simp only [Option.some.injEq]
      have : l.any (fun p => !p.2.wasSuccessful) = !l.all (fun p => p.2.wasSuccessful) := by
        induction l with
        | nil => rfl
        | cons x l ih => simp only [List.any_cons, List.all_cons, ih, Bool.not_and]
      rw [this]
      cases l.all (fun p => p.2.wasSuccessful) <;> simp
  exact ⟨h1, h1.trans (C86_exit runs)⟩

example : (∃ l, itemRun sampleRuns = .failed l) ∧ itemRun [⟨"m", [], .skipTest "no"⟩] = .passed := ⟨⟨_, rfl⟩, rfl⟩

/-! ## What is shown -/

/-- What is shown: the errors and failures of test cases and sub-tests, of the runs that were not successful. -/
theorem C96_shown (descr : CaseId → Nat → List Char) (results : List (String × LaunchResult)) (name msg : List Char) :
    (name, msg) ∈ shownFailures descr results ↔ ∃ run res s m, (run, res) ∈ results ∧ res.wasSuccessful = false ∧
      ((s, m) ∈ res.data.errors ∨ (s, m) ∈ res.data.failures) ∧ (∀ f, s ≠ .fixture f) ∧ name = s.idWith descr ∧ msg = m.toList := by
  unfold shownFailures
  simp only [List.mem_flatMap, List.mem_map, List.mem_filter, List.mem_append, Bool.and_eq_true, Bool.not_eq_true', Prod.mk.injEq]
  constructor
  · rintro ⟨⟨run, res⟩, hr, ⟨s, m⟩, ⟨hm, hc, hs⟩, rfl, rfl⟩
    refine ⟨run, res, s, m, hr, hs, hm, fun f hf => ?_, rfl, rfl⟩
    subst hf; cases hc
  · rintro ⟨run, res, s, m, hr, hs, hm, hf, rfl, rfl⟩
    refine ⟨(run, res), hr, (s, m), ⟨hm, ?_, hs⟩, rfl, rfl⟩
    cases s with
    | fixture f => exact absurd rfl (hf f)
    | _ => rfl

/-- Missing: errors outside of test cases and unexpected successes, see below.  What holds: if a run was carried out to the end and `unittest`
reported a failure or an error of a test case, then the item fails and shows it. -/
theorem C96_failure_is_shown_partial (descr : CaseId → Nat → List Char) (runs : List LaunchRun) (l : List (String × LaunchResult))
    (hl : runAll runs = .ok l) (run : String) (cs : List ResultCall) (hr : (run, LaunchResult.ran (({} : CaseResult).calls cs)) ∈ l) (s : Subject)
    (m : String) (hf : ∀ f, s ≠ .fixture f) (hc : .failure s m ∈ cs ∨ .error s m ∈ cs) :
    itemRun runs = .failed l ∧ (s.idWith descr, m.toList) ∈ shownFailures descr l := by
  obtain ⟨_, h2, h3, _⟩ := C86_counts cs
  have hns : (LaunchResult.ran (({} : CaseResult).calls cs)).wasSuccessful = false := by
    rw [Bool.eq_false_iff]
    intro ht
    have := (C86_success cs).mp ht
    rcases hc with hc | hc
    · exact this _ hc trivial
    · exact this _ hc trivial
  constructor
  · unfold itemRun
    rw [hl]
    simp only
    rw [if_pos (List.any_eq_true.mpr ⟨_, hr, by simp [hns]⟩)]
  · rw [C96_shown]
    refine ⟨run, _, s, m, hr, hns, ?_, hf, rfl, rfl⟩
    rcases hc with hc | hc
    · exact .inr ((h2 s m).mp hc)
    · exact .inl ((h3 s m).mp hc)

/-- If a launch died, every test of that run is shown with that message. -/
theorem C96_died_is_shown (descr : CaseId → Nat → List Char) (before after : List LaunchRun) (r : LaunchRun) (hd : r.ends = .died)
    (l : List (String × LaunchResult)) (hb : runAll before = .ok l) (hn : ∀ x ∈ before, x.ends ≠ .died) :
    ∃ l', itemRun (before ++ r :: after) = .failed l' ∧ ∀ t ∈ r.cases, (t.id, diedMessage.toList) ∈ shownFailures descr l' := by
  have key : ∀ (bs : List LaunchRun) (l : List (String × LaunchResult)), runAll bs = .ok l → (∀ x ∈ bs, x.ends ≠ .died) →
      runAll (bs ++ r :: after) = .ok (l ++ [(r.name, .fail r.cases diedMessage)]) := by
    intro bs
    induction bs with
    | nil => intro l h _; simp [runAll] at h; subst h; simp [runAll, hd]
    | cons b bs ih =>
      intro l h hn
      have hb := hn b (by simp)
      have ih' := fun l h => ih l h (fun x hx => hn x (List.mem_cons_of_mem _ hx))
      simp only [List.cons_append, runAll] at h ⊢
      cases he : b.ends with
      | died => exact absurd he hb
      | raised e => rw [he] at h; cases h
      | results x =>
        rw [he] at h
        cases h1 : runAll bs with
        | error e => rw [h1] at h; cases h
        | ok l1 => rw [h1] at h; cases h; simp only [ih' l1 h1]; rfl
      | skipTest x =>
        rw [he] at h
        cases h1 : runAll bs with
        | error e => rw [h1] at h; cases h
        | ok l1 => rw [h1] at h; cases h; simp only [ih' l1 h1]; rfl
  refine ⟨l ++ [(r.name, .fail r.cases diedMessage)], ?_, ?_⟩
  · unfold itemRun
    rw [key before l hb hn]
    simp only
    rw [if_pos (List.any_eq_true.mpr ⟨(r.name, .fail r.cases diedMessage), by simp, rfl⟩)]
  · intro t ht
    rw [C96_shown]
    refine ⟨r.name, .fail r.cases diedMessage, .case t, diedMessage, by simp, rfl, .inr ?_, (fun f hf => by cases hf), rfl, rfl⟩
    exact List.mem_map.mpr ⟨t, ht, rfl⟩

example : ∃ l, itemRun sampleRuns = .failed l ∧ shownFailures (fun _ _ => "(x=1)".toList) l =
    [("T.test_a (x=1)".toList, "boom".toList), ("T.test_a".toList, "bad".toList), ("T.test_a".toList, diedMessage.toList)] :=
  ⟨_, rfl, by decide +kernel⟩

/-- The item may fail and show nothing at all: for an error in `setUpClass` and the like, and for a test that was expected to fail and
did not. -/
theorem C96_silent_violated : ∃ (r1 r2 : LaunchRun) (l1 l2 : List (String × LaunchResult)),
    r1.ends = .results (({} : CaseResult).calls [.error (.fixture "setUpClass (T)") "Traceback"]) ∧
    r2.ends = .results (({} : CaseResult).calls [.start ⟨0, "T", "test_a"⟩, .unexpectedSuccess (.case ⟨0, "T", "test_a"⟩)]) ∧
    itemRun [r1] = .failed l1 ∧ itemRun [r2] = .failed l2 ∧ (∀ descr, shownFailures descr l1 = [] ∧ shownFailures descr l2 = []) ∧
    reprText [] = ['\n'] :=
  ⟨⟨"m", [], _⟩, ⟨"m", [], _⟩, _, _, rfl, rfl, rfl, rfl, fun _ => ⟨rfl, rfl⟩, rfl⟩

/-! ## The text -/

theorem joinParts_mem (sep : List Char) : ∀ (l : List (List Char)) (x : List Char), x ∈ l → ∃ pre post, joinParts sep l = pre ++ x ++ post
  | [], x, h => by cases h
  | [y], x, h => by
    have := List.mem_singleton.mp h
    subst this
    exact ⟨[], [], by simp [joinParts]⟩
  | y :: z :: l, x, h => by
    rcases List.mem_cons.mp h with rfl | h
    · exact ⟨[], sep ++ joinParts sep (z :: l), by simp [joinParts]⟩
    · obtain ⟨pre, post, he⟩ := joinParts_mem sep (z :: l) x h
      exact ⟨y ++ sep ++ pre, post, by rw [joinParts, he]; simp⟩

/-- The text names every failure and has its whole description after the name and a line of hyphens. -/
theorem C96_text (failures : List (List Char × List Char)) (name msg : List Char) (h : (name, msg) ∈ failures) :
    ∃ pre post w, reprText failures = pre ++ ("FAIL: ".toList ++ name ++ ['\n'] ++ List.replicate w '-' ++ ['\n'] ++ msg) ++ post := by
  obtain ⟨pre, post, he⟩ := joinParts_mem ['\n', '\n'] (failures.map (reprOne (reprWidth failures))) _ (List.mem_map.mpr ⟨_, h, rfl⟩)
  refine ⟨'\n' :: (pre ++ List.replicate (reprWidth failures) '=' ++ ['\n']), post, reprWidth failures, ?_⟩
  unfold reprText
  rw [he]
  simp [reprOne, joinParts]

theorem foldl_max_le (l : List (List Char)) : ∀ n, n ≤ l.foldl (fun n x => max n x.length) n ∧
    ∀ x ∈ l, x.length ≤ l.foldl (fun n x => max n x.length) n := by
  induction l with
  | nil => intro n; exact ⟨Nat.le_refl _, fun x hx => by cases hx⟩
  | cons y l ih =>
    intro n
    obtain ⟨h1, h2⟩ := ih (max n y.length)
    refine ⟨by rw [List.foldl_cons]; omega, fun x hx => ?_⟩
    rw [List.foldl_cons]
    rcases List.mem_cons.mp hx with rfl | hx
    · omega
    · exact h2 x hx

theorem foldl_max_mem (l : List (List Char)) : ∀ n, l.foldl (fun n x => max n x.length) n = n ∨ ∃ x ∈ l, l.foldl (fun n x => max n x.length) n = x.length := by
  induction l with
  | nil => intro n; exact .inl rfl
  | cons y l ih =>
    intro n
    rw [List.foldl_cons]
    rcases ih (max n y.length) with h | ⟨x, hx, h⟩
    · rcases Nat.le_total n y.length with h1 | h1
      · exact .inr ⟨y, List.mem_cons_self .., by rw [h]; omega⟩
      · exact .inl (by rw [h]; omega)
    · exact .inr ⟨x, List.mem_cons_of_mem _ hx, h⟩

/-- The lines that separate failures are as long as the longest line of a description. -/
theorem C96_width (failures : List (List Char × List Char)) (f : List Char × List Char) (hf : f ∈ failures) (line : List Char)
    (hl : line ∈ splitLines f.2) : line.length ≤ reprWidth failures ∧ ∃ f' ∈ failures, ∃ l ∈ splitLines f'.2, l.length = reprWidth failures := by
  have hm : line ∈ failures.flatMap fun f => splitLines f.2 := List.mem_flatMap.mpr ⟨f, hf, hl⟩
  unfold reprWidth
  cases hq : failures.flatMap fun f => splitLines f.2 with
  | nil => rw [hq] at hm; cases hm
  | cons a as =>
    rw [hq] at hm
    refine ⟨(foldl_max_le (a :: as) 0).2 line hm, ?_⟩
    rcases foldl_max_mem (a :: as) 0 with h | ⟨x, hx, h⟩
    · have h1 := (foldl_max_le (a :: as) 0).2 a (List.mem_cons_self ..)
      obtain ⟨f', h2, h3⟩ := List.mem_flatMap.mp (hq ▸ List.mem_cons_self .. : a ∈ failures.flatMap fun f => splitLines f.2)
      exact ⟨f', h2, a, h3, by simp only; omega⟩
    · obtain ⟨f', h2, h3⟩ := List.mem_flatMap.mp (hq ▸ hx : x ∈ failures.flatMap fun f => splitLines f.2)
      exact ⟨f', h2, x, h3, h.symm⟩

/-- They have three characters if there is no line. -/
theorem C96_width_empty (name : List Char) : reprText [(name, [])] = "\n===\nFAIL: ".toList ++ name ++ "\n---\n".toList := by
  have h : reprWidth [(name, [])] = 3 := rfl
  simp [reprText, reprOne, h, joinParts, List.replicate]

example : String.ofList (reprText [("T.a".toList, "one\nthree".toList), ("T.b".toList, "x".toList)]) =
    "\n=====\nFAIL: T.a\n-----\none\nthree\n\n=====\nFAIL: T.b\n-----\nx" := by decide +kernel

/-! ## Collection -/

/-- A module is taken for a launch test exactly if it can be imported and has a `generate_test_description` marked as `launch_test`; all the marks of
that function are then marks of the module.  A module with a syntax error, or whose function is not marked, is left to pytest. -/
theorem C96_collected (isInit : Bool) (i : PyImported) (markers : List PyMark) :
    ((makeModule isInit i).toOption = some (.launchModule markers) ↔
      i = .entrypoint markers ∧ ∃ m ∈ markers, m.name = "launch_test") ∧
    ((makeModule isInit i).toOption = none ↔ ∃ e, i = .raises e) := by
  cases i with
  | raises e => simp [makeModule, Except.toOption]
  | syntaxError => cases isInit <;> simp [makeModule, Except.toOption]
  | plain => cases isInit <;> simp [makeModule, Except.toOption]
  | entrypoint marks =>
    unfold makeModule launchModule
    by_cases h : marks.any (fun m => m.name == "launch_test") = true
    · simp only [h, if_true, Except.toOption, Option.some.injEq, PyCollected.launchModule.injEq, PyImported.entrypoint.injEq]
      have hex : ∃ m ∈ marks, m.name = "launch_test" := by simpa using h
      constructor
      · constructor
        · rintro rfl; exact ⟨rfl, hex⟩
        · rintro ⟨rfl, _⟩; rfl
      · simp
    · have hne : ¬ ∃ m ∈ marks, m.name = "launch_test" := by simpa using h
      simp only [h, Bool.false_eq_true, if_false, Except.toOption, Option.some.injEq, PyImported.entrypoint.injEq]
      constructor
      · constructor
        · intro he; cases isInit <;> simp at he
        · rintro ⟨rfl, hx⟩; exact absurd hx hne
      · simp

example : (makeModule false (.entrypoint [⟨"skip", 1⟩, ⟨"launch_test", 0⟩])).toOption = some (.launchModule [⟨"skip", 1⟩, ⟨"launch_test", 0⟩]) ∧
    (makeModule false (.entrypoint [⟨"skip", 1⟩])).toOption = some .module ∧ (makeModule true .syntaxError).toOption = some .package :=
  ⟨rfl, rfl, rfl⟩

end Verif
