import Verif.Props.TestResult
import Verif.Spec.Typed
import Verif.Props.TestWorker

/-! # C86 and C87: from the tests to the exit code and the report -/

namespace Verif

/-- C86 (from the tests on): a run that ends with results is successful exactly if none of the tests, before or after shutdown, went wrong. -/
theorem C86_tests (k : Bool) (n m : Nat) (steps : List WorkerStep) (s : Worker) (r : CaseResult)
    (h : (Worker.init k n m).run steps = some s) (hr : s.main = .ended (.results r)) :
    (LaunchResult.ran r).wasSuccessful = true ↔ ∀ cs, cs ∈ preTests steps ∨ cs ∈ postTests steps → ∀ c ∈ cs, ¬ c.IsBad := by
  obtain ⟨_, _, h1⟩ := C85_results k n m steps s r h hr
  rw [h1, C86_merge, C86_success]
  simp only [List.mem_append, List.mem_flatten]
  constructor
  · rintro h2 cs hcs c hc
    refine h2 c ?_
    rcases hcs with hcs | hcs
    · exact .inl ⟨cs, hcs, hc⟩
    · exact .inr ⟨cs, hcs, hc⟩
  · rintro h2 c (⟨cs, hcs, hc⟩ | ⟨cs, hcs, hc⟩)
    · exact h2 cs (.inl hcs) c hc
    · exact h2 cs (.inr hcs) c hc

/-! ## The report -/

theorem foldl_add {α : Type} (f : α → Nat) (l : List α) (n : Nat) : l.foldl (fun n x => n + f x) n = n + (l.map f).sum := by
  induction l generalizing n with
  | nil => simp
  | cons x xs ih => rw [List.foldl_cons, ih, List.map_cons, List.sum_cons]; omega

/-- C87 (totals): the numbers of the whole report are the sums of those of its suites, one for each run that has a result. -/
theorem C87_totals (name : String) (rs : List (String × LaunchResult)) :
    (reportXml name rs).suites.map (·.name) = rs.map (·.1) ∧
      (reportXml name rs).tests = ((reportXml name rs).suites.map (·.tests)).sum ∧
      (reportXml name rs).failures = ((reportXml name rs).suites.map (·.failures)).sum ∧
      (reportXml name rs).errors = ((reportXml name rs).suites.map (·.errors)).sum := by
  simp only [reportXml, foldl_add, List.map_map, Nat.zero_add]
  exact ⟨rfl, rfl, rfl, rfl⟩

theorem mem_messagesOf (t : CaseId) (m : String) (l : List (Subject × String)) : m ∈ messagesOf t l ↔ (.case t, m) ∈ l := by
  simp only [messagesOf, List.mem_map, List.mem_filter, decide_eq_true_eq]
  constructor
  · rintro ⟨⟨a, b⟩, ⟨h1, h2⟩, h3⟩
    simp only at h2 h3
    rw [← h2, ← h3]; exact h1
  · intro h; exact ⟨_, ⟨h, rfl⟩, rfl⟩

/-- C87 (whole runs): for a run that is skipped, the report has an element for each of its tests, skipped for this reason; for a run whose launch stopped too
early, an element for each of its tests, each of them failed; for the other runs, an element for each test that was started.  The suites are in the order of the
runs, up to the first run whose launch stopped too early. -/
theorem C87_runs (name : String) (runs : List LaunchRun) (rs : List (String × LaunchResult)) (h : runAll runs = .ok rs) :
    ∃ done rest, runs = done ++ rest ∧ (rest ≠ [] → ∃ r, done.getLast? = some r ∧ r.ends = .died) ∧
      Each2 (fun (r : LaunchRun) (s : SuiteXml) => s.name = r.name ∧
        match r.ends with
        | .results x => s.tests = x.testsRun ∧ Each2 (fun t c => (c.classname, c.name) = xmlNames t.id ∧ ∀ m, m ∈ c.failures ↔ (.case t, m) ∈ x.failures) x.cases s.cases
        | .skipTest reason => s.tests = r.cases.length ∧ s.failures = 0 ∧ s.errors = 0 ∧ s.skipped = r.cases.length ∧
          Each2 (fun t c => (c.classname, c.name) = xmlNames t.id ∧ c.failures = [] ∧ c.errors = [] ∧ ∀ m, m ∈ c.skipped ↔ m = reason) r.cases s.cases
        | .died => s.tests = r.cases.length ∧ s.failures = r.cases.length ∧
          Each2 (fun t c => (c.classname, c.name) = xmlNames t.id ∧ c.failures ≠ [] ∧ c.skipped = []) r.cases s.cases
        | .raised _ => False) done (reportXml name rs).suites := by
  simp only [reportXml]
  have each : ∀ {R : CaseId → CaseXml → Prop} (f : CaseId → CaseXml) (l : List CaseId), (∀ t ∈ l, R t (f t)) → Each2 R l (l.map f) := by
    intro R f l
    induction l with
    | nil => intro _; exact .nil
    | cons t l ih => intro hl; exact .cons (hl t List.mem_cons_self) (ih fun t ht => hl t (List.mem_cons_of_mem _ ht))
  induction runs generalizing rs with
  | nil =>
    simp [runAll] at h
    subst h
    exact ⟨[], [], rfl, by simp, .nil⟩
  | cons r runs ih =>
    unfold runAll at h
    split at h
    · rename_i x hx
      split at h
      · rename_i l hl
        simp only [Except.ok.injEq] at h
        subst h
        obtain ⟨done, rest, h1, h2, h3⟩ := ih l hl
        refine ⟨r :: done, rest, by rw [h1]; rfl, ?_, .cons ?_ h3⟩
        · intro hr
          obtain ⟨r', h4, h5⟩ := h2 hr
          exact ⟨r', by rw [List.getLast?_cons, h4]; rfl, h5⟩
        · rw [hx]
          exact ⟨rfl, rfl, each _ _ fun t _ => ⟨rfl, fun m => mem_messagesOf t m _⟩⟩
      · simp at h
    · rename_i reason hx
      split at h
      · rename_i l hl
        simp only [Except.ok.injEq] at h
        subst h
        obtain ⟨done, rest, h1, h2, h3⟩ := ih l hl
        refine ⟨r :: done, rest, by rw [h1]; rfl, ?_, .cons ?_ h3⟩
        · intro hr
          obtain ⟨r', h4, h5⟩ := h2 hr
          exact ⟨r', by rw [List.getLast?_cons, h4]; rfl, h5⟩
        · rw [hx]
          refine ⟨rfl, rfl, rfl, rfl, by simp [suiteXml, LaunchResult.data, LaunchResult.skip], each _ _ fun t ht => ⟨rfl, rfl, rfl, fun m => ?_⟩⟩
          rw [show (caseXml _ t).skipped = messagesOf t _ from rfl, mem_messagesOf]
          simp only [LaunchResult.skip, LaunchResult.data, List.mem_map, Prod.mk.injEq, Subject.case.injEq]
          exact ⟨fun ⟨_, _, _, hm⟩ => hm.symm, fun hm => ⟨t, ht, rfl, hm.symm⟩⟩
      · simp at h
    · rename_i hx
      simp only [Except.ok.injEq] at h
      subst h
      refine ⟨[r], runs, rfl, fun _ => ⟨r, rfl, hx⟩, .cons ?_ .nil⟩
      rw [hx]
      refine ⟨rfl, rfl, by simp [suiteXml, LaunchResult.data, LaunchResult.fail], each _ _ fun t ht => ⟨rfl, ?_, rfl⟩⟩
      intro hn
      have : diedMessage ∈ (caseXml (LaunchResult.fail r.cases diedMessage).data t).failures := by
        rw [show (caseXml _ t).failures = messagesOf t _ from rfl, mem_messagesOf]
        exact List.mem_map.2 ⟨t, ht, rfl⟩
      rw [hn] at this
      simp at this
    · simp at h

-- a run that is skipped and one whose launch stopped too early
example : runAll [⟨"a", [⟨0, "m.A", "x"⟩], .skipTest "no network"⟩, ⟨"b", [⟨1, "m.A", "x"⟩], .died⟩, ⟨"c", [], .results {}⟩] =
    .ok [("a", .skip [⟨0, "m.A", "x"⟩] "no network"), ("b", .fail [⟨1, "m.A", "x"⟩] diedMessage)] := rfl

/-- C87 (failures): exactly the failures, errors and skips of a test are shown with it. -/
theorem C87_case (r : CaseResult) (t : CaseId) (m : String) :
    (m ∈ (caseXml r t).failures ↔ (.case t, m) ∈ r.failures) ∧ (m ∈ (caseXml r t).errors ↔ (.case t, m) ∈ r.errors) ∧
      (m ∈ (caseXml r t).skipped ↔ (.case t, m) ∈ r.skipped) := by
  have : ∀ l : List (Subject × String), m ∈ messagesOf t l ↔ (.case t, m) ∈ l := mem_messagesOf t m
  exact ⟨this _, this _, this _⟩

/-- The cases of a result are distinct. -/
theorem calls_cases_nodup (cs : List ResultCall) : (({} : CaseResult).calls cs).cases.Nodup := by
  have : ∀ (cs : List ResultCall) (r : CaseResult), r.cases.Nodup → (r.calls cs).cases.Nodup := by
    intro cs
    induction cs with
    | nil => intro r h; exact h
    | cons c cs ih =>
      intro r h
      refine ih (r.call c) ?_
      cases c <;> try exact h
      rename_i t
      show (CaseResult.addCase r.cases t).Nodup
      unfold CaseResult.addCase
      split
      · exact h
      · rename_i ht
        refine List.nodup_append.2 ⟨h, by simp, ?_⟩
        intro a ha b hb hab
        rw [List.mem_singleton] at hb
        subst hab hb
        exact ht ha
  exact this cs {} List.nodup_nil

theorem shown_sum (cases : List CaseId) (hn : cases.Nodup) (l : List (Subject × String)) (h : ∀ e ∈ l, ∃ t ∈ cases, e.1 = .case t) :
    (cases.map fun t => (messagesOf t l).length).sum = l.length := by
  induction l with
  | nil =>
    clear hn h
    induction cases with
    | nil => rfl
    | cons c cs ih => rw [List.map_cons, List.sum_cons, ih]; rfl
  | cons e l ih =>
    have ih := ih fun x hx => h x (List.mem_cons_of_mem _ hx)
    obtain ⟨t, ht, he⟩ := h e (List.mem_cons_self ..)
    have h1 : ∀ u, (messagesOf u (e :: l)).length = (messagesOf u l).length + (if u = t then 1 else 0) := by
      intro u
      unfold messagesOf
      rw [List.filter_cons]
      by_cases hu : u = t
      · subst hu; simp [he]
      · have : ¬ e.1 = .case u := by rw [he]; intro h; cases h; exact hu rfl
        simp [this, hu]
    have h2 : ∀ (cs : List CaseId) (f : CaseId → Nat), cs.Nodup → t ∈ cs → (cs.map fun u => f u + (if u = t then 1 else 0)).sum = (cs.map f).sum + 1 := by
      intro cs f hn ht
      induction cs with
      | nil => cases ht
      | cons c cs ihc =>
        rw [List.nodup_cons] at hn
        simp only [List.map_cons, List.sum_cons]
        rcases List.mem_cons.1 ht with rfl | ht'
        · have : (cs.map fun u => f u + (if u = t then 1 else 0)) = cs.map f := by
            apply List.map_congr_left
            intro a ha
            have : a ≠ t := fun h => hn.1 (h ▸ ha)
            simp [this]
          rw [this, if_pos rfl]; omega
        · have hc : c ≠ t := fun h => hn.1 (h ▸ ht')
          rw [if_neg hc, ihc hn.2 ht']; omega
    simp only [h1]
    rw [h2 _ _ hn ht, ih]; rfl

/-- C87 (nothing is lost): if all failures are those of tests (not of sub-tests), every failure counted in the suite is shown with one test. -/
theorem C87_failures_shown_partial (name : String) (cs : List ResultCall) (h : ∀ s m, .failure s m ∈ cs → ∃ t, s = .case t ∧ .start t ∈ cs) :
    ((suiteXml name (({} : CaseResult).calls cs)).cases.map (·.failures.length)).sum = (suiteXml name (({} : CaseResult).calls cs)).failures := by
  have hc := C86_counts cs
  simp only [suiteXml, List.map_map]
  refine shown_sum _ (calls_cases_nodup cs) _ ?_
  rintro ⟨s, m⟩ he
  obtain ⟨t, h1, h2⟩ := h s m ((hc.2.1 s m).2 he)
  exact ⟨t, (hc.2.2.2 t).1 h2, h1⟩

/-- C87 (nothing is lost): the same for errors, if none is that of a fixture or sub-test. -/
theorem C87_errors_shown_partial (name : String) (cs : List ResultCall) (h : ∀ s m, .error s m ∈ cs → ∃ t, s = .case t ∧ .start t ∈ cs) :
    ((suiteXml name (({} : CaseResult).calls cs)).cases.map (·.errors.length)).sum = (suiteXml name (({} : CaseResult).calls cs)).errors := by
  have hc := C86_counts cs
  simp only [suiteXml, List.map_map]
  refine shown_sum _ (calls_cases_nodup cs) _ ?_
  rintro ⟨s, m⟩ he
  obtain ⟨t, h1, h2⟩ := h s m ((hc.2.2.1 s m).2 he)
  exact ⟨t, (hc.2.2.2 t).1 h2, h1⟩

theorem messagesOf_none (t : CaseId) (l : List (Subject × String)) (h : ∀ e ∈ l, e.1 ≠ .case t) : messagesOf t l = [] := by
  unfold messagesOf
  rw [List.map_eq_nil_iff, List.filter_eq_nil_iff]
  intro e he
  simp [h e he]

/-- C87 is violated for sub-tests: if only sub-tests failed, these failures are counted, but every test is shown as if it had passed. -/
theorem C87_sub_test_violated (name : String) (r : CaseResult) (h : ∀ e ∈ r.failures, ∃ t n, e.1 = .subTest t n) :
    (suiteXml name r).failures = r.failures.length ∧ ∀ c ∈ (suiteXml name r).cases, c.failures = [] := by
  refine ⟨rfl, ?_⟩
  intro c hc
  simp only [suiteXml, List.mem_map] at hc
  obtain ⟨t, _, rfl⟩ := hc
  refine messagesOf_none t _ ?_
  intro e he
  obtain ⟨t', n, h1⟩ := h e he
  rw [h1]; intro h2; cases h2

/-- C87 is violated for fixtures of classes and modules: if only these had errors, the errors are counted but shown nowhere. -/
theorem C87_fixture_error_violated (name : String) (r : CaseResult) (h : ∀ e ∈ r.errors, ∃ s, e.1 = .fixture s) :
    (suiteXml name r).errors = r.errors.length ∧ ∀ c ∈ (suiteXml name r).cases, c.errors = [] := by
  refine ⟨rfl, ?_⟩
  intro c hc
  simp only [suiteXml, List.mem_map] at hc
  obtain ⟨t, _, rfl⟩ := hc
  refine messagesOf_none t _ ?_
  intro e he
  obtain ⟨s, h1⟩ := h e he
  rw [h1]; intro h2; cases h2

/-- C87 is violated for unexpected successes: the report does not depend on them, although each makes the run fail. -/
theorem C87_unexpected_success_violated (name run : String) (r : CaseResult) (u : List Subject) :
    reportXml name [(run, .ran { r with unexpectedSuccesses := u })] = reportXml name [(run, .ran r)] ∧
      (u ≠ [] → (LaunchResult.ran { r with unexpectedSuccesses := u }).wasSuccessful = false) := by
  refine ⟨rfl, ?_⟩
  intro hu
  cases u with
  | nil => exact absurd rfl hu
  | cons _ _ => simp [LaunchResult.wasSuccessful]

/-! ## Names -/

theorem partitionBlank_none (cs : List Char) (h : ' ' ∉ cs) (ds : List Char) :
    partitionBlank (cs ++ ds) = (cs ++ (partitionBlank ds).1, (partitionBlank ds).2) := by
  induction cs with
  | nil => rfl
  | cons c cs ih =>
    have hc : c ≠ ' ' := fun hc => h (by rw [hc]; exact List.mem_cons_self ..)
    have := ih fun hx => h (List.mem_cons_of_mem _ hx)
    simp [partitionBlank, hc, this]

theorem rpartitionDot_last (a b : List Char) (h : '.' ∉ b) : rpartitionDot (a ++ '.' :: b) = (a, b) := by
  have h1 : '.' ∈ a ++ '.' :: b := by simp
  have h2 : (a ++ '.' :: b).reverse = b.reverse ++ '.' :: a.reverse := by simp
  have h3 : ∀ x ∈ b.reverse, decide (x ≠ '.') = true := by
    intro x hx
    have : x ≠ '.' := fun hh => h (by rw [← hh]; exact List.mem_reverse.1 hx)
    simp [this]
  unfold rpartitionDot
  rw [if_pos h1, h2, List.dropWhile_append_of_pos h3, List.takeWhile_append_of_pos h3]
  simp

theorem partition_join (cs : List Char) : (partitionBlank cs).1 ++ ' ' :: (partitionBlank cs).2 = cs ∨
    (' ' ∉ cs ∧ partitionBlank cs = (cs, [])) := by
  induction cs with
  | nil => exact .inr ⟨by simp, rfl⟩
  | cons c cs ih =>
    by_cases hc : c = ' '
    · left; simp [partitionBlank, hc]
    · rcases ih with h | ⟨h, h2⟩
      · left; simp [partitionBlank, hc, h]
      · right; simp [partitionBlank, hc, h, h2, Ne.symm hc]

theorem stripChars_append_space (s : List Char) : stripChars (s ++ [' ']) = stripChars s := by
  unfold stripChars
  by_cases h : ∀ x ∈ s, isSpace x = true
  · have h1 : s.dropWhile isSpace = [] := by
      induction s with
      | nil => rfl
      | cons x xs ih =>
        rw [List.dropWhile_cons, if_pos (h x (List.mem_cons_self ..))]
        exact ih fun y hy => h y (List.mem_cons_of_mem _ hy)
    rw [List.dropWhile_append_of_pos h, h1]
    rfl
  · have h2 : (s ++ [' ']).dropWhile isSpace = s.dropWhile isSpace ++ [' '] := by
      rw [List.dropWhile_append]
      have : (s.dropWhile isSpace).isEmpty = false := by
        cases hd : s.dropWhile isSpace with
        | nil =>
          refine absurd ?_ h
          clear h
          induction s with
          | nil => intro x hx; cases hx
          | cons y ys ih =>
            rw [List.dropWhile_cons] at hd
            split at hd
            · rename_i hy
              intro x hx
              rcases List.mem_cons.1 hx with rfl | hx
              · exact hy
              · exact ih hd x hx
            · cases hd
        | cons _ _ => rfl
      rw [this]; rfl
    rw [h2, List.reverse_append]
    rfl

/-- C87 (names): a test is shown with the name of its class and that of its method, if the first word of the latter (with the parameters) has no dot. -/
theorem C87_names_partial (r : CaseResult) (t : CaseId) (h1 : ' ' ∉ t.className.toList) (h2 : '.' ∉ (partitionBlank t.method.toList).1) :
    (caseXml r t).classname = t.className ∧ (caseXml r t).name = String.ofList (stripChars t.method.toList) := by
  simp only [caseXml, xmlNames, CaseId.id]
  have h3 : partitionBlank (t.className.toList ++ '.' :: t.method.toList) =
      (t.className.toList ++ '.' :: (partitionBlank t.method.toList).1, (partitionBlank t.method.toList).2) := by
    rw [partitionBlank_none _ h1]
    simp [partitionBlank]
  rw [h3]
  simp only
  rw [rpartitionDot_last _ _ h2]
  refine ⟨by simp, ?_⟩
  rcases partition_join t.method.toList with h4 | ⟨_, h4⟩
  · rw [h4]
  · rw [h4]; simp only; rw [stripChars_append_space]

/-- C87 is violated for parameters with a dot, like numbers and names of files: these are cut. -/
theorem C87_names_violated :
    (caseXml {} ⟨0, "pkg.TestIt", "test_it[1.5]"⟩).classname = "pkg.TestIt.test_it[1" ∧ (caseXml {} ⟨0, "pkg.TestIt", "test_it[1.5]"⟩).name = "5]" := by
  decide +kernel

-- a parametrized test without dots in its parameters
example : (caseXml {} ⟨0, "pkg.TestIt", "test_it[a, b]"⟩).classname = "pkg.TestIt" ∧ (caseXml {} ⟨0, "pkg.TestIt", "test_it[a, b]"⟩).name = "test_it[a, b]" := by
  decide +kernel

/-- A run with a failing test, a failing sub-test and an unexpected success. -/
def sampleCalls : List ResultCall :=
  [.start ⟨0, "m.A", "a"⟩, .failure (.case ⟨0, "m.A", "a"⟩) "1 != 0", .stop ⟨0, "m.A", "a"⟩, .start ⟨0, "m.A", "b"⟩, .success ⟨0, "m.A", "b"⟩]

example : ∀ s m, .failure s m ∈ sampleCalls → ∃ t, s = .case t ∧ .start t ∈ sampleCalls := by
  intro s m h
  simp only [sampleCalls, List.mem_cons, List.mem_nil_iff, reduceCtorEq, ResultCall.failure.injEq, false_or, or_false] at h
  exact ⟨⟨0, "m.A", "a"⟩, h.1, by simp [sampleCalls]⟩

example : (suiteXml "x" (({} : CaseResult).calls sampleCalls)).cases.map (·.failures) = [["1 != 0"], []] := by decide +kernel

-- a result with a failing sub-test only
example : (suiteXml "x" (({} : CaseResult).calls [.start ⟨0, "m.A", "a"⟩, .failure (.subTest ⟨0, "m.A", "a"⟩ 0) "1 != 0"])).failures = 1 := by decide +kernel

-- runs: one that is fine and one that died
example : launchTestExit [⟨"a", [], .results {}⟩, ⟨"b", [⟨0, "m.A", "a"⟩], .died⟩, ⟨"c", [], .results {}⟩] = some 1 := by decide +kernel

example : launchTestExit [⟨"a", [], .results {}⟩, ⟨"b", [⟨0, "m.A", "a"⟩], .skipTest "not today"⟩] = some 0 := by decide +kernel

end Verif
