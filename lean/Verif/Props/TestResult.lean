import Verif.Model.TestResult
import Verif.Spec.TestWorker

/-! # C86: success of launch tests; C87: the xUnit report -/

namespace Verif

/-! ## Results -/

theorem calls_append (r : CaseResult) (a b : List ResultCall) : r.calls (a ++ b) = (r.calls a).calls b := List.foldl_append

/-- What calls add to a result does not depend on what is in it. -/
theorem append_calls (r o : CaseResult) (cs : List ResultCall) : r.append (o.calls cs) = (r.append o).calls cs := by
  induction cs generalizing o with
  | nil => rfl
  | cons c cs ih =>
    show r.append ((o.call c).calls cs) = ((r.append o).call c).calls cs
    rw [ih]
    congr 1
    cases c <;> simp [CaseResult.append, CaseResult.call, Nat.add_assoc]
    rename_i t
    have hm : ∀ (l acc : List CaseId), t ∈ l → t ∈ l.foldl CaseResult.addCase acc := by
      intro l
      induction l with
      | nil => intro acc h; cases h
      | cons x xs ihx =>
        intro acc h
        rw [List.foldl_cons]
        rcases List.mem_cons.1 h with rfl | h
        · have hk : ∀ (l acc : List CaseId), t ∈ acc → t ∈ l.foldl CaseResult.addCase acc := by
            intro l
            induction l with
            | nil => intro acc h; exact h
            | cons y ys ihy =>
              intro acc h
              refine ihy _ ?_
              unfold CaseResult.addCase
              split
              · exact h
              · exact List.mem_append_left _ h
          refine hk _ _ ?_
          unfold CaseResult.addCase
          split
          · assumption
          · simp
        · exact ihx _ h
    by_cases ht : t ∈ o.cases
    · have h1 : CaseResult.addCase o.cases t = o.cases := if_pos ht
      rw [h1]
      exact (if_pos (hm _ _ ht)).symm
    · have h1 : CaseResult.addCase o.cases t = o.cases ++ [t] := if_neg ht
      rw [h1, List.foldl_append]
      rfl

/-- C86 (merging): the results of the tests before and after shutdown, merged, are those of a single run of all of them. -/
theorem C86_merge (a b : List ResultCall) :
    (({} : CaseResult).calls a).append (({} : CaseResult).calls b) = ({} : CaseResult).calls (a ++ b) := by
  rw [append_calls, calls_append]
  congr 1
  simp [CaseResult.append]

theorem calls_bad (cs : List ResultCall) (r : CaseResult) :
    (LaunchResult.ran (r.calls cs)).wasSuccessful = true ↔ (LaunchResult.ran r).wasSuccessful = true ∧ ∀ c ∈ cs, ¬ c.IsBad := by
  induction cs generalizing r with
  | nil => simp [CaseResult.calls]
  | cons c cs ih =>
    show (LaunchResult.ran ((r.call c).calls cs)).wasSuccessful = true ↔ _
    rw [ih]
    cases c <;> simp [CaseResult.call, LaunchResult.wasSuccessful, ResultCall.IsBad, and_assoc]

/-- C86 (success): a run of tests is successful exactly if no test failed, had an error or succeeded unexpectedly. -/
theorem C86_success (cs : List ResultCall) : (LaunchResult.ran (({} : CaseResult).calls cs)).wasSuccessful = true ↔ ∀ c ∈ cs, ¬ c.IsBad := by
  rw [calls_bad]
  simp [LaunchResult.wasSuccessful]

/-- C86 (numbers): as many tests are counted as were started, and all failures and errors are kept. -/
theorem C86_counts (cs : List ResultCall) :
    (({} : CaseResult).calls cs).testsRun = cs.countP (fun c => match c with | .start _ => true | _ => false) ∧
      (∀ s m, ResultCall.failure s m ∈ cs ↔ (s, m) ∈ (({} : CaseResult).calls cs).failures) ∧
      (∀ s m, ResultCall.error s m ∈ cs ↔ (s, m) ∈ (({} : CaseResult).calls cs).errors) ∧
      (∀ t, ResultCall.start t ∈ cs ↔ t ∈ (({} : CaseResult).calls cs).cases) := by
  have key : ∀ (cs : List ResultCall) (r : CaseResult),
      (r.calls cs).testsRun = r.testsRun + cs.countP (fun c => match c with | .start _ => true | _ => false) ∧
      (∀ s m, (s, m) ∈ (r.calls cs).failures ↔ (s, m) ∈ r.failures ∨ ResultCall.failure s m ∈ cs) ∧
      (∀ s m, (s, m) ∈ (r.calls cs).errors ↔ (s, m) ∈ r.errors ∨ ResultCall.error s m ∈ cs) ∧
      (∀ t, t ∈ (r.calls cs).cases ↔ t ∈ r.cases ∨ ResultCall.start t ∈ cs) := by
    intro cs
    induction cs with
    | nil => intro r; simp [CaseResult.calls]
    | cons c cs ih =>
      intro r
      obtain ⟨h1, h2, h3, h4⟩ := ih (r.call c)
      have hc : r.calls (c :: cs) = (r.call c).calls cs := rfl
      rw [hc]
      refine ⟨?_, ?_, ?_, ?_⟩
      · rw [h1]; cases c <;> simp [CaseResult.call]; omega
      · intro s m; rw [h2]; cases c <;> simp [CaseResult.call, or_assoc]
      · intro s m; rw [h3]; cases c <;> simp [CaseResult.call, or_assoc]
      · intro t; rw [h4]
        cases c <;> simp [CaseResult.call]
        rename_i u
        unfold CaseResult.addCase
        split
        · rename_i hu
          constructor
          · rintro (h | h)
            · exact .inl h
            · exact .inr (.inr h)
          · rintro (h | rfl | h)
            · exact .inl h
            · exact .inl hu
            · exact .inr h
        · simp [or_assoc]
  obtain ⟨h1, h2, h3, h4⟩ := key cs {}
  exact ⟨by simpa using h1, fun s m => by simp [h2], fun s m => by simp [h3], fun t => by simp [h4]⟩

/-! ## Exit code -/

/-- A run is fine if its launch was skipped or all its tests succeeded. -/
def LaunchRun.Fine (r : LaunchRun) : Prop :=
  (∃ reason, r.ends = .skipTest reason) ∨ ∃ x, r.ends = .results x ∧ (LaunchResult.ran x).wasSuccessful = true

/-- C86 (exit code): launch_test ends with 0 exactly if every run is fine: no failure is hidden by other runs, and no run that died counts as a success. -/
theorem C86_exit (runs : List LaunchRun) : launchTestExit runs = some 0 ↔ ∀ r ∈ runs, r.Fine := by
  induction runs with
  | nil => simp [launchTestExit, runAll]
  | cons r rs ih =>
    have hr : ∀ (x : LaunchResult), (∀ l, runAll rs = .ok l → runAll (r :: rs) = .ok ((r.name, x) :: l)) → (∀ e, runAll rs = .error e → runAll (r :: rs) = .error e) →
        (launchTestExit (r :: rs) = some 0 ↔ x.wasSuccessful = true ∧ launchTestExit rs = some 0) := by
      intro x h1 h2
      unfold launchTestExit
      cases h3 : runAll rs with
      | ok l =>
        rw [h1 l h3]
        simp only [List.all_cons, Option.some.injEq]
        by_cases h4 : x.wasSuccessful = true <;> by_cases h5 : l.all (fun p => p.2.wasSuccessful) = true <;> simp [h4, h5]
      | error e => rw [h2 e h3]; simp
    simp only [List.forall_mem_cons]
    cases he : r.ends with
    | results x =>
      rw [hr (.ran x) (fun l h => by simp [runAll, he, h]) (fun e h => by simp [runAll, he, h]), ih]
      simp [LaunchRun.Fine, he]
    | skipTest reason =>
      rw [hr (.skip r.cases reason) (fun l h => by simp [runAll, he, h]) (fun e h => by simp [runAll, he, h]), ih]
      simp [LaunchRun.Fine, he, LaunchResult.skip, LaunchResult.wasSuccessful]
    | died => simp [LaunchRun.Fine, he, launchTestExit, runAll, LaunchResult.fail, LaunchResult.wasSuccessful]
    | raised e => simp [LaunchRun.Fine, he, launchTestExit, runAll]

/-- C86 (a launch that died): all tests of the run are reported as failed, whether they were run or not. -/
theorem C86_died (before after : List LaunchRun) (r : LaunchRun) (hd : r.ends = .died) (l : List (String × LaunchResult))
    (h : runAll (before ++ r :: after) = .ok l) (hb : ∀ b ∈ before, b.ends ≠ .died) :
    ∃ x, (r.name, x) ∈ l ∧ x.wasSuccessful = false ∧ x.data.testsRun = r.cases.length ∧ ∀ t ∈ r.cases, ∃ m, (Subject.case t, m) ∈ x.data.failures := by
  induction before generalizing l with
  | nil =>
    simp only [List.nil_append, runAll, hd, Except.ok.injEq] at h
    subst h
    refine ⟨_, List.mem_singleton.2 rfl, rfl, rfl, fun t ht => ⟨diedMessage, ?_⟩⟩
    simp only [LaunchResult.fail, LaunchResult.data, List.mem_map]
    exact ⟨t, ht, rfl⟩
  | cons b bs ih =>
    have hbs : ∀ b ∈ bs, b.ends ≠ .died := fun x hx => hb x (List.mem_cons_of_mem _ hx)
    simp only [List.cons_append, runAll] at h
    cases hr : runAll (bs ++ r :: after) with
    | error e =>
      rw [hr] at h
      have := hb b (List.mem_cons_self ..)
      cases hbe : b.ends <;> rw [hbe] at h <;> simp at h <;> exact absurd hbe this
    | ok l' =>
      rw [hr] at h
      obtain ⟨x, h1, h2⟩ := ih l' hr hbs
      refine ⟨x, ?_, h2⟩
      have := hb b (List.mem_cons_self ..)
      cases hbe : b.ends <;> rw [hbe] at h <;> simp at h
      · rw [← h]; exact List.mem_cons_of_mem _ h1
      · rw [← h]; exact List.mem_cons_of_mem _ h1
      · exact absurd hbe this

/-- C86 (one result for each run): if no launch dies, there is one for each run, in order. -/
theorem C86_each_run_partial (runs : List LaunchRun) (l : List (String × LaunchResult)) (h : runAll runs = .ok l) (hd : ∀ r ∈ runs, r.ends ≠ .died) :
    l.map (·.1) = runs.map (·.name) := by
  induction runs generalizing l with
  | nil => simp only [runAll, Except.ok.injEq] at h; subst h; rfl
  | cons r rs ih =>
    have hd' := hd r (List.mem_cons_self ..)
    have hds : ∀ x ∈ rs, x.ends ≠ .died := fun x hx => hd x (List.mem_cons_of_mem _ hx)
    simp only [runAll] at h
    cases hr : runAll rs with
    | error e => rw [hr] at h; cases hre : r.ends <;> rw [hre] at h <;> simp at h; exact absurd hre hd'
    | ok l' =>
      rw [hr] at h
      have := ih l' hr hds
      cases hre : r.ends <;> rw [hre] at h <;> simp at h
      · subst h; simp [this]
      · subst h; simp [this]
      · exact absurd hre hd'

/-- C86 is violated: after a launch that died the other runs are not made, and there is no result for them, not even in the report. -/
theorem C86_later_runs_violated (r : LaunchRun) (rs : List LaunchRun) (hd : r.ends = .died) :
    ∃ x, runAll (r :: rs) = .ok [(r.name, x)] := ⟨_, by simp only [runAll, hd]; rfl⟩

/-- C86 (exit code of failures): if results are reported at all, launch_test ends with 0 or 1, and with 1 exactly if some run is not fine. -/
theorem C86_exit_codes (runs : List LaunchRun) (n : Nat) (h : launchTestExit runs = some n) : (n = 0 ∧ ∀ r ∈ runs, r.Fine) ∨ (n = 1 ∧ ∃ r ∈ runs, ¬ r.Fine) := by
  have h0 := C86_exit runs
  rw [h] at h0
  unfold launchTestExit at h
  split at h
  · simp only [Option.some.injEq] at h
    split at h
    · subst h; exact .inl ⟨rfl, h0.mp rfl⟩
    · subst h
      refine .inr ⟨rfl, Classical.byContradiction fun hn => ?_⟩
      have := h0.mpr fun r hr => Classical.byContradiction fun hf => hn ⟨r, hr, hf⟩
      cases this
  · cases h

example : launchTestExit [⟨"a", [], .results {}⟩, ⟨"b", [⟨0, "m.A", "a"⟩], .died⟩] = some 1 := by decide +kernel

end Verif
