import Verif.Lemmas.TestWorker

/-! # C85: a launch and its tests -/

namespace Verif

open Worker

/-- C85 (tests of the active processes): they are run only after the launch was started and said that it is ready.  Missing: that they are run
while the launch still runs, see `C85_launch_over_violated`. -/
theorem C85_active_tests_partial (k : Bool) (n m : Nat) (before after : List WorkerStep) (cs : List ResultCall) (s : Worker)
    (h : (init k n m).run (before ++ .preTest cs :: after) = some s) : .launch ∈ before ∧ .ready ∈ before := by
  obtain ⟨u, v, h1, h2, _⟩ := run_split h
  have I := inv_run h1
  simp only [step] at h2
  split at h2
  · rename_i hc
    have := I.threadTesting (.inl hc.1)
    exact ⟨I.launch.2 (I.readyLaunch this), I.launched.1 this⟩
  · cases h2

/-- C85 is violated: if the launch ends early, tests of the active processes go on being run, even after the run has been reported as failed. -/
theorem C85_launch_over_violated (cs : List ResultCall) : ∃ s, (init false 1 0).run
    [.startThread, .launch, .ready, .stop .idle, .look, .wake, .preTest cs] = some s ∧ s.main = .ended .died := ⟨_, rfl, rfl⟩

/-- C85 (tests after shutdown): they are run only after the launch has ended and after all tests of the active processes, unless an exception left
these; no test of the active processes is run afterwards. -/
theorem C85_tests_after_shutdown (k : Bool) (n m : Nat) (before after : List WorkerStep) (cs : List ResultCall) (s : Worker)
    (h : (init k n m).run (before ++ .postTest cs :: after) = some s) :
    Stopped before ∧ ((preTests before).length = n ∨ .interrupt ∈ before) ∧ preTests after = [] := by
  obtain ⟨u, v, h1, h2, h3⟩ := run_split h
  have I := inv_run h1
  have hm : u.main = .testing := by
    simp only [step] at h2
    split at h2
    · assumption
    · cases h2
  have hc := I.testing hm
  refine ⟨I.over.1 (by simp [Worker.over, hm]), ?_, ?_⟩
  · cases hr : u.results with
    | some r => exact .inl (by rw [← I.pre]; exact (I.results r hr).2.1)
    | none =>
      refine .inr (I.noResults hr ?_)
      rcases (I.completedThread hc.1).2 with ht | ht
      · exact .inl (.inr ht)
      · exact .inr ⟨ht, hc.1⟩
  · have I2 := inv_run h
    cases hp : preTests after with
    | nil => rfl
    | cons c l =>
      have : ∃ a b, after = a ++ .preTest c :: b := by
        clear h h3 I2
        induction after with
        | nil => cases hp
        | cons x xs ih =>
          by_cases hx : ∃ d, x = .preTest d
          · obtain ⟨d, rfl⟩ := hx
            simp only [preTests, List.cons.injEq] at hp
            exact ⟨[], xs, by rw [hp.1]; rfl⟩
          · have : preTests (x :: xs) = preTests xs := by
              cases x <;> first | rfl | exact absurd ⟨_, rfl⟩ hx
            obtain ⟨a, b, hab⟩ := ih (this ▸ hp)
            exact ⟨x :: a, b, by rw [hab]; rfl⟩
      obtain ⟨a, b, rfl⟩ := this
      have h4 : (init k n m).run ((before ++ .postTest cs :: a) ++ .preTest c :: b) = some s := by
        rw [List.append_assoc]; exact h
      obtain ⟨u', v', h5, h6, _⟩ := run_split h4
      have I3 := inv_run h5
      simp only [step] at h6
      split at h6
      · rename_i hc2
        have h7 : u'.completed = true := I3.completed.2 (List.mem_append_left _ (I.completed.1 hc.1))
        have h8 := (I3.completedThread h7).2
        rw [hc2.1] at h8
        simp at h8
      · cases h6

/-- C85 (results): if the run ends with results, each test was run once, and the results are those of the tests of the active processes followed by
those of the tests after shutdown. -/
theorem C85_results (k : Bool) (n m : Nat) (steps : List WorkerStep) (s : Worker) (r : CaseResult)
    (h : (init k n m).run steps = some s) (hr : s.main = .ended (.results r)) :
    (preTests steps).length = n ∧ (postTests steps).length = m ∧
      r = (({} : CaseResult).calls (preTests steps).flatten).append (({} : CaseResult).calls (postTests steps).flatten) := by
  have I := inv_run h
  have h1 := (I.mainEnded _ hr).2
  rcases h1 with ⟨h1, _⟩ | ⟨_, h1, h2⟩
  · rw [diedEnd] at h1
    split at h1 <;> cases h1
  · rcases h2 with ⟨r', h2, h3⟩ | ⟨h2, _⟩
    · cases h2
      have h4 := I.results r h3
      refine ⟨by rw [← I.pre]; exact h4.2.1, by rw [← I.post]; exact h1, ?_⟩
      rw [← I.pre, ← I.post]
      exact h4.2.2.2 _ hr
    · cases h2

/-- C85 (launch died): the run is a failure because the launch ended before the tests of the active processes were completed, and then no test after
shutdown is run. -/
theorem C85_died (k : Bool) (n m : Nat) (steps : List WorkerStep) (s : Worker) (h : (init k n m).run steps = some s) (hd : s.main = .ended .died) :
    postTests steps = [] ∧ ∃ before after, steps = before ++ .look :: after ∧ Stopped before ∧ .complete ∉ before := by
  have I := inv_run h
  refine ⟨?_, ?_⟩
  · rcases (I.mainEnded _ hd).2 with ⟨_, h1⟩ | ⟨_, _, h1⟩
    · rw [← I.post]; exact h1
    · rcases h1 with ⟨_, h1, _⟩ | ⟨h1, _⟩ <;> cases h1
  · obtain ⟨before, after, rfl⟩ := List.append_of_mem (I.mainEnded _ hd).1
    refine ⟨before, after, rfl, ?_⟩
    obtain ⟨u, v, h1, h2, h3⟩ := run_split h
    have I1 := inv_run h1
    have hm : u.main = .returned := by
      simp only [step] at h2
      split at h2
      · assumption
      · cases h2
    refine ⟨I1.over.1 (by simp [Worker.over, hm]), ?_⟩
    intro hc
    have hc1 := I1.completed.2 hc
    simp only [step, hm, hc1, if_true, Option.some.injEq] at h2
    have h4 := notDied_run (by rw [← h2]; rfl) h3
    simp [notDied, hd] at h4

/-- C85 is violated: if an exception leaves the runner of the tests of the active processes, the run ends without results; unless the launch died
before, with an AttributeError. -/
theorem C85_interrupt_violated (k : Bool) (n m : Nat) (steps : List WorkerStep) (s : Worker) (e : WorkerEnd) (h : (init k n m).run steps = some s)
    (hi : .interrupt ∈ steps) (he : s.main = .ended e) : e = .died ∨ ∃ x, e = .raised x := by
  have I := inv_run h
  rcases (I.mainEnded _ he).2 with ⟨h1, _⟩ | ⟨_, _, h1⟩
  · rw [h1, diedEnd]
    split
    · exact .inr ⟨_, rfl⟩
    · exact .inl rfl
  · rcases h1 with ⟨r, _, h1⟩ | ⟨h1, _⟩
    · exact absurd hi (I.results r h1).1
    · exact .inr ⟨_, h1⟩

/-- C85 (how runs end): with results, because the launch died, or with an exception: because one left the tests, as above, or because the summary that
is printed when the launch died cannot be made. -/
theorem C85_ends (k : Bool) (n m : Nat) (steps : List WorkerStep) (s : Worker) (e : WorkerEnd) (h : (init k n m).run steps = some s)
    (he : s.main = .ended e) :
    (∃ r, e = .results r) ∨ e = .died ∨ (e = .raised .attributeError ∧ .interrupt ∈ steps) ∨ (e = .raised .attributeError ∧ Unexited steps) ∨
      (e = .raised .valueError ∧ Unprintable steps) := by
  have I := inv_run h
  rcases (I.mainEnded _ he).2 with ⟨h1, _⟩ | ⟨hc, _, h1⟩
  · have h2 := summaryError_eq I
    rw [diedEnd] at h1
    by_cases hu : Unexited steps
    · rw [h2.1 hu] at h1
      exact .inr (.inr (.inr (.inl ⟨h1, hu⟩)))
    · by_cases hp : Unprintable steps
      · rw [h2.2.1 hu hp] at h1
        exact .inr (.inr (.inr (.inr ⟨h1, hp⟩)))
      · rw [h2.2.2 hu hp] at h1
        exact .inr (.inl h1)
  · rcases h1 with ⟨r, h1, _⟩ | ⟨h1, h2⟩
    · exact .inl ⟨r, h1⟩
    · refine .inr (.inr (.inl ⟨h1, I.noResults h2 ?_⟩))
      rcases (I.completedThread hc).2 with ht | ht
      · exact .inl (.inr ht)
      · exact .inr ⟨ht, hc⟩

theorem look_ended {k : Bool} {n m : Nat} {before after : List WorkerStep} {s : Worker} (h : (init k n m).run (before ++ .look :: after) = some s)
    (hc : .complete ∉ before) : ∃ u, (init k n m).run before = some u ∧ s.main = .ended u.diedEnd := by
  obtain ⟨u, v, h1, h2, h3⟩ := run_split h
  have I := inv_run h1
  have hc1 : u.completed = false := by
    cases hx : u.completed with
    | false => rfl
    | true => exact absurd (I.completed.1 hx) hc
  simp only [step] at h2
  split at h2
  · simp only [hc1, Option.some.injEq] at h2
    exact ⟨u, h1, ended_run (by rw [← h2]; rfl) h3⟩
  · cases h2

/-- C85 (a launch that dies): if the launch ends before the tests of the active processes are completed, the run is reported as failed because of this,
whatever happens afterwards.  Missing: processes whose exit was not noticed or that have failed and written something that is not ASCII, see
`C85_unexited_violated` and `C85_unprintable_violated`. -/
theorem C85_dies_partial (k : Bool) (n m : Nat) (before after : List WorkerStep) (s : Worker) (h : (init k n m).run (before ++ .look :: after) = some s)
    (hc : .complete ∉ before) (hu : ¬ Unexited before) (hp : ¬ Unprintable before) : s.main = .ended .died := by
  obtain ⟨u, h1, h2⟩ := look_ended h hc
  rw [h2, diedEnd, (summaryError_eq (inv_run h1)).2.2 hu hp]

/-- C85 is violated: if the launch ends before the tests are completed and a process that failed (or was killed, for example by the shutdown of the
launch) has written something that is not ASCII, such as `✓`, then the run ends with a UnicodeDecodeError: there is no result, the remaining runs are not
made and no report is written. -/
theorem C85_unprintable_violated (k : Bool) (n m : Nat) (before after : List WorkerStep) (s : Worker)
    (h : (init k n m).run (before ++ .look :: after) = some s) (hc : .complete ∉ before) (hu : ¬ Unexited before) (hp : Unprintable before) :
    s.main = .ended (.raised .valueError) := by
  obtain ⟨u, h1, h2⟩ := look_ended h hc
  rw [h2, diedEnd, (summaryError_eq (inv_run h1)).2.1 hu hp]

/-- C85 is violated: if the launch ends with an exception while processes are running, so that their exit is not noticed, the run ends with an
AttributeError. -/
theorem C85_unexited_violated (k : Bool) (n m : Nat) (before after : List WorkerStep) (s : Worker)
    (h : (init k n m).run (before ++ .look :: after) = some s) (hc : .complete ∉ before) (hu : Unexited before) :
    s.main = .ended (.raised .attributeError) := by
  obtain ⟨u, h1, h2⟩ := look_ended h hc
  rw [h2, diedEnd, (summaryError_eq (inv_run h1)).1 hu]

/-- C85 (`keep_alive`): such a launch does not end because there is nothing left to do. -/
theorem C85_keep_alive (n m : Nat) (steps : List WorkerStep) (s : Worker) (h : (init true n m).run steps = some s) : .stop .idle ∉ steps := by
  intro hi
  obtain ⟨before, after, rfl⟩ := List.append_of_mem hi
  obtain ⟨u, v, h1, h2, _⟩ := run_split h
  have I := inv_run h1
  simp only [step] at h2
  split at h2
  · simp [I.keep] at h2
  · cases h2

theorem asked_step {s t : Worker} {a : WorkerStep} (h : s.asked = true) (hs : s.step a = some t) : t.asked = true := by
  cases a <;> simp only [step, callShutdown] at hs <;> (repeat' split at hs) <;> simp only [Option.some.injEq, reduceCtorEq] at hs <;> subst hs <;>
    first | exact h | rfl

theorem asked_run {s t : Worker} {as : List WorkerStep} (h : s.asked = true) (hs : s.run as = some t) : t.asked = true := by
  induction as generalizing s with
  | nil => cases hs; exact h
  | cons a as ih =>
    simp only [run] at hs
    cases ha : s.step a with
    | none => rw [ha] at hs; cases hs
    | some u => rw [ha] at hs; exact ih (asked_step h ha) hs

/-- C85 (end of the tests): when the test thread has completed the tests, the launch ends or is asked to end. -/
theorem C85_asked (k : Bool) (n m : Nat) (before after : List WorkerStep) (s : Worker)
    (h : (init k n m).run (before ++ .shutdown :: after) = some s) : Stopped before ∨ s.asked = true := by
  obtain ⟨u, v, h1, h2, h3⟩ := run_split h
  have I := inv_run h1
  simp only [step] at h2
  split at h2
  · rename_i ht
    simp only [Option.some.injEq] at h2
    rcases I.readyLaunch (I.threadTesting (.inr (.inr ht))) with hr | ho
    · exact .inr (asked_run (by rw [← h2]; simp [callShutdown, hr]) h3)
    · exact .inl (I.over.1 ho)
  · cases h2

/-- C85 (timeout): if the launch is not ready in time, the launch ends or is asked to end, provided that it was running already. -/
theorem C85_timeout_partial (k : Bool) (n m : Nat) (before after : List WorkerStep) (s : Worker) (hl : .launch ∈ before)
    (h : (init k n m).run (before ++ .giveUp :: after) = some s) : Stopped before ∨ s.asked = true := by
  obtain ⟨u, v, h1, h2, h3⟩ := run_split h
  have I := inv_run h1
  simp only [step] at h2
  split at h2
  · simp only [Option.some.injEq] at h2
    rcases I.launch.1 hl with hr | ho
    · exact .inr (asked_run (by rw [← h2]; simp [callShutdown, hr]) h3)
    · exact .inl (I.over.1 ho)
  · cases h2

theorem never_asked {s t : Worker} {as : List WorkerStep} (h : s.asked = false ∧ s.thread = .ended ∧ s.main ≠ .setup) (hs : s.run as = some t) :
    .stop .asked ∉ as ∧ t.asked = false := by
  induction as generalizing s with
  | nil => cases hs; exact ⟨List.not_mem_nil, h.1⟩
  | cons a as ih =>
    simp only [run] at hs
    cases ha : s.step a with
    | none => rw [ha] at hs; cases hs
    | some u =>
      rw [ha] at hs
      have hu : a ≠ .stop .asked ∧ u.asked = false ∧ u.thread = .ended ∧ u.main ≠ .setup := by
        cases a <;> simp only [step, callShutdown] at ha <;> (repeat' split at ha) <;> simp only [Option.some.injEq, reduceCtorEq] at ha <;> subst ha <;>
          simp_all
      have := ih hu.2 hs
      exact ⟨by simp [this.1, Ne.symm hu.1], this.2⟩

/-- C85 is violated for short timeouts: if the test thread gives up before the service runs, the request is lost, and the launch is never asked to end,
whatever happens afterwards. -/
theorem C85_timeout_violated (k : Bool) (n m : Nat) (after : List WorkerStep) (s : Worker)
    (h : (init k n m).run ([.startThread, .timeout, .giveUp, .launch] ++ after) = some s) : s.asked = false ∧ .stop .asked ∉ after := by
  rw [run_append] at h
  have := never_asked (s := { init k n m with main := .launching, thread := .ended }) ⟨rfl, rfl, by simp⟩ (t := s) (as := after) (by simpa [run, step, init, callShutdown, running] using h)
  exact ⟨this.2, this.1⟩

/-- A run with one test before and one after shutdown, which fails. -/
def sampleRun : List WorkerStep :=
  [.startThread, .launch, .ready, .wake, .preTest [.start ⟨0, "m.A", "test_a"⟩, .success ⟨0, "m.A", "test_a"⟩], .keep, .complete, .shutdown, .stop .asked,
    .look, .postTest [.start ⟨1, "m.B", "test_b"⟩, .failure (.case ⟨1, "m.B", "test_b"⟩) "1 != 0"], .merge]

example : ((init true 1 1).run sampleRun).isSome = true := by decide +kernel

-- the hypotheses of `C85_results`: it ends with the results of both tests
example : ∃ s r, (init true 1 1).run sampleRun = some s ∧ s.main = .ended (.results r) ∧ r.testsRun = 2 ∧ r.failures.length = 1 := ⟨_, _, rfl, rfl, rfl, rfl⟩

-- of `C85_died`
example : ∃ s, (init false 1 1).run [.startThread, .launch, .ready, .wake, .stop .signal, .look, .preTest []] = some s ∧ s.main = .ended .died := ⟨_, rfl, rfl⟩

-- of `C85_dies_partial`: the process writes `✓` and exits with 0 before the tests are completed
example : ∃ s, (init false 1 1).run ([.startThread, .launch, .procStart "a-1", .ready, .wake, .procOutput "a-1" [226, 156, 147, 10], .procExit "a-1" 0,
    .stop .idle] ++ .look :: []) = some s ∧ s.main = .ended .died := ⟨_, rfl, rfl⟩

-- of `C85_unexited_violated`: the launch ends with an exception
example : ∃ s, (init false 1 1).run ([.startThread, .launch, .procStart "a-1", .ready, .wake, .stop .fault] ++ .look :: []) = some s ∧
    s.main = .ended (.raised .attributeError) := ⟨_, rfl, rfl⟩

-- of `C85_unprintable_violated`: the process is interrupted
example : ∃ s, (init false 1 1).run ([.startThread, .launch, .procStart "a-1", .ready, .wake, .procOutput "a-1" [226, 156, 147, 10], .procExit "a-1" (-2),
    .stop .signal] ++ .look :: []) = some s ∧ s.main = .ended (.raised .valueError) := ⟨_, rfl, rfl⟩

-- of `C85_interrupt_violated`
example : ∃ s, (init false 1 0).run [.startThread, .launch, .ready, .wake, .interrupt, .complete, .shutdown, .stop .asked, .look, .merge] = some s ∧
    s.main = .ended (.raised .attributeError) := ⟨_, rfl, rfl⟩

-- of `C85_timeout_partial` and `C85_timeout_violated`
example : ((init true 1 0).run [.startThread, .launch, .timeout, .giveUp, .stop .asked]).isSome = true := by decide +kernel

example : ((init true 1 0).run ([.startThread, .timeout, .giveUp, .launch] ++ [.ready])).isSome = true := by decide +kernel

end Verif
