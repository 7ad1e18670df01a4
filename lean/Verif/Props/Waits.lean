import Verif.Model.Waits

/-! # C57 launch_pytest waits honour their timeout argument -/

namespace Verif

/-- The settings of the event are listed in order. -/
def InOrder (l : List Nat) : Prop := l.Pairwise (· ≤ ·)

theorem loop_sound (E : WaitEnv) (sync : Bool) (d : Nat) : ∀ (l : List Nat) (cleared now e : Nat),
    E.loop sync d l cleared now = .returned true e → E.cond e = true
  | [], _, now, e, h => by
    simp only [WaitEnv.loop, WaitEnv.timedOut] at h
    split at h
    · split at h
      · simp only [WaitEnd.returned.injEq] at h
        rw [← h.2]; exact h.1
      · simp at h
    · simp at h
  | t :: ts, cleared, now, e, h => by
    simp only [WaitEnv.loop] at h
    split at h
    · exact loop_sound E sync d ts cleared now e h
    · split at h
      · split at h
        · split at h
          · rename_i hc
            simp only [WaitEnd.returned.injEq, true_and] at h
            rw [← h]; exact hc
          · exact loop_sound E sync d ts _ _ e h
        · simp only [WaitEnv.timedOut] at h
          split at h
          · simp only [WaitEnd.returned.injEq] at h
            rw [← h.2]; exact h.1
          · simp at h
      · simp at h

theorem loop_deadline (E : WaitEnv) (sync : Bool) (d L : Nat) (hL : ∀ t, E.lag t ≤ L) : ∀ (l : List Nat) (cleared now : Nat), now ≤ d + L →
    ∃ v e, E.loop sync d l cleared now = .returned v e ∧ e ≤ d + L ∧ (now < d → now ≤ e)
  | [], _, now, h => by
    have := hL d
    simp only [WaitEnv.loop, WaitEnv.timedOut]
    split
    · split
      · exact ⟨_, _, rfl, by omega, by omega⟩
      · exact ⟨_, _, rfl, by omega, by omega⟩
    · exact ⟨_, _, rfl, h, by omega⟩
  | t :: ts, cleared, now, h => by
    have := hL d
    simp only [WaitEnv.loop]
    split
    · exact loop_deadline E sync d L hL ts cleared now h
    · split
      · split
        · rename_i hw
          have hl := hL (max now t)
          have hw' : max now t ≤ d := by
            simp only [Bool.or_eq_true, decide_eq_true_eq, Bool.and_eq_true] at hw
            omega
          split
          · exact ⟨_, _, rfl, by omega, by omega⟩
          · obtain ⟨v, e, h1, h2, h3⟩ := loop_deadline E sync d L hL ts (max now t) (max now t + E.lag (max now t)) (by omega)
            refine ⟨v, e, h1, h2, ?_⟩
            intro _
            by_cases hlt : max now t + E.lag (max now t) < d
            · have := h3 hlt; omega
            · -- the loop returns at once
              have : e = max now t + E.lag (max now t) := by
                have : ∀ (l : List Nat) c, E.loop sync d l c (max now t + E.lag (max now t)) =
                    .returned false (max now t + E.lag (max now t)) := by
                  intro l
                  induction l with
                  | nil => intro c; simp [WaitEnv.loop, hlt]
                  | cons x xs ih =>
                    intro c
                    simp only [WaitEnv.loop, hlt, if_false]
                    split
                    · exact ih c
                    · rfl
                rw [this] at h1
                simp only [WaitEnd.returned.injEq] at h1
                exact h1.2.symm
              omega
        · simp only [WaitEnv.timedOut]
          split
          · exact ⟨_, _, rfl, by omega, by omega⟩
          · exact ⟨_, _, rfl, by omega, by omega⟩
      · exact ⟨_, _, rfl, h, by omega⟩

/-- C57, for a given timeout: the wait returns, no later than the timeout allows (plus the time one evaluation of the condition takes; none
inside an event loop), and if it returns True then the condition holds at that moment, or held when the call was made. -/
theorem C57_timeout_partial (E : WaitEnv) (sync : Bool) (timeout L : Nat) (hL : ∀ t, E.lag t ≤ L) :
    ∃ v e, E.waitCond sync (some timeout) = .returned v e ∧ e ≤ E.start + timeout + L ∧ (v = true → E.cond e = true ∨ E.cond E.first = true) := by
  unfold WaitEnv.waitCond
  by_cases hc : E.cond E.first = true
  · rw [if_pos hc]
    exact ⟨_, _, rfl, by omega, fun _ => .inr hc⟩
  · rw [if_neg hc]
    obtain ⟨v, e, h1, h2, _⟩ := loop_deadline E sync (E.start + timeout) L hL E.sets E.start E.start (by omega)
    refine ⟨v, e, h1, h2, ?_⟩
    rintro rfl
    exact .inl (loop_sound _ _ _ _ _ _ _ h1)

theorem loop_complete (E : WaitEnv) (sync : Bool) (d L : Nat) (hL : ∀ t, E.lag t ≤ L) (hmono : ∀ a b, a ≤ b → E.cond a = true → E.cond b = true)
    (t : Nat) (ht : t < d) (hc : E.cond t = true) : ∀ (l : List Nat) (cleared now : Nat), InOrder l → t ∈ l → cleared < t → cleared ≤ now → now < t →
    ∃ e, E.loop sync d l cleared now = .returned true e ∧ e ≤ t + L
  | [], _, _, _, hm, _, _, _ => by cases hm
  | x :: xs, cleared, now, ho, hm, hcl, hcn, hnt => by
    simp only [InOrder, List.pairwise_cons] at ho
    simp only [WaitEnv.loop]
    by_cases hx : x ≤ cleared
    · rw [if_pos hx]
      have : t ∈ xs := by
        rcases List.mem_cons.1 hm with rfl | h
        · omega
        · exact h
      exact loop_complete E sync d L hL hmono t ht hc xs cleared now ho.2 this hcl hcn hnt
    · rw [if_neg hx, if_pos (by omega)]
      have hxt : x ≤ t := by
        rcases List.mem_cons.1 hm with rfl | h
        · exact Nat.le_refl _
        · exact ho.1 t h
      have hl := hL (max now x)
      have hw : max now x < d := by omega
      simp only [hw, decide_true, Bool.true_or, if_true]
      by_cases hce : E.cond (max now x + E.lag (max now x)) = true
      · rw [if_pos hce]
        exact ⟨_, rfl, by omega⟩
      · rw [if_neg hce]
        have hlt : max now x + E.lag (max now x) < t := by
          apply Nat.lt_of_not_le
          intro hle
          exact hce (hmono _ _ hle hc)
        have htm : t ∈ xs := by
          rcases List.mem_cons.1 hm with rfl | h
          · omega
          · exact h
        exact loop_complete E sync d L hL hmono t ht hc xs (max now x) _ ho.2 htm (by omega) (by omega) hlt

/-- C57, for a given timeout: if output after which the condition holds comes after the wait began and before the timeout, the wait returns True, and does so
no later than that output (plus the time one evaluation takes).  The condition is one on output that only grows: once it holds it goes on to hold. -/
theorem C57_returns_when_true (E : WaitEnv) (sync : Bool) (timeout L : Nat) (hL : ∀ t, E.lag t ≤ L)
    (hmono : ∀ a b, a ≤ b → E.cond a = true → E.cond b = true) (ho : InOrder E.sets) (t : Nat) (hm : t ∈ E.sets) (h1 : E.start < t)
    (h2 : t < E.start + timeout) (hc : E.cond t = true) :
    ∃ e, E.waitCond sync (some timeout) = .returned true e ∧ e ≤ t + L := by
  unfold WaitEnv.waitCond
  by_cases hf : E.cond E.first = true
  · rw [if_pos hf]; exact ⟨_, rfl, by omega⟩
  · rw [if_neg hf]
    exact loop_complete E sync _ L hL hmono t h2 hc E.sets E.start E.start ho hm h1 (Nat.le_refl _) h1

theorem loop_false_sync (E : WaitEnv) (d : Nat) : ∀ (l : List Nat) (cleared now e : Nat), E.cond now = false →
    E.loop true d l cleared now = .returned false e → E.cond e = false
  | [], _, now, e, hn, h => by
    simp only [WaitEnv.loop, WaitEnv.timedOut, if_true] at h
    split at h
    · simp only [WaitEnd.returned.injEq] at h
      rw [← h.2]; exact h.1
    · simp only [WaitEnd.returned.injEq, true_and] at h
      rw [← h]; exact hn
  | t :: ts, cleared, now, e, hn, h => by
    simp only [WaitEnv.loop] at h
    split at h
    · exact loop_false_sync E d ts cleared now e hn h
    · split at h
      · split at h
        · split at h
          · simp at h
          · rename_i hc
            exact loop_false_sync E d ts _ _ e (by simpa using hc) h
        · simp only [WaitEnv.timedOut, if_true, WaitEnd.returned.injEq] at h
          rw [← h.2]; exact h.1
      · simp only [WaitEnd.returned.injEq, true_and] at h
        rw [← h]; exact hn

/-- C57: a synchronous wait that returns False does so although it has just found the condition not to hold; output the handler did not see, because it came
between the first look and the registration, is found at the latest when the time is over. -/
theorem C57_sync_false (E : WaitEnv) (timeout e : Nat) (hs : E.cond E.start = false) (h : E.waitCond true (some timeout) = .returned false e) :
    E.cond e = false := by
  unfold WaitEnv.waitCond at h
  split at h
  · simp at h
  · exact loop_false_sync E _ _ _ _ e hs h

theorem loop_false_async (E : WaitEnv) (d : Nat) (hlag : ∀ t, E.lag t = 0) : ∀ (l : List Nat) (cleared now e : Nat), InOrder l →
    E.cond now = false → cleared = now → E.loop false d l cleared now = .returned false e →
    (∀ a b, a ≤ b → cleared ≤ a → b < d → (∀ t ∈ l, ¬ (a < t ∧ t ≤ b)) → E.cond a = E.cond b) → ∀ t, now ≤ t → t < d → E.cond t = false
  | [], cl, now, e, _, hn, hcl, _, hch, t, h1, h2 => by
    rw [← hch now t h1 (by omega) h2 (by simp)]; exact hn
  | x :: xs, cl, now, e, ho, hn, hcl, h, hch, t, h1, h2 => by
    simp only [InOrder, List.pairwise_cons] at ho
    simp only [WaitEnv.loop] at h
    by_cases hx : x ≤ cl
    · rw [if_pos hx] at h
      refine loop_false_async E d hlag xs cl now e ho.2 hn hcl h ?_ t h1 h2
      intro a b hab hca hb hno
      apply hch a b hab hca hb
      intro y hy
      rcases List.mem_cons.1 hy with rfl | hy
      · omega
      · exact hno y hy
    · rw [if_neg hx] at h
      have hnd : now < d := by omega
      rw [if_pos hnd] at h
      -- before the next setting nothing changes
      have hbefore : ∀ s, now ≤ s → s < x → s < d → E.cond s = false := by
        intro s hs1 hs2 hs3
        rw [← hch now s hs1 (by omega) hs3 (by
          intro y hy
          rcases List.mem_cons.1 hy with rfl | hy
          · omega
          · have := ho.1 y hy; omega)]
        exact hn
      by_cases htx : t < x
      · exact hbefore t h1 htx h2
      · have hxd : x < d := by omega
        have hmax : max now x = x := by omega
        simp only [hmax, hlag, Nat.add_zero, hxd, decide_true, Bool.true_or, if_true] at h
        by_cases hc : E.cond x = true
        · rw [if_pos hc] at h; simp at h
        · rw [if_neg hc] at h
          refine loop_false_async E d hlag xs x x e ho.2 (by simpa using hc) rfl h ?_ t (by omega) h2
          intro a b hab hca hb hno
          apply hch a b hab (by omega) hb
          intro y hy
          rcases List.mem_cons.1 hy with rfl | hy
          · omega
          · exact hno y hy

/-- C57: an asynchronous wait that returns False does so only if the condition did not hold at any time from the beginning of the wait to the timeout; here the
condition is one that changes with output events only. -/
theorem C57_async_false (E : WaitEnv) (timeout e : Nat) (hlag : ∀ t, E.lag t = 0) (ho : InOrder E.sets) (hf : E.first = E.start)
    (hch : ∀ a b, a ≤ b → E.start ≤ a → b < E.start + timeout → (∀ t ∈ E.sets, ¬ (a < t ∧ t ≤ b)) → E.cond a = E.cond b)
    (h : E.waitCond false (some timeout) = .returned false e) : ∀ t, E.start ≤ t → t < E.start + timeout → E.cond t = false := by
  unfold WaitEnv.waitCond at h
  split at h
  · simp at h
  · rename_i hc
    rw [hf] at hc
    exact loop_false_async E _ hlag E.sets E.start E.start e ho (by simpa using hc) rfl h hch

/-- C57 is violated without a timeout: unless the condition holds at once, both versions raise TypeError instead of waiting. -/
theorem C57_no_timeout_violated (E : WaitEnv) (sync : Bool) (h : E.cond E.first = false) : E.waitCond sync none = .raised .typeError := by
  simp [WaitEnv.waitCond, h]

/-- C57 for waits for the start or the exit of a process: they return True exactly if the event comes after the call and before the
timeout. -/
theorem C57_event_partial (E : WaitEnv) (ho : InOrder E.sets) (d : Nat) (htie : ∀ t ∈ E.sets, t ≠ E.start + d) :
    ∃ v e, E.waitEvent (some d) = some (v, e) ∧ e ≤ E.start + d ∧ (v = true ↔ ∃ t ∈ E.sets, E.start < t ∧ t < E.start + d) := by
  unfold WaitEnv.waitEvent
  cases hf : E.sets.find? (fun t => E.start < t) with
  | none =>
    refine ⟨false, _, rfl, Nat.le_refl _, ?_⟩
    rw [List.find?_eq_none] at hf
    constructor
    · intro h; cases h
    · rintro ⟨t, ht, h1, _⟩
      exact absurd (by simpa using h1) (hf t ht)
  | some t =>
    have hm := List.mem_of_find?_eq_some hf
    have hlt : E.start < t := by simpa using List.find?_some hf
    have hfirst : ∀ u ∈ E.sets, E.start < u → t ≤ u := by
      intro u hu hus
      have := ho
      revert this
      intro ho
      clear htie
      generalize hl : E.sets = l at hf hu ho hm
      clear hl
      induction l with
      | nil => cases hu
      | cons x xs ih =>
        simp only [InOrder, List.pairwise_cons] at ho
        simp only [List.find?_cons] at hf
        split at hf
        · simp only [Option.some.injEq] at hf
          subst hf
          rcases List.mem_cons.1 hu with rfl | hu
          · exact Nat.le_refl _
          · exact ho.1 u hu
        · rename_i hx
          have hu' : u ∈ xs := by
            rcases List.mem_cons.1 hu with rfl | hu
            · simp at hx; omega
            · exact hu
          exact ih hf hu' ho.2 (List.mem_of_find?_eq_some hf)
    simp only
    by_cases hb : t < E.start + d
    · simp only [hb, decide_true, Bool.true_or, if_true]
      exact ⟨true, t, rfl, by omega, by simp; exact ⟨t, hm, hlt, hb⟩⟩
    · have hne := htie t hm
      simp only [hb, hne, decide_false, Bool.false_and, Bool.or_self, Bool.false_eq_true, if_false]
      refine ⟨false, _, rfl, Nat.le_refl _, ?_⟩
      constructor
      · intro h; cases h
      · rintro ⟨u, hu, h1, h2⟩
        have := hfirst u hu h1
        omega

/-- C57: a wait for an exit that has happened already is in vain: it returns False at the timeout and never without one. -/
theorem C57_already_exited_violated (E : WaitEnv) (h : ∀ t ∈ E.sets, t ≤ E.start) :
    E.waitEvent none = none ∧ ∀ d, E.waitEvent (some d) = some (false, E.start + d) := by
  have : E.sets.find? (fun t => E.start < t) = none := by
    rw [List.find?_eq_none]
    intro t ht
    have := h t ht
    simp; omega
  simp [WaitEnv.waitEvent, this]

/-- Output at 3 and 5, the condition holds from 5 on. -/
def sampleWait : WaitEnv :=
  { cond := fun t => decide (5 ≤ t), first := 0, start := 0, sets := [3, 5], lag := fun _ => 0, tie := false }

example : sampleWait.waitCond false (some 9) = .returned true 5 ∧ sampleWait.waitCond false (some 5) = .returned false 5 ∧
    sampleWait.waitCond true (some 4) = .returned false 4 ∧ sampleWait.waitCond true none = .raised .typeError := by decide
example : ∀ a b, a ≤ b → sampleWait.cond a = true → sampleWait.cond b = true := by
  intro a b h1 h2
  simp only [sampleWait, decide_eq_true_eq] at h2 ⊢
  omega
/-- Output between the first look and the registration, unseen by the handler, is found at the timeout by the synchronous version. -/
example : ({ sampleWait with start := 6 } : WaitEnv).waitCond true (some 4) = .returned true 10 := by decide
example : sampleWait.waitEvent (some 4) = some (true, 3) := by decide

end Verif
