import Verif.Model.Ready

/-! # C53 ReadyAggregator signals exactly at the nth call -/

namespace Verif

namespace Ready

/-- What holds in every reachable state. -/
structure Inv (n : Nat) (s : Ready) : Prop where
  count : s.count = n - s.order.length
  nodup : s.order.Nodup
  mem : ∀ i, i ∈ s.order ↔ s.pcs i ≠ .idle ∧ s.pcs i ≠ .inside
  lock : ∀ i, s.lock = some i ↔ s.pcs i = .inside ∨ s.pcs i = .counted ∨ ∃ c, s.pcs i = .read c
  last : ∀ i, s.pcs i = .counted → s.order.getLast? = some i
  seen : ∀ i c, s.pcs i = .read c ∨ s.pcs i = .out c → ∃ k : Nat, s.order[k]? = some i ∧ c = (n : Int) - (k + 1)
  fired : s.fired = (match s.order[n - 1]? with | some i => if s.pcs i = .done then [i] else [] | none => [])

theorem pcs_setPc (s : Ready) (i j : Nat) (p : ReadyPc) : (s.setPc i p).pcs j = if j = i then p else s.pcs j := rfl

theorem nodup_index {l : List Nat} (h : l.Nodup) {i j x : Nat} (hi : l[i]? = some x) (hj : l[j]? = some x) : i = j := by
  obtain ⟨h1, h2⟩ := List.getElem?_eq_some_iff.1 hi
  obtain ⟨h3, h4⟩ := List.getElem?_eq_some_iff.1 hj
  exact (List.getElem_inj h).1 (h2.trans h4.symm)

theorem Inv.step {n : Nat} (hn : 1 ≤ n) {s s' : Ready} {i : Nat} (h : Inv n s) (hs : s.step i = some s') : Inv n s' := by
  unfold Ready.step at hs
  cases hp : s.pcs i with
  | done => rw [hp] at hs; cases hs
  | idle =>
    rw [hp] at hs
    simp only at hs
    split at hs
    · rename_i hl
      simp only [Option.some.injEq] at hs; subst hs
      have hnot : ∀ j, ¬ (s.pcs j = .inside ∨ s.pcs j = .counted ∨ ∃ c, s.pcs j = .read c) := by
        intro j hj
        rw [← h.lock j, hl] at hj
        cases hj
      refine ⟨h.count, h.nodup, ?_, ?_, ?_, ?_, ?_⟩
      · intro j
        show j ∈ s.order ↔ _
        rw [h.mem j]
        simp only [pcs_setPc]
        by_cases hj : j = i
        · subst hj; simp [hp]
        · simp [hj]
      · intro j
        simp only [pcs_setPc]
        by_cases hj : j = i
        · subst hj; simp
        · simp only [hj, if_false, Option.some.injEq]
          exact ⟨fun h => absurd h.symm hj, fun h' => absurd h' (hnot j)⟩
      · intro j hj
        simp only [pcs_setPc] at hj
        split at hj
        · cases hj
        · exact h.last j hj
      · intro j c hj
        simp only [pcs_setPc] at hj
        split at hj
        · rcases hj with hj | hj <;> cases hj
        · exact h.seen j c hj
      · show s.fired = _
        rw [h.fired]
        cases ho : s.order[n - 1]? with
        | none => simp only [setPc]; rw [ho]
        | some k =>
          simp only [setPc, ho]
          by_cases hk : k = i
          · subst hk; simp [hp]
          · simp [hk]
    · cases hs
  | inside =>
    rw [hp] at hs
    simp only [Option.some.injEq] at hs; subst hs
    have hni : i ∉ s.order := by
      rw [h.mem i, hp]; simp
    have hlock := (h.lock i).2 (.inl hp)
    have honly : ∀ j, s.pcs j = .inside ∨ s.pcs j = .counted ∨ (∃ c, s.pcs j = .read c) → j = i := by
      intro j hj
      have := (h.lock j).2 hj
      rw [hlock] at this
      exact (Option.some.inj this).symm
    refine ⟨?_, ?_, ?_, ?_, ?_, ?_, ?_⟩
    · show s.count - 1 = _
      rw [h.count]
      simp only [List.length_append, List.length_singleton]
      omega
    · show (s.order ++ [i]).Nodup
      rw [List.nodup_append]
      refine ⟨h.nodup, by simp, ?_⟩
      intro a ha b hb hab
      simp only [List.mem_singleton] at hb
      subst hb; subst hab
      exact hni ha
    · intro j
      show j ∈ s.order ++ [i] ↔ _
      simp only [List.mem_append, List.mem_singleton, h.mem j, pcs_setPc]
      by_cases hj : j = i
      · subst hj; simp
      · simp [hj]
    · intro j
      simp only [setPc]
      by_cases hj : j = i
      · subst hj; simp [hlock]
      · simp only [hj, if_false]
        exact h.lock j
    · intro j hj
      simp only [pcs_setPc] at hj
      split at hj
      · rename_i hji
        subst hji
        show (s.order ++ [j]).getLast? = some j
        simp
      · rename_i hji
        exact absurd (honly j (.inr (.inl hj))) hji
    · intro j c hj
      simp only [pcs_setPc] at hj
      split at hj
      · rcases hj with hj | hj <;> cases hj
      · obtain ⟨k, hk, hc⟩ := h.seen j c hj
        refine ⟨k, ?_, hc⟩
        show (s.order ++ [i])[k]? = some j
        have := (List.getElem?_eq_some_iff.1 hk).1
        rw [List.getElem?_append_left this, hk]
    · show s.fired = _
      rw [h.fired]
      simp only [pcs_setPc]
      cases ho : s.order[n - 1]? with
      | some k =>
        have hlt := (List.getElem?_eq_some_iff.1 ho).1
        rw [List.getElem?_append_left hlt, ho]
        simp only
        have : k ≠ i := by
          intro hk; subst hk
          exact hni (List.mem_of_getElem? ho)
        simp [this]
      | none =>
        simp only
        cases ho' : (s.order ++ [i])[n - 1]? with
        | none => rfl
        | some k =>
          simp only
          have hk : k = i := by
            have h1 := List.mem_of_getElem? ho'
            rw [List.getElem?_eq_none_iff] at ho
            rw [List.getElem?_append_right ho] at ho'
            have := List.mem_of_getElem? ho'
            simpa using this
          simp [hk]
  | counted =>
    rw [hp] at hs
    simp only [Option.some.injEq] at hs; subst hs
    have hlock := (h.lock i).2 (.inr (.inl hp))
    have hlast := h.last i hp
    refine ⟨h.count, h.nodup, ?_, ?_, ?_, ?_, ?_⟩
    · intro j
      show j ∈ s.order ↔ _
      rw [h.mem j]
      simp only [pcs_setPc]
      by_cases hj : j = i
      · subst hj; simp [hp]
      · simp [hj]
    · intro j
      show s.lock = some j ↔ _
      simp only [pcs_setPc]
      by_cases hj : j = i
      · subst hj; simp [hlock]
      · simp only [hj, if_false]
        exact h.lock j
    · intro j hj
      simp only [pcs_setPc] at hj
      split at hj
      · cases hj
      · exact h.last j hj
    · intro j c hj
      simp only [pcs_setPc] at hj
      split at hj
      · rename_i hji
        subst hji
        rcases hj with hj | hj
        · simp only [ReadyPc.read.injEq] at hj
          rw [List.getLast?_eq_getElem?] at hlast
          have hlen : s.order ≠ [] := by intro h0; rw [h0] at hlast; simp at hlast
          have hpos : 0 < s.order.length := List.length_pos_iff.2 hlen
          refine ⟨s.order.length - 1, hlast, ?_⟩
          rw [← hj, h.count]
          omega
        · cases hj
      · exact h.seen j c hj
    · show s.fired = _
      rw [h.fired]
      cases ho : s.order[n - 1]? with
      | none => simp only [setPc]; rw [ho]
      | some k =>
        simp only [setPc, ho]
        by_cases hk : k = i
        · subst hk; simp [hp]
        · simp [hk]
  | read c =>
    rw [hp] at hs
    simp only [Option.some.injEq] at hs; subst hs
    have hlock := (h.lock i).2 (.inr (.inr ⟨c, hp⟩))
    have honly : ∀ j, s.pcs j = .inside ∨ s.pcs j = .counted ∨ (∃ c, s.pcs j = .read c) → j = i := by
      intro j hj
      have := (h.lock j).2 hj
      rw [hlock] at this
      exact (Option.some.inj this).symm
    refine ⟨h.count, h.nodup, ?_, ?_, ?_, ?_, ?_⟩
    · intro j
      show j ∈ s.order ↔ _
      rw [h.mem j]
      simp only [pcs_setPc]
      by_cases hj : j = i
      · subst hj; simp [hp]
      · simp [hj]
    · intro j
      simp only [pcs_setPc]
      by_cases hj : j = i
      · subst hj; simp
      · simp only [hj, if_false]
        exact ⟨fun h => (by cases h), fun h' => absurd (honly j h') hj⟩
    · intro j hj
      simp only [pcs_setPc] at hj
      split at hj
      · cases hj
      · exact h.last j hj
    · intro j c' hj
      simp only [pcs_setPc] at hj
      split at hj
      · rename_i hji
        subst hji
        rcases hj with hj | hj
        · cases hj
        · simp only [ReadyPc.out.injEq] at hj
          subst hj
          exact h.seen j c (.inl hp)
      · exact h.seen j c' hj
    · show s.fired = _
      rw [h.fired]
      cases ho : s.order[n - 1]? with
      | none => simp only [setPc]; rw [ho]
      | some k =>
        simp only [setPc, ho]
        by_cases hk : k = i
        · subst hk; simp [hp]
        · simp [hk]
  | out c =>
    rw [hp] at hs
    simp only [Option.some.injEq] at hs; subst hs
    obtain ⟨k, hk, hc⟩ := h.seen i c (.inr hp)
    refine ⟨h.count, h.nodup, ?_, ?_, ?_, ?_, ?_⟩
    · intro j
      show j ∈ s.order ↔ _
      rw [h.mem j]
      simp only [pcs_setPc]
      by_cases hj : j = i
      · subst hj; simp [hp]
      · simp [hj]
    · intro j
      show s.lock = some j ↔ _
      simp only [pcs_setPc]
      rw [h.lock j]
      by_cases hj : j = i
      · subst hj; simp [hp]
      · simp [hj]
    · intro j hj
      simp only [pcs_setPc] at hj
      split at hj
      · cases hj
      · exact h.last j hj
    · intro j c' hj
      simp only [pcs_setPc] at hj
      split at hj
      · rcases hj with hj | hj <;> cases hj
      · exact h.seen j c' hj
    · simp only [setPc]
      rw [h.fired]
      by_cases h0 : c = 0
      · have hkn : k = n - 1 := by omega
        subst hkn
        rw [hk]
        simp [h0, hp]
      · rw [if_neg h0]
        cases ho : s.order[n - 1]? with
        | none => rfl
        | some k' =>
          simp only
          have : k' ≠ i := by
            intro he; subst he
            have := nodup_index h.nodup ho hk
            omega
          simp [this]

theorem Inv.run {n : Nat} (hn : 1 ≤ n) : ∀ (is : List Nat) {s s' : Ready}, Inv n s → s.run is = some s' → Inv n s'
  | [], s, s', h, hr => by simp only [Ready.run, Option.some.injEq] at hr; subst hr; exact h
  | i :: is, s, s', h, hr => by
    simp only [Ready.run] at hr
    cases hs : s.step i with
    | none => rw [hs] at hr; cases hr
    | some s1 => rw [hs] at hr; exact Inv.run hn is (h.step hn hs) hr

theorem Inv.init (n : Nat) : Inv n (Ready.init n) := by
  refine ⟨by simp [Ready.init], by simp [Ready.init], by simp [Ready.init], by simp [Ready.init], ?_, ?_, by simp [Ready.init]⟩
  · intro i h; simp [Ready.init] at h
  · intro i c h; rcases h with h | h <;> simp [Ready.init] at h

end Ready

/-- C53, safety: at every moment of every interleaving of any number of calls the parent's function has been called at most once, and only by the
call that was the nth to decrement the count. -/
theorem C53_at_most_once_by_nth (n : Nat) (hn : 1 ≤ n) (is : List Nat) (s : Ready) (h : (Ready.init n).run is = some s) :
    (∀ i, i ∈ s.order ↔ s.pcs i ≠ .idle ∧ s.pcs i ≠ .inside) ∧ s.order.Nodup ∧
    (s.fired = [] ∨ ∃ i, s.fired = [i] ∧ s.order[n - 1]? = some i ∧ n ≤ s.order.length) := by
  have hi := Ready.Inv.run hn is (Ready.Inv.init n) h
  refine ⟨hi.mem, hi.nodup, ?_⟩
  have := hi.fired
  cases ho : s.order[n - 1]? with
  | none => rw [ho] at this; exact .inl this
  | some i =>
    rw [ho] at this
    simp only at this
    split at this
    · refine .inr ⟨i, this, rfl, ?_⟩
      have := (List.getElem?_eq_some_iff.1 ho).1
      omega
    · exact .inl this

/-- C53, completeness: once no call is in progress, the parent's function has been called if and only if there were at least n calls. -/
theorem C53_called_after_n (n : Nat) (hn : 1 ≤ n) (is : List Nat) (s : Ready) (h : (Ready.init n).run is = some s)
    (hq : ∀ i, s.pcs i = .idle ∨ s.pcs i = .done) :
    (∀ i, i ∈ s.order ↔ s.pcs i = .done) ∧ (s.fired.length = if n ≤ s.order.length then 1 else 0) := by
  have hi := Ready.Inv.run hn is (Ready.Inv.init n) h
  have hm : ∀ i, i ∈ s.order ↔ s.pcs i = .done := by
    intro i
    rw [hi.mem i]
    rcases hq i with hq | hq <;> simp [hq]
  refine ⟨hm, ?_⟩
  have hf := hi.fired
  by_cases hl : n ≤ s.order.length
  · have hlt : n - 1 < s.order.length := by omega
    rw [List.getElem?_eq_getElem hlt] at hf
    simp only [(hm _).1 (List.getElem_mem hlt), if_true] at hf
    rw [hf, if_pos hl]; rfl
  · have : s.order[n - 1]? = none := List.getElem?_eq_none_iff.2 (by omega)
    rw [this] at hf
    rw [hf, if_neg hl]; rfl

/-- C53, no deadlock: a call that has not returned can make a step, unless it waits for the lock and another call, which has not returned, has the lock and can
make a step; and the parent's function is not called while the lock is held by that call, so that it may itself call `ready_fn`. -/
theorem C53_progress (n : Nat) (hn : 1 ≤ n) (is : List Nat) (s : Ready) (h : (Ready.init n).run is = some s) (i : Nat) (hi : s.pcs i ≠ .done) :
    ((∃ s', s.step i = some s') ∨ ∃ j s', s.pcs i = .idle ∧ s.lock = some j ∧ j ≠ i ∧ s.pcs j ≠ .done ∧ s.step j = some s') ∧
    ∀ c, s.pcs i = .out c → s.lock ≠ some i := by
  have hv := Ready.Inv.run hn is (Ready.Inv.init n) h
  constructor
  · cases hp : s.pcs i with
    | done => exact absurd hp hi
    | idle =>
      cases hl : s.lock with
      | none => exact .inl ⟨_, by simp only [Ready.step, hp, hl, if_true]; rfl⟩
      | some j =>
        refine .inr ⟨j, ?_⟩
        have hji : j ≠ i := by
          rintro rfl
          rcases (hv.lock j).1 hl with h | h | ⟨c, h⟩ <;> rw [hp] at h <;> cases h
        rcases (hv.lock j).1 hl with h | h | ⟨c, h⟩ <;> exact ⟨_, rfl, rfl, hji, by rw [h]; simp, by simp only [Ready.step, h]; rfl⟩
    | inside => exact .inl ⟨_, by simp only [Ready.step, hp]; rfl⟩
    | counted => exact .inl ⟨_, by simp only [Ready.step, hp]; rfl⟩
    | read c => exact .inl ⟨_, by simp only [Ready.step, hp]; rfl⟩
    | out c => exact .inl ⟨_, by simp only [Ready.step, hp]; rfl⟩
  · intro c hc hl
    rcases (hv.lock i).1 hl with h | h | ⟨c', h⟩ <;> rw [hc] at h <;> cases h

/-- With nothing to aggregate the parent's function is never called: the count is negative from the first call on. -/
theorem C53_zero_violated (is : List Nat) (s : Ready) (h : (Ready.init 0).run is = some s) : s.fired = [] := by
  suffices ∀ (is : List Nat) (s s' : Ready), s.fired = [] → s.count ≤ 0 → (∀ i c, s.pcs i = .out c ∨ s.pcs i = .read c → c < 0) →
      (∀ i, s.pcs i = .counted → s.count < 0) → s.run is = some s' → s'.fired = [] by
    exact this is _ s rfl (by simp [Ready.init]) (by simp [Ready.init]) (by simp [Ready.init]) h
  intro is
  induction is with
  | nil => intro s s' hf _ _ _ h; simp only [Ready.run, Option.some.injEq] at h; subst h; exact hf
  | cons i is ih =>
    intro s s' hf hc ho hd h
    simp only [Ready.run] at h
    cases hs : s.step i with
    | none => rw [hs] at h; cases h
    | some s1 =>
      rw [hs] at h
      refine ih s1 s' ?_ ?_ ?_ ?_ h
      all_goals
        unfold Ready.step at hs
        cases hp : s.pcs i with
        | done => rw [hp] at hs; cases hs
        | idle =>
          rw [hp] at hs
          simp only at hs
          split at hs
          · simp only [Option.some.injEq] at hs; subst hs
            first
              | exact hf
              | exact hc
              | (intro j c hj
                 simp only [Ready.pcs_setPc] at hj
                 split at hj
                 · rcases hj with hj | hj <;> cases hj
                 · exact ho j c hj)
              | (intro j hj
                 simp only [Ready.pcs_setPc] at hj
                 split at hj
                 · cases hj
                 · exact hd j hj)
          · cases hs
        | inside =>
          rw [hp] at hs
          simp only [Option.some.injEq] at hs; subst hs
          first
            | exact hf
            | (show s.count - 1 ≤ 0; omega)
            | (intro j c hj
               simp only [Ready.pcs_setPc] at hj
               split at hj
               · rcases hj with hj | hj <;> cases hj
               · exact ho j c hj)
            | (intro j hj
               show s.count - 1 < 0
               omega)
        | counted =>
          rw [hp] at hs
          simp only [Option.some.injEq] at hs; subst hs
          first
            | exact hf
            | exact hc
            | (intro j c hj
               simp only [Ready.pcs_setPc] at hj
               split at hj
               · rcases hj with hj | hj
                 · cases hj
                 · simp only [ReadyPc.read.injEq] at hj; subst hj; exact hd i hp
               · exact ho j c hj)
            | (intro j hj
               exact hd i hp)
        | read c0 =>
          rw [hp] at hs
          simp only [Option.some.injEq] at hs; subst hs
          first
            | exact hf
            | exact hc
            | (intro j c hj
               simp only [Ready.pcs_setPc] at hj
               split at hj
               · rcases hj with hj | hj
                 · simp only [ReadyPc.out.injEq] at hj; subst hj; exact ho i c0 (.inr hp)
                 · cases hj
               · exact ho j c hj)
            | (intro j hj
               simp only [Ready.pcs_setPc] at hj
               split at hj
               · cases hj
               · exact hd j hj)
        | out c0 =>
          rw [hp] at hs
          simp only [Option.some.injEq] at hs; subst hs
          have := ho i c0 (.inl hp)
          first
            | (show (if c0 = 0 then s.fired ++ [i] else s.fired) = []
               rw [if_neg (by omega)]; exact hf)
            | exact hc
            | (intro j c hj
               simp only [Ready.pcs_setPc] at hj
               split at hj
               · rcases hj with hj | hj <;> cases hj
               · exact ho j c hj)
            | (intro j hj
               simp only [Ready.pcs_setPc] at hj
               split at hj
               · cases hj
               · exact hd j hj)

/-- Two calls, the second overtakes the first after the lock is released: it is the second to decrement and calls the parent's function
first of all. -/
example : ((Ready.init 2).run [5, 5, 5, 5, 7, 7, 7, 7, 7, 5]).map (fun s => (s.fired, s.order, s.count, s.pcs 5, s.pcs 7)) =
    some ([7], [5, 7], 0, .done, .done) := by decide +kernel

end Verif
