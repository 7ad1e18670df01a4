import Verif.Spec.TestWait
import Verif.Props.ProcLookup

/-! # C101: waiting calls in tests end when they should -/

namespace Verif

theorem CvReaches.snoc {C : Nat → WaitCall} {L : List CvLabel} {l : CvLabel} {s' : CvState} (h : CvReaches C (L ++ [l]) s') :
    ∃ s, CvReaches C L s ∧ s.step C l = some s' := by
  unfold CvReaches at h
  rw [runSteps_append] at h
  cases hr : runSteps (CvState.step C) {} L with
  | none => rw [hr] at h; cases h
  | some s =>
    rw [hr] at h
    simp only [Option.bind_some, runSteps] at h
    refine ⟨s, hr, ?_⟩
    cases hs : s.step C l with
    | none => rw [hs] at h; cases h
    | some s1 => rw [hs] at h; exact h

/-- Induction over what happened. -/
theorem cv_induct {C : Nat → WaitCall} {P : List CvLabel → CvState → Prop} (h0 : P [] {})
    (hstep : ∀ L l s s', CvReaches C L s → P L s → s.step C l = some s' → CvReaches C (L ++ [l]) s' → P (L ++ [l]) s') :
    ∀ (n : Nat) (L : List CvLabel) (s : CvState), L.length = n → CvReaches C L s → P L s
  | 0, L, s, hl, h => by
    have : L = [] := List.length_eq_zero_iff.1 hl
    subst this
    unfold CvReaches at h
    simp only [runSteps, Option.some.injEq] at h
    rw [← h]; exact h0
  | n + 1, L, s, hl, h => by
    have hne : L ≠ [] := by rintro rfl; simp at hl
    have e := List.dropLast_concat_getLast hne
    rw [← e] at h ⊢
    obtain ⟨s0, h1, h2⟩ := h.snoc
    exact hstep _ _ s0 s h1 (cv_induct h0 hstep n _ s0 (by simp; omega) h1) h2 h

theorem CvReaches.fun {C : Nat → WaitCall} {L : List CvLabel} {s s' : CvState} (h : CvReaches C L s) (h' : CvReaches C L s') : s = s' := by
  unfold CvReaches at h h'
  rw [h] at h'
  exact Option.some.inj h'

@[simp] theorem setCall_call (s : CvState) (i j : Nat) (p : CallPhase) : (s.setCall i p).call j = if j = i then p else s.call j := rfl
@[simp] theorem setCall_seen (s : CvState) (i : Nat) (p : CallPhase) : (s.setCall i p).seen = s.seen := rfl
@[simp] theorem setCall_now (s : CvState) (i : Nat) (p : CallPhase) : (s.setCall i p).now = s.now := rfl
@[simp] theorem setCall_queue (s : CvState) (i : Nat) (p : CallPhase) : (s.setCall i p).queue = s.queue := rfl
@[simp] theorem setQueue_call (s : CvState) (v : Cv) (q : List Nat) : (s.setQueue v q).call = s.call := rfl
@[simp] theorem setQueue_seen (s : CvState) (v : Cv) (q : List Nat) : (s.setQueue v q).seen = s.seen := rfl
@[simp] theorem setQueue_now (s : CvState) (v : Cv) (q : List Nat) : (s.setQueue v q).now = s.now := rfl
@[simp] theorem setQueue_queue (s : CvState) (v w : Cv) (q : List Nat) : (s.setQueue v q).queue w = if w = v then q else s.queue w := rfl

/-- The three ways an evaluation ends. -/
theorem evaluate_cases (C : WaitCall) (s : CvState) (i : Nat) (d : Option Nat) (again : Bool) (t : Option (List Char)) :
    (C.pred s.seen ≠ .ok false ∧ s.evaluate C i d again t = s.setCall i (.ended (C.pred s.seen) ((C.look s.seen).or t) s.now)) ∨
    (C.pred s.seen = .ok false ∧ again = true ∧ lateAt d s.now = true ∧
      s.evaluate C i d again t = s.setCall i (.ended (.ok false) ((C.look s.seen).or t) s.now)) ∨
    (C.pred s.seen = .ok false ∧ (again = false ∨ lateAt d s.now = false) ∧
      s.evaluate C i d again t = (s.setCall i (.blocked d false ((C.look s.seen).or t))).setQueue C.cv (s.queue C.cv ++ [i])) := by
  unfold CvState.evaluate
  cases hp : C.pred s.seen with
  | error e => left; exact ⟨by simp, rfl⟩
  | ok b =>
    cases b with
    | true => left; exact ⟨by simp, rfl⟩
    | false =>
      right
      cases again with
      | false => right; exact ⟨rfl, .inl rfl, rfl⟩
      | true =>
        cases hl : lateAt d s.now with
        | false => right; exact ⟨rfl, .inr rfl, by simp⟩
        | true => left; exact ⟨rfl, rfl, rfl, by simp⟩

theorem notify_seen (s : CvState) (v : Cv) : (s.notify v).seen = s.seen ∧ (s.notify v).now = s.now := by
  unfold CvState.notify
  split
  · exact ⟨rfl, rfl⟩
  · split <;> exact ⟨rfl, rfl⟩

theorem evaluate_seen (C : WaitCall) (s : CvState) (i : Nat) (d : Option Nat) (again : Bool) (t : Option (List Char)) :
    (s.evaluate C i d again t).seen = s.seen ∧ (s.evaluate C i d again t).now = s.now := by
  rcases evaluate_cases C s i d again t with ⟨_, h⟩ | ⟨_, _, _, h⟩ | ⟨_, _, h⟩ <;> rw [h] <;> exact ⟨rfl, rfl⟩

/-- What a notification does to the calls. -/
theorem notify_call (s : CvState) (v : Cv) (j : Nat) :
    (s.notify v).call j = s.call j ∨ ∃ d w t, s.call j = .blocked d w t ∧ (s.notify v).call j = .blocked d true t := by
  unfold CvState.notify
  split
  · exact .inl rfl
  · rename_i i rest _
    split
    · rename_i d w t hc
      by_cases hj : j = i
      · subst hj
        exact .inr ⟨d, w, t, hc, by simp⟩
      · exact .inl (by simp [hj])
    · exact .inl rfl

/-- How the state of a call changes. -/
theorem step_call {C : Nat → WaitCall} {s s' : CvState} {l : CvLabel} (h : s.step C l = some s') (j : Nat) :
    s'.call j = s.call j ∨ (∃ d w t, s.call j = .blocked d w t ∧ s'.call j = .blocked d true t) ∨
    (l = .call j ∧ s.call j = .idle ∧ s' = s.evaluate (C j) j ((C j).timeout.map (s.now + ·)) false none) ∨
    (l = .wake j ∧ ∃ d w t, s.call j = .blocked d w t ∧ (w = true ∨ lateAt d s.now = true) ∧
      s' = (s.setQueue (C j).cv ((s.queue (C j).cv).erase j)).evaluate (C j) j d true t) := by
  cases l with
  | tick =>
    simp only [CvState.step, Option.some.injEq] at h
    rw [← h]; exact .inl rfl
  | put op =>
    simp only [CvState.step, Option.some.injEq] at h
    rw [← h]
    rcases notify_call { s with seen := s.seen.put op } op.cv j with h1 | ⟨d, w, t, h1, h2⟩
    · exact .inl h1
    · exact .inr (.inl ⟨d, w, t, h1, h2⟩)
  | call i =>
    simp only [CvState.step] at h
    cases hc : s.call i with
    | idle =>
      rw [hc] at h
      simp only [Option.some.injEq] at h
      by_cases hj : j = i
      · subst hj
        exact .inr (.inr (.inl ⟨rfl, hc, h.symm⟩))
      · left
        rw [← h]
        rcases evaluate_cases (C i) s i ((C i).timeout.map (s.now + ·)) false none with ⟨_, e⟩ | ⟨_, _, _, e⟩ | ⟨_, _, e⟩ <;> rw [e] <;> simp [hj]
    | blocked d w t => rw [hc] at h; cases h
    | ended r t n => rw [hc] at h; cases h
  | wake i =>
    simp only [CvState.step] at h
    cases hc : s.call i with
    | idle => rw [hc] at h; cases h
    | ended r t n => rw [hc] at h; cases h
    | blocked d w t =>
      rw [hc] at h
      simp only at h
      by_cases hen : (w || lateAt d s.now) = true
      · rw [if_pos hen] at h
        simp only [Option.some.injEq] at h
        by_cases hj : j = i
        · subst hj
          exact .inr (.inr (.inr ⟨rfl, d, w, t, hc, by simpa using hen, h.symm⟩))
        · left
          rw [← h]
          rcases evaluate_cases (C i) (s.setQueue (C i).cv ((s.queue (C i).cv).erase i)) i d true t with ⟨_, e⟩ | ⟨_, _, _, e⟩ | ⟨_, _, e⟩ <;>
            rw [e] <;> simp [hj]
      · rw [if_neg hen] at h; cases h

/-- What is recorded after all this. -/
theorem seen_of {C : Nat → WaitCall} {L : List CvLabel} {s : CvState} (h : CvReaches C L s) :
    s.seen.info = ProcInfo.run [] (reportsIn L) ∧ s.seen.io = ({} : IoHandler).run (outputIn L) := by
  refine cv_induct (P := fun L s => s.seen.info = ProcInfo.run [] (reportsIn L) ∧ s.seen.io = ({} : IoHandler).run (outputIn L))
    ⟨rfl, rfl⟩ ?_ _ L s rfl h
  intro L l s s' _ ih hs _
  cases l with
  | tick =>
    simp only [CvState.step, Option.some.injEq] at hs
    rw [← hs]
    simpa [reportsIn, outputIn] using ih
  | put op =>
    simp only [CvState.step, Option.some.injEq] at hs
    rw [← hs, (notify_seen _ _).1]
    cases op with
    | report e => simp [Seen.put, reportsIn, outputIn, ih.1, ih.2, ProcInfo.run]
    | io op => simp [Seen.put, reportsIn, outputIn, ih.1, ih.2, IoHandler.run]
  | call i =>
    have he : s'.seen = s.seen := by
      simp only [CvState.step] at hs
      split at hs
      · simp only [Option.some.injEq] at hs
        rw [← hs, (evaluate_seen _ _ _ _ _ _).1]
      · cases hs
    rw [he]
    simpa [reportsIn, outputIn] using ih
  | wake i =>
    have he : s'.seen = s.seen := by
      simp only [CvState.step] at hs
      split at hs
      · split at hs
        · simp only [Option.some.injEq] at hs
          rw [← hs, (evaluate_seen _ _ _ _ _ _).1]; rfl
        · cases hs
      · cases hs
    rw [he]
    simpa [reportsIn, outputIn] using ih

/-! ## Results -/

theorem prefix_snoc {α : Type} {a b : List α} {x : α} (h : a <+: b) : a <+: b ++ [x] := h.trans (List.prefix_append _ _)

/-- The time a call is to end is that of the call plus the timeout. -/
theorem cv_deadline {C : Nat → WaitCall} {L : List CvLabel} {s : CvState} (h : CvReaches C L s) (i : Nat) (d : Option Nat) (w : Bool) (t : Option (List Char))
    (hc : s.call i = .blocked d w t) :
    ∃ L0 s0, L0 ++ [.call i] <+: L ∧ CvReaches C L0 s0 ∧ d = (C i).timeout.map (s0.now + ·) := by
  refine cv_induct (P := fun L s => ∀ d w t, s.call i = .blocked d w t →
    ∃ L0 s0, L0 ++ [.call i] <+: L ∧ CvReaches C L0 s0 ∧ d = (C i).timeout.map (s0.now + ·)) ?_ ?_ _ L s rfl h d w t hc
  · intro d w t hc; cases hc
  · intro L l s s' hr ih hs _ d w t hc
    rcases step_call hs i with e | ⟨d', w', t', e1, e2⟩ | ⟨rfl, e1, e2⟩ | ⟨rfl, d', w', t', e1, _, e2⟩
    · obtain ⟨L0, s0, h1, h2, h3⟩ := ih d w t (e ▸ hc)
      exact ⟨L0, s0, prefix_snoc h1, h2, h3⟩
    · rw [hc] at e2
      simp only [CallPhase.blocked.injEq] at e2
      obtain ⟨L0, s0, h1, h2, h3⟩ := ih d' w' t' e1
      exact ⟨L0, s0, prefix_snoc h1, h2, e2.1 ▸ h3⟩
    · refine ⟨L, s, List.prefix_refl _, hr, ?_⟩
      rw [e2] at hc
      rcases evaluate_cases (C i) s i ((C i).timeout.map (s.now + ·)) false none with ⟨_, e⟩ | ⟨_, _, _, e⟩ | ⟨_, _, e⟩
      · rw [e] at hc; simp at hc
      · rw [e] at hc; simp at hc
      · rw [e] at hc
        simp only [setQueue_call, setCall_call, if_true, CallPhase.blocked.injEq] at hc
        exact hc.1.symm
    · rw [e2] at hc
      rcases evaluate_cases (C i) (s.setQueue (C i).cv ((s.queue (C i).cv).erase i)) i d' true t' with ⟨_, e⟩ | ⟨_, _, _, e⟩ | ⟨_, _, e⟩
      · rw [e] at hc; simp at hc
      · rw [e] at hc; simp at hc
      · rw [e] at hc
        simp only [setQueue_call, setCall_call, if_true, CallPhase.blocked.injEq] at hc
        obtain ⟨L0, s0, h1, h2, h3⟩ := ih d' w' t' e1
        exact ⟨L0, s0, prefix_snoc h1, h2, hc.1 ▸ h3⟩

/-- C101, for any number of calls at the same time: the result of a call is what its condition says of what is recorded at the moment it ends; it is False only
if the call had a timeout and that long has passed since it was made.  With it comes the output looked at in the last evaluation. -/
theorem C101_result {C : Nat → WaitCall} {L : List CvLabel} {s : CvState} (h : CvReaches C L s) (i : Nat) (r : Res Bool) (text : Option (List Char))
    (t : Nat) (hc : s.call i = .ended r text t) :
    ∃ L1 s1, (L1 ++ [.call i] <+: L ∨ L1 ++ [.wake i] <+: L) ∧ CvReaches C L1 s1 ∧ s1.now = t ∧ (C i).pred s1.seen = r ∧
      (∀ x, (C i).look s1.seen = some x → text = some x) ∧
      (r = .ok false → ∃ L0 s0 d, L0 ++ [.call i] <+: L1 ∧ CvReaches C L0 s0 ∧ (C i).timeout = some d ∧ s0.now + d ≤ t) := by
  refine cv_induct (P := fun L s => ∀ r text t, s.call i = .ended r text t →
    ∃ L1 s1, (L1 ++ [.call i] <+: L ∨ L1 ++ [.wake i] <+: L) ∧ CvReaches C L1 s1 ∧ s1.now = t ∧ (C i).pred s1.seen = r ∧
      (∀ x, (C i).look s1.seen = some x → text = some x) ∧
      (r = .ok false → ∃ L0 s0 d, L0 ++ [.call i] <+: L1 ∧ CvReaches C L0 s0 ∧ (C i).timeout = some d ∧ s0.now + d ≤ t))
    ?_ ?_ _ L s rfl h r text t hc
  · intro r text t hc; cases hc
  · intro L l s s' hr ih hs _ r text t hc
    rcases step_call hs i with e | ⟨d', w', t', e1, e2⟩ | ⟨rfl, e1, e2⟩ | ⟨rfl, d', w', t', e1, _, e2⟩
    · obtain ⟨L1, s1, h1, h2⟩ := ih r text t (e ▸ hc)
      exact ⟨L1, s1, h1.imp prefix_snoc prefix_snoc, h2⟩
    · rw [hc] at e2; cases e2
    · rw [e2] at hc
      refine ⟨L, s, .inl (List.prefix_refl _), hr, ?_⟩
      rcases evaluate_cases (C i) s i ((C i).timeout.map (s.now + ·)) false none with ⟨hp, e⟩ | ⟨_, hf, _, e⟩ | ⟨_, _, e⟩
      · rw [e] at hc
        simp only [setCall_call, if_true, CallPhase.ended.injEq] at hc
        refine ⟨hc.2.2, hc.1, ?_, ?_⟩
        · intro x hx; rw [← hc.2.1, hx]; rfl
        · intro hf; rw [← hc.1] at hf; exact absurd hf hp
      · cases hf
      · rw [e] at hc; simp at hc
    · rw [e2] at hc
      refine ⟨L, s, .inr (List.prefix_refl _), hr, ?_⟩
      rcases evaluate_cases (C i) (s.setQueue (C i).cv ((s.queue (C i).cv).erase i)) i d' true t' with ⟨hp, e⟩ | ⟨hp, _, hl, e⟩ | ⟨_, _, e⟩
      · rw [e] at hc
        simp only [setCall_call, if_true, CallPhase.ended.injEq, setQueue_seen, setQueue_now] at hc hp
        refine ⟨hc.2.2, hc.1, ?_, ?_⟩
        · intro x hx; rw [← hc.2.1, hx]; rfl
        · intro hf; rw [← hc.1] at hf; exact absurd hf hp
      · rw [e] at hc
        simp only [setCall_call, if_true, CallPhase.ended.injEq, setQueue_seen, setQueue_now] at hc hp hl
        refine ⟨hc.2.2, hp.trans hc.1, ?_, ?_⟩
        · intro x hx; rw [← hc.2.1, hx]; rfl
        · intro _
          obtain ⟨L0, s0, h1, h2, h3⟩ := cv_deadline hr i d' w' t' e1
          cases hto : (C i).timeout with
          | none => rw [h3, hto] at hl; cases hl
          | some d =>
            rw [h3, hto] at hl
            refine ⟨L0, s0, d, h1, h2, rfl, ?_⟩
            simp only [Option.map_some, lateAt, decide_eq_true_eq] at hl
            omega
      · rw [e] at hc; simp at hc

theorem stable_run {C : Nat → WaitCall} {i : Nat} (hst : (C i).Stable) {L1 L2 : List CvLabel} {s1 s2 : CvState} (h1 : CvReaches C L1 s1)
    (h2 : CvReaches C L2 s2) (hp : L1 <+: L2) (ht : (C i).pred s1.seen = .ok true) : (C i).pred s2.seen = .ok true := by
  obtain ⟨m, rfl⟩ := hp
  unfold CvReaches at h1 h2
  rw [runSteps_append, h1] at h2
  simp only [Option.bind_some] at h2
  refine runSteps_induct (step := CvState.step C) (R := fun s => (C i).pred s.seen = .ok true) ?_ m s1 s2 ht h2
  intro s l s' hs hstep
  cases l with
  | tick => simp only [CvState.step, Option.some.injEq] at hstep; rw [← hstep]; exact hs
  | put op =>
    simp only [CvState.step, Option.some.injEq] at hstep
    rw [← hstep, (notify_seen _ _).1]
    exact hst _ _ hs
  | call j =>
    simp only [CvState.step] at hstep
    split at hstep
    · simp only [Option.some.injEq] at hstep
      rw [← hstep, (evaluate_seen _ _ _ _ _ _).1]; exact hs
    · cases hstep
  | wake j =>
    simp only [CvState.step] at hstep
    split at hstep
    · split at hstep
      · simp only [Option.some.injEq] at hstep
        rw [← hstep, (evaluate_seen _ _ _ _ _ _).1]; exact hs
      · cases hstep
    · cases hstep

/-- C101, for any number of calls at the same time: if once True the condition stays True, a call that returns False does so only if the condition
was True at no time before. -/
theorem C101_false_never {C : Nat → WaitCall} {L : List CvLabel} {s : CvState} (h : CvReaches C L s) (i : Nat) (hst : (C i).Stable)
    (text : Option (List Char)) (t : Nat) (hc : s.call i = .ended (.ok false) text t) :
    ∃ L1, (L1 ++ [.call i] <+: L ∨ L1 ++ [.wake i] <+: L) ∧ (∃ s1, CvReaches C L1 s1 ∧ s1.now = t) ∧
      ∀ L2 s2, L2 <+: L1 → CvReaches C L2 s2 → (C i).pred s2.seen ≠ .ok true := by
  obtain ⟨L1, s1, h1, h2, h3, h4, _⟩ := C101_result h i _ _ _ hc
  refine ⟨L1, h1, ⟨s1, h2, h3⟩, ?_⟩
  intro L2 s2 hp hr ht
  have := stable_run hst hr h2 hp ht
  rw [h4] at this
  cases this

/-- C101, for any number of calls at the same time: a call whose time is over can end at once, and then does end, with what its condition says. -/
theorem C101_deadline {C : Nat → WaitCall} (s : CvState) (i d : Nat) (w : Bool) (t : Option (List Char)) (hc : s.call i = .blocked (some d) w t)
    (hd : d ≤ s.now) : ∃ s' text, s.step C (.wake i) = some s' ∧ s'.call i = .ended ((C i).pred s.seen) text s.now := by
  have hl : lateAt (some d) s.now = true := by simpa [lateAt] using hd
  simp only [CvState.step, hc, hl, Bool.or_true, if_true]
  refine ⟨_, ((C i).look s.seen).or t, rfl, ?_⟩
  rcases evaluate_cases (C i) (s.setQueue (C i).cv ((s.queue (C i).cv).erase i)) i (some d) true t with ⟨_, e⟩ | ⟨hp, _, _, e⟩ | ⟨_, h, _⟩
  · rw [e]; simp
  · rw [e]
    simp only [setQueue_seen] at hp
    simp [hp]
  · rcases h with h | h
    · cases h
    · simp only [setQueue_now] at h; rw [hl] at h; cases h

/-! ## Notifications -/

/-- The queues hold the calls that wait and were not notified, each once. -/
def CvState.Queues (C : Nat → WaitCall) (s : CvState) : Prop :=
  ∀ v, (s.queue v).Nodup ∧ ∀ i, i ∈ s.queue v ↔ (C i).cv = v ∧ ∃ d t, s.call i = .blocked d false t

theorem evaluate_queues {C : Nat → WaitCall} {s : CvState} {i : Nat} (d : Option Nat) (again : Bool) (t : Option (List Char))
    (hnd : ∀ v, (s.queue v).Nodup) (hq : ∀ v j, j ∈ s.queue v ↔ j ≠ i ∧ (C j).cv = v ∧ ∃ d t, s.call j = .blocked d false t) :
    (s.evaluate (C i) i d again t).Queues C := by
  have hni : ∀ v, i ∉ s.queue v := fun v h => ((hq v i).1 h).1 rfl
  rcases evaluate_cases (C i) s i d again t with ⟨_, e⟩ | ⟨_, _, _, e⟩ | ⟨_, _, e⟩
  · rw [e]
    intro v
    refine ⟨hnd v, fun j => ?_⟩
    simp only [setCall_queue, setCall_call, hq]
    by_cases hj : j = i
    · subst hj; simp
    · simp [hj]
  · rw [e]
    intro v
    refine ⟨hnd v, fun j => ?_⟩
    simp only [setCall_queue, setCall_call, hq]
    by_cases hj : j = i
    · subst hj; simp
    · simp [hj]
  · rw [e]
    intro v
    simp only [setQueue_queue, setQueue_call, setCall_call]
    by_cases hv : v = (C i).cv
    · subst hv
      simp only [if_true]
      refine ⟨?_, fun j => ?_⟩
      · rw [List.nodup_append]
        refine ⟨hnd _, by simp, ?_⟩
        intro a ha b hb hab
        simp only [List.mem_singleton] at hb
        subst hb; subst hab
        exact hni _ ha
      · simp only [List.mem_append, List.mem_singleton, hq]
        by_cases hj : j = i
        · subst hj; simp
        · simp [hj]
    · simp only [hv, if_false]
      refine ⟨hnd v, fun j => ?_⟩
      rw [setCall_queue, hq]
      by_cases hj : j = i
      · subst hj; simp; intro h; exact absurd h.symm hv
      · simp [hj]

theorem queues_step {C : Nat → WaitCall} {s s' : CvState} {l : CvLabel} (hq : s.Queues C) (h : s.step C l = some s') : s'.Queues C := by
  cases l with
  | tick => simp only [CvState.step, Option.some.injEq] at h; rw [← h]; exact hq
  | put op =>
    simp only [CvState.step, Option.some.injEq] at h
    rw [← h]
    unfold CvState.notify
    have hq' : ({ s with seen := s.seen.put op } : CvState).Queues C := hq
    generalize ({ s with seen := s.seen.put op } : CvState) = s1 at hq'
    split
    · exact hq'
    · rename_i i rest hqu
      have hnd := (hq' op.cv).1
      rw [hqu, List.nodup_cons] at hnd
      obtain ⟨hcv, d, t, hc⟩ := ((hq' op.cv).2 i).1 (by rw [hqu]; simp)
      simp only [hc]
      intro v
      simp only [setQueue_queue, setQueue_call, setCall_call]
      by_cases hv : v = op.cv
      · subst hv
        simp only [if_true]
        refine ⟨hnd.2, fun j => ?_⟩
        have := (hq' op.cv).2 j
        rw [hqu, List.mem_cons] at this
        by_cases hj : j = i
        · subst hj; simp [hnd.1]
        · simpa [hj] using this
      · simp only [hv, if_false]
        refine ⟨(hq' v).1, fun j => ?_⟩
        rw [setCall_queue, (hq' v).2 j]
        by_cases hj : j = i
        · subst hj; simp [hc]; intro h; exact absurd (hcv ▸ h).symm hv
        · simp [hj]
  | call i =>
    simp only [CvState.step] at h
    cases hc : s.call i with
    | idle =>
      rw [hc] at h
      simp only [Option.some.injEq] at h
      rw [← h]
      refine evaluate_queues _ _ _ (fun v => (hq v).1) (fun v j => ?_)
      rw [(hq v).2 j]
      constructor
      · rintro ⟨h1, h2⟩
        refine ⟨?_, h1, h2⟩
        rintro rfl
        obtain ⟨d, t, h3⟩ := h2
        rw [hc] at h3; cases h3
      · exact fun h => h.2
    | blocked d w t => rw [hc] at h; cases h
    | ended r t n => rw [hc] at h; cases h
  | wake i =>
    simp only [CvState.step] at h
    cases hc : s.call i with
    | idle => rw [hc] at h; cases h
    | ended r t n => rw [hc] at h; cases h
    | blocked d w t =>
      rw [hc] at h
      simp only at h
      split at h
      · simp only [Option.some.injEq] at h
        rw [← h]
        refine evaluate_queues _ _ _ (fun v => ?_) (fun v j => ?_)
        · simp only [setQueue_queue]
          split
          · exact (hq _).1.erase _
          · exact (hq _).1
        · simp only [setQueue_queue, setQueue_call]
          by_cases hv : v = (C i).cv
          · subst hv
            rw [if_pos rfl, (hq _).1.mem_erase_iff, (hq _).2 j]
          · rw [if_neg hv, (hq v).2 j]
            constructor
            · rintro ⟨h1, h2⟩
              refine ⟨?_, h1, h2⟩
              rintro rfl
              exact hv h1.symm
            · exact fun h => h.2
      · cases h

theorem cv_queues {C : Nat → WaitCall} {L : List CvLabel} {s : CvState} (h : CvReaches C L s) : s.Queues C := by
  refine runSteps_induct (step := CvState.step C) (R := fun s => s.Queues C) ?_ L {} s ?_ h
  · intro s l s' hs hstep; exact queues_step hs hstep
  · intro v
    refine ⟨List.nodup_nil, fun i => ?_⟩
    simp

theorem waits_step {C : Nat → WaitCall} {s s' : CvState} {l : CvLabel} (h : s.step C l = some s') (j : Nat) (hw : s'.Waits j) :
    s.Waits j ∨ (l = .call j) := by
  rcases step_call h j with e | ⟨d', w', t', e1, _⟩ | ⟨rfl, _, _⟩ | ⟨rfl, d', w', t', e1, _, _⟩
  · left; unfold CvState.Waits at *; rw [← e]; exact hw
  · exact .inl ⟨d', w', t', e1⟩
  · exact .inr rfl
  · exact .inl ⟨d', w', t', e1⟩

theorem OneAtATime.mono {C : Nat → WaitCall} {L L' : List CvLabel} (h : OneAtATime C L) (hp : L' <+: L) : OneAtATime C L' :=
  fun L1 i s1 h1 h2 => h L1 i s1 (h1.trans hp) h2

/-- At most one call waits for each kind of event. -/
theorem one_waits {C : Nat → WaitCall} {L : List CvLabel} {s : CvState} (h : CvReaches C L s) (h1 : OneAtATime C L) :
    ∀ i j, s.Waits i → s.Waits j → (C i).cv = (C j).cv → i = j := by
  refine cv_induct (P := fun L s => OneAtATime C L → ∀ i j, s.Waits i → s.Waits j → (C i).cv = (C j).cv → i = j) ?_ ?_ _ L s rfl h h1
  · rintro _ i j ⟨_, _, _, h⟩; cases h
  · intro L l s s' hr ih hs _ ho i j hi hj hcv
    have hone := ih (ho.mono (List.prefix_append _ _))
    rcases waits_step hs i hi with hi' | rfl
    · rcases waits_step hs j hj with hj' | rfl
      · exact hone i j hi' hj' hcv
      · exact absurd hi' (ho L j s (List.prefix_refl _) hr i hcv)
    · rcases waits_step hs j hj with hj' | e
      · exact absurd hj' (ho L i s (List.prefix_refl _) hr j hcv.symm)
      · simpa using e

/-- A call that waits and was not notified has found its condition False with what its handler has recorded. -/
theorem unwoken_false {C : Nat → WaitCall} {L : List CvLabel} {s : CvState} (h : CvReaches C L s) (h1 : OneAtATime C L) (i : Nat) (d : Option Nat)
    (t : Option (List Char)) (hc : s.call i = .blocked d false t) :
    ∃ L1 s1, (L1 ++ [.call i] <+: L ∨ L1 ++ [.wake i] <+: L) ∧ CvReaches C L1 s1 ∧ s1.seen.SameFor (C i).cv s.seen ∧ (C i).pred s1.seen = .ok false := by
  refine cv_induct (P := fun L s => OneAtATime C L → ∀ d t, s.call i = .blocked d false t →
    ∃ L1 s1, (L1 ++ [.call i] <+: L ∨ L1 ++ [.wake i] <+: L) ∧ CvReaches C L1 s1 ∧ s1.seen.SameFor (C i).cv s.seen ∧ (C i).pred s1.seen = .ok false)
    ?_ ?_ _ L s rfl h h1 d t hc
  · intro _ d t hc; cases hc
  · intro L l s s' hr ih hs hr' ho d t hc
    have hone := one_waits hr (ho.mono (List.prefix_append _ _))
    have hsame : ∀ v, Seen.SameFor v s.seen s.seen := by intro v; cases v <;> rfl
    have keep : s.call i = .blocked d false t → s.seen.SameFor (C i).cv s'.seen →
        ∃ L1 s1, (L1 ++ [.call i] <+: L ++ [l] ∨ L1 ++ [.wake i] <+: L ++ [l]) ∧ CvReaches C L1 s1 ∧ s1.seen.SameFor (C i).cv s'.seen ∧
          (C i).pred s1.seen = .ok false := by
      intro hc0 hsm
      obtain ⟨L1, s1, g1, g2, g3, g4⟩ := ih (ho.mono (List.prefix_append _ _)) d t hc0
      refine ⟨L1, s1, g1.imp prefix_snoc prefix_snoc, g2, ?_, g4⟩
      revert g3 hsm
      cases (C i).cv
      · exact fun a b => b.trans a
      · exact fun a b => b.trans a
    cases l with
    | tick =>
      simp only [CvState.step, Option.some.injEq] at hs
      subst hs
      exact keep hc (hsame _)
    | put op =>
      simp only [CvState.step, Option.some.injEq] at hs
      have hseen : s'.seen = s.seen.put op := by rw [← hs]; exact (notify_seen _ _).1
      by_cases hcv : (C i).cv = op.cv
      · -- it would have been notified
        exfalso
        have hw : s.Waits i := by
          rcases notify_call { s with seen := s.seen.put op } op.cv i with e | ⟨d', w', t', e1, _⟩
          · exact ⟨d, false, t, by rw [← hs, e] at hc; exact hc⟩
          · exact ⟨d', w', t', e1⟩
        have hc0 : s.call i = .blocked d false t := by
          rcases notify_call { s with seen := s.seen.put op } op.cv i with e | ⟨d', w', t', e1, e2⟩
          · rw [← hs, e] at hc; exact hc
          · rw [← hs, e2] at hc; cases hc
        have hq := cv_queues hr op.cv
        have hmem := (hq.2 i).2 ⟨hcv, d, t, hc0⟩
        cases hqu : s.queue op.cv with
        | nil => rw [hqu] at hmem; cases hmem
        | cons j rest =>
          obtain ⟨hj1, dj, tj, hj2⟩ := (hq.2 j).1 (by rw [hqu]; simp)
          have hij : i = j := hone i j hw ⟨dj, false, tj, hj2⟩ (by rw [hcv, hj1])
          subst hij
          have : s'.call i = .blocked d true t := by
            rw [← hs]
            simp only [CvState.notify, hqu, hc0, setQueue_call, setCall_call, if_true]
          rw [this] at hc
          cases hc
      · have hc0 : s.call i = .blocked d false t := by
          rcases notify_call { s with seen := s.seen.put op } op.cv i with e | ⟨d', w', t', e1, e2⟩
          · rw [← hs, e] at hc; exact hc
          · rw [← hs, e2] at hc; cases hc
        apply keep hc0
        rw [hseen]
        revert hcv
        cases (C i).cv <;> cases op <;> intro hcv
        · exact absurd rfl hcv
        · rfl
        · rfl
        · exact absurd rfl hcv
    | call j =>
      have hseen : s'.seen = s.seen := by
        simp only [CvState.step] at hs
        split at hs
        · simp only [Option.some.injEq] at hs
          rw [← hs, (evaluate_seen _ _ _ _ _ _).1]
        · cases hs
      rcases step_call hs i with e | ⟨d', w', t', e1, e2⟩ | ⟨hl, e1, e2⟩ | ⟨hl, _⟩
      · exact keep (e ▸ hc) (by rw [hseen]; exact hsame _)
      · rw [hc] at e2; cases e2
      · simp only [CvLabel.call.injEq] at hl
        subst hl
        refine ⟨L, s, .inl (List.prefix_refl _), hr, by rw [hseen]; exact hsame _, ?_⟩
        rw [e2] at hc
        rcases evaluate_cases (C j) s j ((C j).timeout.map (s.now + ·)) false none with ⟨_, e⟩ | ⟨_, _, _, e⟩ | ⟨hp, _, e⟩
        · rw [e] at hc; simp at hc
        · rw [e] at hc; simp at hc
        · exact hp
      · cases hl
    | wake j =>
      have hseen : s'.seen = s.seen := by
        simp only [CvState.step] at hs
        split at hs
        · split at hs
          · simp only [Option.some.injEq] at hs
            rw [← hs, (evaluate_seen _ _ _ _ _ _).1]; rfl
          · cases hs
        · cases hs
      rcases step_call hs i with e | ⟨d', w', t', e1, e2⟩ | ⟨hl, e1, e2⟩ | ⟨hl, d', w', t', _, _, e2⟩
      · exact keep (e ▸ hc) (by rw [hseen]; exact hsame _)
      · rw [hc] at e2; cases e2
      · cases hl
      · simp only [CvLabel.wake.injEq] at hl
        subst hl
        refine ⟨L, s, .inr (List.prefix_refl _), hr, by rw [hseen]; exact hsame _, ?_⟩
        rw [e2] at hc
        rcases evaluate_cases (C j) (s.setQueue (C j).cv ((s.queue (C j).cv).erase j)) j d' true t' with ⟨_, e⟩ | ⟨_, _, _, e⟩ | ⟨hp, _, e⟩
        · rw [e] at hc; simp at hc
        · rw [e] at hc; simp at hc
        · exact hp

/-- C101, if no two calls wait for the same kind of event at the same time, for a condition on what the handler records: as soon as the condition holds (or
raises) the call that waits for it can end, and its next step ends it with that result. -/
theorem C101_prompt_partial {C : Nat → WaitCall} {L : List CvLabel} {s : CvState} (h : CvReaches C L s) (h1 : OneAtATime C L) (i : Nat)
    (hown : (C i).Own) (hw : s.Waits i) (hp : (C i).pred s.seen ≠ .ok false) :
    ∃ s' text, s.step C (.wake i) = some s' ∧ s'.call i = .ended ((C i).pred s.seen) text s.now := by
  obtain ⟨d, w, t, hc⟩ := hw
  cases w with
  | false =>
    obtain ⟨L1, s1, _, _, g3, g4⟩ := unwoken_false h h1 i d t hc
    exact absurd ((hown _ _ g3).symm.trans g4) hp
  | true =>
    simp only [CvState.step, hc, Bool.true_or, if_true]
    refine ⟨_, ((C i).look s.seen).or t, rfl, ?_⟩
    rcases evaluate_cases (C i) (s.setQueue (C i).cv ((s.queue (C i).cv).erase i)) i d true t with ⟨_, e⟩ | ⟨hf, _, _, _⟩ | ⟨hf, _⟩
    · rw [e]; simp
    · exact absurd hf hp
    · exact absurd hf hp

end Verif
