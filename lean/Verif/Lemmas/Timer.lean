import Verif.Model.Timer

/-! # Lemmas about timers -/

namespace Verif

/-- A task that may still fire. -/
def TimerTask.active : TimerTask → Bool
  | .ended _ => false
  | _ => true

/-- Replacing a task by an ended one makes one task less active if it was active. -/
theorem countP_set_ended {ts : List TimerTask} {i : Nat} {x : TimerTask} (h : ts[i]? = some x) (hx : x.active = true)
    (b : Bool) : (ts.set i (.ended b)).countP TimerTask.active + 1 = ts.countP TimerTask.active := by
  obtain ⟨hi, he⟩ := List.getElem?_eq_some_iff.mp h
  rw [List.countP_set hi, he, hx]
  have : 0 < ts.countP TimerTask.active := List.countP_pos_iff.mpr ⟨x, by rw [← he]; exact List.getElem_mem hi, hx⟩
  simp [TimerTask.active]; omega

theorem countP_set_active {ts : List TimerTask} {i : Nat} {x : TimerTask} (h : ts[i]? = some x) (hx : x.active = true)
    {y : TimerTask} (hy : y.active = true) : (ts.set i y).countP TimerTask.active = ts.countP TimerTask.active := by
  obtain ⟨hi, he⟩ := List.getElem?_eq_some_iff.mp h
  rw [List.countP_set hi, he, hx, hy]
  have : 0 < ts.countP TimerTask.active := List.countP_pos_iff.mpr ⟨x, by rw [← he]; exact List.getElem_mem hi, hx⟩
  simp; omega

/-- Potential number of performances. -/
def Timer.potential (t : Timer) : Nat :=
  t.performed + t.queue.count .timer + t.tasks.countP TimerTask.active

theorem Timer.cancel_potential (t : Timer) : t.cancel.potential = t.potential := by
  unfold Timer.cancel
  split
  · rfl
  · split <;> rfl

/-- Is the current cancellation future done? -/
def Timer.cancelled (t : Timer) : Bool :=
  match t.canc with | none => false | some f => decide (f ∈ t.isDone)

/-- Firing in one record. -/
theorem Timer.fire_eq (t : Timer) (i : Nat) :
    t.fire i = { t with
      queue := t.queue ++ (if t.cancelled then [] else [.timer])
      isDone := t.isDone ++ (match t.comp with | none => [] | some f => if f ∈ t.isDone then [] else [f])
      tasks := t.tasks.set i
        (.ended (match t.comp with | none => false | some f => !decide (f ∈ t.isDone))) } := by
  obtain ⟨a, comp, canc, n, d, ts, ch, ins, q, now, ex, pf⟩ := t
  unfold Timer.fire Timer.cancelled
  cases canc with
  | none =>
    cases comp with
    | none => simp
    | some f => by_cases hf : f ∈ d <;> simp [hf]
  | some c =>
    by_cases hc : c ∈ d
    all_goals
      cases comp with
      | none => simp [hc]
      | some f => by_cases hf : f ∈ d <;> simp [hf, hc]

theorem Timer.fire_potential {t : Timer} {i : Nat} {x : TimerTask} (h : t.tasks[i]? = some x) (hx : x.active = true) :
    (t.fire i).potential ≤ t.potential := by
  rw [fire_eq]
  have hf := countP_set_ended h hx (match t.comp with | none => false | some f => !decide (f ∈ t.isDone))
  simp only [Timer.potential, List.count_append]
  split <;> simp <;> omega

/-- Cancelling in one record. -/
theorem Timer.cancel_eq (t : Timer) : t.cancel = { t with
    canceled := true
    isDone := t.isDone ++ (match t.canc with | none => [] | some f => if f ∈ t.isDone then [] else [f]) } := by
  unfold Timer.cancel
  cases t.canc with
  | none => simp
  | some f => by_cases hf : f ∈ t.isDone <;> simp [hf]

theorem Timer.cancel_cancelled (t : Timer) (h : t.canc ≠ none) : t.cancel.cancelled = true := by
  rw [cancel_eq]
  unfold Timer.cancelled
  cases hc : t.canc with
  | none => exact absurd hc h
  | some f => by_cases hf : f ∈ t.isDone <;> simp [hf]

theorem Timer.step_potential {t t' : Timer} {l : TimerLabel} (h : t.step l = some t') :
    t'.potential + t.executions ≤ t.potential + t'.executions := by
  cases l with
  | execute cos =>
    simp only [Timer.step, Option.some.injEq] at h; subst h
    unfold Timer.execute
    simp only
    split <;> simp [Timer.potential, TimerTask.active] <;> omega
  | cancel =>
    simp only [Timer.step, Option.some.injEq] at h; subst h
    rw [cancel_potential]
    have : t.cancel.executions = t.executions := by unfold Timer.cancel; split <;> (try split) <;> rfl
    omega
  | begin i p =>
    simp only [Timer.step] at h
    split at h
    · rename_i hi
      split at h
      · simp only [Option.some.injEq] at h; subst h
        simp only [Timer.potential, countP_set_active hi rfl (y := .waiting _ _) rfl]; omega
      · simp only [Option.some.injEq] at h; subst h
        have := countP_set_ended hi rfl false
        simp only [Timer.potential]; omega
    · cases h
  | resume i =>
    simp only [Timer.step] at h
    split at h
    · rename_i f d hi
      split at h
      · simp only [Option.some.injEq] at h; subst h
        have := fire_potential hi rfl
        have : (t.fire i).executions = t.executions := by rw [fire_eq]
        omega
      · cases h
    · cases h
  | tick => simp only [Timer.step, Option.some.injEq] at h; subst h; exact Nat.le_refl _
  | emitShutdown =>
    simp only [Timer.step, Option.some.injEq] at h; subst h
    simp [Timer.potential, List.count_append]
  | process =>
    simp only [Timer.step] at h
    unfold Timer.process at h
    split at h
    · cases h
    · rename_i q hq
      simp only [Option.some.injEq] at h; subst h
      simp only [Timer.potential, hq]
      simp; split <;> omega
    · rename_i q hq
      simp only [Option.some.injEq] at h; subst h
      have e : ({ t with queue := q } : Timer).potential = t.potential := by simp [Timer.potential, hq]
      split
      · exact Nat.le_of_eq (by rw [e])
      · rw [cancel_potential, e]
        have : ∀ t : Timer, t.cancel.executions = t.executions := by
          intro t; unfold Timer.cancel; split <;> (try split) <;> rfl
        rw [this]; exact Nat.le_refl _


/-- Is this label an execution of the timer? -/
def TimerLabel.isExecute : TimerLabel → Bool
  | .execute _ => true
  | _ => false

theorem Timer.step_executions {t t' : Timer} {l : TimerLabel} (h : t.step l = some t') :
    t'.executions = t.executions + (if l.isExecute then 1 else 0) := by
  cases l with
  | execute cos =>
    simp only [Timer.step, Option.some.injEq] at h; subst h
    unfold Timer.execute; simp only; split <;> rfl
  | cancel => simp only [Timer.step, Option.some.injEq] at h; subst h; rw [cancel_eq]; rfl
  | begin i p =>
    simp only [Timer.step] at h
    repeat' split at h
    all_goals first | (cases h; done) | (simp only [Option.some.injEq] at h; subst h; rfl)
  | resume i =>
    simp only [Timer.step] at h
    repeat' split at h
    all_goals first | (cases h; done) | (simp only [Option.some.injEq] at h; subst h; rw [fire_eq]; rfl)
  | tick => simp only [Timer.step, Option.some.injEq] at h; subst h; rfl
  | emitShutdown => simp only [Timer.step, Option.some.injEq] at h; subst h; rfl
  | process =>
    simp only [Timer.step] at h
    unfold Timer.process at h
    repeat' split at h
    all_goals first | (cases h; done) | (simp only [Option.some.injEq] at h; subst h; first | rfl | (split <;> first | rfl | (rw [cancel_eq]; rfl)))

/-- Performances, executions and labels. -/
theorem Timer.run_potential : ∀ (ls : List TimerLabel) (t t' : Timer), runSteps Timer.step t ls = some t' →
    t'.potential ≤ t.potential + ls.countP TimerLabel.isExecute
  | [], t, t', h => by simp [runSteps] at h; rw [h]; omega
  | l :: ls, t, t', h => by
    obtain ⟨t1, h1, h2⟩ := runSteps_cons h
    have ih := run_potential ls t1 t' h2
    have hp := step_potential h1
    have he := step_executions h1
    rw [List.countP_cons]
    omega

/-- Nothing more will be performed. -/
structure Timer.Dead (n : Nat) (t : Timer) : Prop where
  performed : t.performed = n
  queue : t.queue.count .timer = 0
  canc : t.cancelled = true ∨ t.tasks.countP TimerTask.active = 0

theorem Timer.cancelled_mono {t : Timer} {d : List Nat} (h : t.cancelled = true) :
    ({ t with isDone := t.isDone ++ d } : Timer).cancelled = true := by
  unfold Timer.cancelled at h ⊢
  cases hc : t.canc with
  | none => simp [hc] at h
  | some f => simp [hc] at h ⊢; exact .inl h

theorem Timer.Dead.cancel {n : Nat} {t : Timer} (h : t.Dead n) : t.cancel.Dead n := by
  rw [cancel_eq]
  exact ⟨h.performed, h.queue, h.canc.imp (fun hc => cancelled_mono hc) id⟩

theorem Timer.Dead.step {n : Nat} {t t' : Timer} {l : TimerLabel} (h : t.Dead n)
    (hl : l.isExecute = false ∨ (t.canceled = true ∧ t.tasks.countP TimerTask.active = 0)) (hs : t.step l = some t') :
    t'.Dead n := by
  cases l with
  | execute cos =>
    rcases hl with hl | ⟨hc, ht⟩
    · cases hl
    · simp only [Timer.step, Option.some.injEq] at hs; subst hs
      unfold Timer.execute
      simp only [hc, if_true]
      exact ⟨h.performed, h.queue, .inr ht⟩
  | cancel => simp only [Timer.step, Option.some.injEq] at hs; subst hs; exact h.cancel
  | begin i p =>
    simp only [Timer.step] at hs
    split at hs
    · rename_i hi
      split at hs
      · simp only [Option.some.injEq] at hs; subst hs
        refine ⟨h.performed, h.queue, h.canc.imp id fun hc => ?_⟩
        show (t.tasks.set _ _).countP _ = 0
        rw [countP_set_active hi rfl (by rfl)]; exact hc
      · simp only [Option.some.injEq] at hs; subst hs
        refine ⟨h.performed, h.queue, h.canc.imp id fun hc => ?_⟩
        have := countP_set_ended hi rfl false
        show (t.tasks.set _ _).countP _ = 0
        omega
    · cases hs
  | resume i =>
    simp only [Timer.step] at hs
    split at hs
    · rename_i f d hi
      split at hs
      · simp only [Option.some.injEq] at hs; subst hs
        have ha : 0 < t.tasks.countP TimerTask.active := by
          obtain ⟨hi, he⟩ := List.getElem?_eq_some_iff.mp hi
          exact List.countP_pos_iff.mpr ⟨_, List.getElem_mem hi, by rw [he]; rfl⟩
        have hc : t.cancelled = true := h.canc.resolve_right (by omega)
        rw [fire_eq, hc]
        exact ⟨h.performed, by simpa using h.queue, .inl (cancelled_mono hc)⟩
      · cases hs
    · cases hs
  | tick => simp only [Timer.step, Option.some.injEq] at hs; subst hs; exact ⟨h.performed, h.queue, h.canc⟩
  | emitShutdown =>
    simp only [Timer.step, Option.some.injEq] at hs; subst hs
    exact ⟨h.performed, by simpa [List.count_append] using h.queue, h.canc⟩
  | process =>
    simp only [Timer.step] at hs
    unfold Timer.process at hs
    have hq := h.queue
    split at hs
    · cases hs
    · rename_i q hq'; rw [hq'] at hq; simp at hq
    · rename_i q hq'
      rw [hq'] at hq
      have hd : ({ t with queue := q } : Timer).Dead n := ⟨h.performed, by simpa using hq, h.canc⟩
      simp only [Option.some.injEq] at hs; subst hs
      split
      · exact hd
      · exact hd.cancel

/-- What holds in every state reached with at most one execution: nothing was executed; or the timer had been cancelled
before; or there is one task, and the futures are as its state says. -/
structure Timer.Single (t : Timer) : Prop where
  fresh : t.executions = 0 → t.tasks = [] ∧ t.isDone = [] ∧ t.canc = none ∧ t.comp = none ∧ t.nextFut = 0
  once : t.executions = 1 → t.comp = some 0 ∧ t.canc = some 1 ∧
    ((t.tasks = [] ∧ 0 ∈ t.isDone) ∨
      (∃ x, t.tasks = [x] ∧ (t.canceled = true ↔ 1 ∈ t.isDone) ∧
        (0 ∈ t.isDone ↔ x = .ended true) ∧ ∀ f d, x = .waiting f d → f = 1))
  nodup : t.isDone.Nodup
  bound : t.executions ≤ 1

theorem Timer.Single.cancel {t : Timer} (h : t.Single) : t.cancel.Single := by
  rw [cancel_eq]
  refine ⟨fun he => ?_, fun he => ?_, ?_, h.bound⟩
  · obtain ⟨a, b, c, d, e⟩ := h.fresh he
    exact ⟨a, by simp [b, c], c, d, e⟩
  · obtain ⟨a, b, c⟩ := h.once he
    refine ⟨a, b, ?_⟩
    rcases c with ⟨c, d⟩ | ⟨x, c, d, e, g⟩
    · exact .inl ⟨c, List.mem_append.mpr (.inl d)⟩
    · refine .inr ⟨x, c, ?_, ?_, g⟩
      · simp only [b]; by_cases h1 : 1 ∈ t.isDone <;> simp [h1]
      · simp only [b]; by_cases h1 : 1 ∈ t.isDone <;> simp [h1, e]
  · show (t.isDone ++ _).Nodup
    cases hc : t.canc with
    | none => simpa [hc] using h.nodup
    | some f =>
      by_cases hf : f ∈ t.isDone
      · simpa [hf] using h.nodup
      · simp only [hf, if_false]
        rw [List.nodup_append]
        exact ⟨h.nodup, by simp, fun a ha b hb => by simp at hb; subst hb; exact fun hab => hf (hab ▸ ha)⟩

theorem Timer.Single.step {t t' : Timer} {l : TimerLabel} (h : t.Single) (hs : t.step l = some t')
    (hb : t'.executions ≤ 1) : t'.Single := by
  have hex := step_executions hs
  cases l with
  | execute cos =>
    simp only [TimerLabel.isExecute, if_true] at hex
    have h0 : t.executions = 0 := by omega
    obtain ⟨a, b, c, d, e⟩ := h.fresh h0
    simp only [Timer.step, Option.some.injEq] at hs; subst hs
    unfold Timer.execute
    simp only
    cases hc : t.canceled with
    | true =>
      simp only [if_true]
      exact ⟨fun hq => (by simp at hq), fun _ => ⟨by simp [e], by simp [e], .inl ⟨a, by simp [e, b]⟩⟩, by simp [b], by simp [h0]⟩
    | false =>
      simp only [Bool.false_eq_true, if_false]
      refine ⟨fun hq => (by simp at hq), fun _ => ⟨by simp [e], by simp [e], .inr ⟨.scheduled, by simp [a], ?_, ?_, ?_⟩⟩, h.nodup,
        by simp [h0]⟩
      · simp [hc, b]
      · simp [b]
      · intro f d hq; cases hq
  | cancel => simp only [Timer.step, Option.some.injEq] at hs; subst hs; exact h.cancel
  | begin i p =>
    simp only [Timer.step] at hs
    split at hs
    · rename_i hi
      have h1 : t.executions = 1 := by
        have := h.bound
        rcases Nat.lt_or_ge t.executions 1 with hlt | hge
        · rw [(h.fresh (by omega)).1] at hi; simp at hi
        · omega
      obtain ⟨a, b, c⟩ := h.once h1
      rcases c with ⟨c, _⟩ | ⟨x, c, d, e, g⟩
      · rw [c] at hi; simp at hi
      · have hi0 : i = 0 ∧ x = .scheduled := by
          rw [c] at hi
          cases i with
          | zero => simpa using hi
          | succ i => simp at hi
        obtain ⟨rfl, rfl⟩ := hi0
        split at hs
        · rename_i p' f hf
          simp only [Option.some.injEq] at hs; subst hs
          rw [b] at hf
          refine ⟨fun hq => (by rw [show t.executions = 0 from hq] at h1; cases h1),
            fun _ => ⟨a, b, .inr ⟨.waiting f (t.now + p'), by simp [c], d, ?_, ?_⟩⟩, h.nodup, h.bound⟩
          · constructor
            · intro h0; have := e.mp h0; cases this
            · intro h0; cases h0
          · intro f' d' hq; simp at hq hf; omega
        · simp only [Option.some.injEq] at hs; subst hs
          refine ⟨fun hq => (by rw [show t.executions = 0 from hq] at h1; cases h1),
            fun _ => ⟨a, b, .inr ⟨.ended false, by simp [c], d, ?_, ?_⟩⟩, h.nodup, h.bound⟩
          · constructor
            · intro h0; have := e.mp h0; cases this
            · intro h0; cases h0
          · intro f' d' hq; cases hq
    · cases hs
  | resume i =>
    simp only [Timer.step] at hs
    split at hs
    · rename_i f d hi
      split at hs
      · have h1 : t.executions = 1 := by
          have := h.bound
          rcases Nat.lt_or_ge t.executions 1 with hlt | hge
          · rw [(h.fresh (by omega)).1] at hi; simp at hi
          · omega
        obtain ⟨a, b, c⟩ := h.once h1
        rcases c with ⟨c, _⟩ | ⟨x, c, d', e, g⟩
        · rw [c] at hi; simp at hi
        · have hi0 : i = 0 ∧ x = .waiting f d := by
            rw [c] at hi
            cases i with
            | zero => simpa using hi
            | succ i => simp at hi
          obtain ⟨rfl, rfl⟩ := hi0
          have hn : 0 ∉ t.isDone := fun h0 => by have := e.mp h0; cases this
          simp only [Option.some.injEq] at hs; subst hs
          rw [fire_eq]
          refine ⟨fun hq => (by rw [show t.executions = 0 from hq] at h1; cases h1),
            fun _ => ⟨a, b, .inr ⟨.ended true, by simp [c, a, hn], ?_, ?_, ?_⟩⟩, ?_, h.bound⟩
          · simp [a, hn, d']
          · simp [a, hn]
          · intro f' d' hq; cases hq
          · simp only [a, hn, if_false]
            rw [List.nodup_append]
            exact ⟨h.nodup, by simp, fun x hx y hy => by simp at hy; subst hy; exact fun hxy => hn (hxy ▸ hx)⟩
      · cases hs
    · cases hs
  | tick => simp only [Timer.step, Option.some.injEq] at hs; subst hs; exact ⟨h.fresh, h.once, h.nodup, h.bound⟩
  | emitShutdown => simp only [Timer.step, Option.some.injEq] at hs; subst hs; exact ⟨h.fresh, h.once, h.nodup, h.bound⟩
  | process =>
    simp only [Timer.step] at hs
    unfold Timer.process at hs
    split at hs
    · cases hs
    · simp only [Option.some.injEq] at hs; subst hs; exact ⟨h.fresh, h.once, h.nodup, h.bound⟩
    · rename_i q hq'
      have hd : ({ t with queue := q } : Timer).Single := ⟨h.fresh, h.once, h.nodup, h.bound⟩
      simp only [Option.some.injEq] at hs; subst hs
      split
      · exact hd
      · exact hd.cancel

theorem Timer.Single.run : ∀ (ls : List TimerLabel) (t t' : Timer), t.Single →
    t.executions + ls.countP TimerLabel.isExecute ≤ 1 → runSteps Timer.step t ls = some t' → t'.Single
  | [], t, t', h, _, hr => by simp [runSteps] at hr; rw [← hr]; exact h
  | l :: ls, t, t', h, hb, hr => by
    obtain ⟨t1, h1, h2⟩ := runSteps_cons hr
    have he := step_executions h1
    rw [List.countP_cons] at hb
    exact run ls t1 t' (h.step h1 (by omega)) (by omega) h2

theorem Timer.Single.reach {ls : List TimerLabel} {t : Timer} (hb : ls.countP TimerLabel.isExecute ≤ 1)
    (h : runSteps Timer.step {} ls = some t) : t.Single :=
  Timer.Single.run ls {} t ⟨fun _ => ⟨rfl, rfl, rfl, rfl, rfl⟩, fun hq => (by cases hq), by simp, by simp⟩ (by simpa using hb) h

theorem Timer.run_executions : ∀ (ls : List TimerLabel) (t t' : Timer), runSteps Timer.step t ls = some t' →
    t'.executions = t.executions + ls.countP TimerLabel.isExecute
  | [], t, t', h => by simp [runSteps] at h; rw [h]; rfl
  | l :: ls, t, t', h => by
    obtain ⟨t1, h1, h2⟩ := runSteps_cons h
    rw [run_executions ls t1 t' h2, step_executions h1, List.countP_cons]; omega

end Verif
