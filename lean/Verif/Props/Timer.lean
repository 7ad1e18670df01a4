import Verif.Lemmas.Timer

/-!
# Timers: C30
-/

namespace Verif

/-! ## C30 Timers fire at most once and never after cancel -/

/-- The actions are performed at most as often as the timer was executed, so at most once if it was executed once; whatever
happens meanwhile. -/
theorem C30_at_most_once (ls : List TimerLabel) (t : Timer) (h : runSteps Timer.step {} ls = some t) :
    t.performed ≤ ls.countP TimerLabel.isExecute := by
  have := Timer.run_potential ls {} t h
  have e : ({} : Timer).potential = 0 := rfl
  unfold Timer.potential at this e
  omega

/-- The period is respected: if the actions were performed, at least `p` ticks have passed since the task began with period
`p`. -/
theorem C30_not_before_period (before ls : List TimerLabel) (i p : Nat) (t : Timer)
    (h : runSteps Timer.step {} (before ++ .begin i (some p) :: ls) = some t)
    (hb : (before ++ .begin i (some p) :: ls).countP TimerLabel.isExecute ≤ 1) (hp : 0 < t.performed) :
    p ≤ ls.count .tick := by
  rw [runSteps_append] at h
  cases h0 : runSteps Timer.step {} before with
  | none => rw [h0] at h; cases h
  | some t0 =>
    rw [h0] at h
    obtain ⟨t1, h1, h2⟩ := runSteps_cons (show runSteps Timer.step t0 (.begin i (some p) :: ls) = some t from h)
    simp only [List.countP_append, List.countP_cons] at hb
    have hS0 : t0.Single := Timer.Single.reach (by omega) h0
    have hex1 := Timer.step_executions h1
    have hS1 : t1.Single := hS0.step h1 (by have := hS0.bound; simp [TimerLabel.isExecute] at hex1; omega)
    have hpot := Timer.run_potential before {} t0 h0
    -- before the task began nothing was performed
    have key : t1.now = t0.now ∧ t1.executions = 1 ∧ t1.tasks = [.waiting 1 (t0.now + p)] ∧ t1.performed = 0 ∧
        t1.queue.count .timer = 0 := by
      simp only [Timer.step] at h1
      split at h1
      · rename_i hi
        have hx : t0.executions = 1 := by
          have := hS0.bound
          rcases Nat.lt_or_ge t0.executions 1 with hlt | hge
          · rw [(hS0.fresh (by omega)).1] at hi; simp at hi
          · omega
        obtain ⟨a, b, c⟩ := hS0.once hx
        rcases c with ⟨c, _⟩ | ⟨x, c, _⟩
        · rw [c] at hi; simp at hi
        · have hi0 : i = 0 ∧ x = .scheduled := by
            rw [c] at hi
            cases i with
            | zero => simpa using hi
            | succ i => simp at hi
          obtain ⟨rfl, rfl⟩ := hi0
          rw [b] at h1
          simp only [Option.some.injEq] at h1; subst h1
          have e : ({} : Timer).potential = 0 := rfl
          have : t0.potential = t0.performed + t0.queue.count .timer + 1 := by
            unfold Timer.potential; rw [c]; rfl
          refine ⟨rfl, hx, by simp [c], ?_, ?_⟩
          · show t0.performed = 0; omega
          · show t0.queue.count .timer = 0; omega
      · cases h1
    obtain ⟨hnow, hx, hts, hpf, hqu⟩ := key
    have hrun : ∀ (ls : List TimerLabel) (u u' : Timer), u.Single → u.executions = 1 → ls.countP TimerLabel.isExecute = 0 →
        (u.tasks = [.waiting 1 (t0.now + p)] ∨ ∃ b, u.tasks = [.ended b]) →
        ((u.performed = 0 ∧ u.queue.count .timer = 0) ∨ t0.now + p ≤ u.now) →
        runSteps Timer.step u ls = some u' →
        ((u'.performed = 0 ∧ u'.queue.count .timer = 0) ∨ t0.now + p ≤ u'.now) ∧ u'.now = u.now + ls.count .tick := by
      intro ls
      induction ls with
      | nil =>
        intro u u' _ _ _ _ hq hr
        simp [runSteps] at hr; subst hr
        exact ⟨hq, rfl⟩
      | cons l ls ih =>
        intro u u' hS hu hc ht hq hr
        obtain ⟨v, hv, hr⟩ := runSteps_cons hr
        rw [List.countP_cons] at hc
        have hlx : l.isExecute = false := by
          cases hl : l.isExecute with
          | false => rfl
          | true => rw [hl] at hc; simp at hc
        have hev := Timer.step_executions hv
        rw [hlx] at hev
        simp only [Bool.false_eq_true, if_false, Nat.add_zero] at hev
        have hSv := hS.step hv (by omega)
        have hstep : (v.tasks = [.waiting 1 (t0.now + p)] ∨ ∃ b, v.tasks = [.ended b]) ∧
            ((v.performed = 0 ∧ v.queue.count .timer = 0) ∨ t0.now + p ≤ v.now) ∧
            v.now = u.now + (if l = .tick then 1 else 0) := by
          cases l with
          | execute cos => cases hlx
          | cancel =>
            simp only [Timer.step, Option.some.injEq] at hv; subst hv
            rw [Timer.cancel_eq]; exact ⟨ht, hq, rfl⟩
          | begin j p' =>
            simp only [Timer.step] at hv
            split at hv
            · rename_i hj
              rcases ht with ht | ⟨b, ht⟩
              all_goals
                rw [ht] at hj
                cases j with
                | zero => simp at hj
                | succ j => simp at hj
            · cases hv
          | resume j =>
            simp only [Timer.step] at hv
            split at hv
            · rename_i f d hj
              split at hv
              · rename_i hg
                have hj0 : j = 0 ∧ f = 1 ∧ d = t0.now + p := by
                  rcases ht with ht | ⟨b, ht⟩
                  all_goals
                    rw [ht] at hj
                    cases j with
                    | zero => simp at hj <;> (try exact ⟨rfl, hj.1.symm, hj.2.symm⟩)
                    | succ j => simp at hj
                obtain ⟨rfl, rfl, rfl⟩ := hj0
                simp only [Option.some.injEq] at hv; subst hv
                have ht' : u.tasks = [.waiting 1 (t0.now + p)] := by
                  rcases ht with ht | ⟨b, ht⟩
                  · exact ht
                  · rw [ht] at hj; simp at hj
                rw [Timer.fire_eq]
                refine ⟨.inr ⟨_, by rw [ht']; rfl⟩, ?_, rfl⟩
                obtain ⟨a, b, _⟩ := hS.once hu
                cases hcc : u.cancelled with
                | true =>
                  rcases hq with hq | hq
                  · left; exact ⟨hq.1, by simpa using hq.2⟩
                  · exact .inr hq
                | false =>
                  right
                  rcases hg with hg | hg
                  · unfold Timer.cancelled at hcc
                    rw [b] at hcc
                    simp [hg] at hcc
                  · exact hg
              · cases hv
            · cases hv
          | tick =>
            simp only [Timer.step, Option.some.injEq] at hv; subst hv
            refine ⟨ht, ?_, rfl⟩
            rcases hq with hq | hq
            · exact .inl hq
            · right; show t0.now + p ≤ u.now + 1; omega
          | emitShutdown =>
            simp only [Timer.step, Option.some.injEq] at hv; subst hv
            refine ⟨ht, ?_, rfl⟩
            rcases hq with hq | hq
            · left; exact ⟨hq.1, by simpa [List.count_append] using hq.2⟩
            · exact .inr hq
          | process =>
            simp only [Timer.step] at hv
            unfold Timer.process at hv
            split at hv
            · cases hv
            · rename_i q hqq
              simp only [Option.some.injEq] at hv; subst hv
              refine ⟨ht, ?_, rfl⟩
              rcases hq with hq | hq
              · rw [hqq] at hq; simp at hq
              · exact .inr hq
            · rename_i q hqq
              have hq' : (u.performed = 0 ∧ q.count .timer = 0) ∨ t0.now + p ≤ u.now := by
                rcases hq with hq | hq
                · left; rw [hqq] at hq; simpa using hq
                · exact .inr hq
              simp only [Option.some.injEq] at hv; subst hv
              split
              · exact ⟨ht, hq', rfl⟩
              · rw [Timer.cancel_eq]; exact ⟨ht, hq', rfl⟩
        obtain ⟨ha, hb', hn⟩ := hstep
        obtain ⟨hc1, hc2⟩ := ih v u' hSv (by omega) (by omega) ha hb' hr
        refine ⟨hc1, ?_⟩
        rw [hc2, hn, List.count_cons]
        by_cases hl : l = .tick <;> simp [hl] <;> omega
    have hno : ls.countP TimerLabel.isExecute = 0 := by
      have := Timer.run_executions before {} t0 h0
      have h3 : t1.executions = t0.executions := by simp [hex1, TimerLabel.isExecute]
      have : ({} : Timer).executions = 0 := rfl
      simp only [TimerLabel.isExecute, Bool.false_eq_true, if_false] at hb
      omega
    obtain ⟨hr1, hr2⟩ := hrun ls t1 t hS1 hx hno (.inl hts) (.inl ⟨hpf, hqu⟩) h2
    rcases hr1 with hr1 | hr1
    · omega
    · omega

/-- After `cancel()`, called before the timer fired (its event was neither queued nor handled), nothing is performed by it any more, as long
as it is not executed again. -/
theorem C30_cancelled_never_fires (before ls : List TimerLabel) (t0 t1 t : Timer)
    (h0 : runSteps Timer.step {} before = some t0) (hnf : t0.performed = 0 ∧ .timer ∉ t0.queue)
    (hc : t0.step .cancel = some t1) (h : runSteps Timer.step t1 ls = some t) (hls : ∀ c, .execute c ∉ ls) :
    t.performed = 0 := by
  simp only [Timer.step, Option.some.injEq] at hc; subst hc
  have hex : ∀ l ∈ ls, l.isExecute = false := by
    intro l hl
    cases l with
    | execute c => exact absurd hl (hls c)
    | _ => rfl
  have hw : t0.canc = none → t0.tasks.countP TimerTask.active = 0 := by
    refine runSteps_induct (R := fun t : Timer => t.canc = none → t.tasks.countP TimerTask.active = 0) ?_ before {} t0
      (fun _ => rfl) h0
    intro s l s' hi hs hn
    cases l with
    | execute cos =>
      simp only [Timer.step, Option.some.injEq] at hs; subst hs
      unfold Timer.execute at hn
      simp only at hn
      split at hn <;> cases hn
    | cancel =>
      simp only [Timer.step, Option.some.injEq] at hs; subst hs
      rw [Timer.cancel_eq] at hn ⊢
      exact hi hn
    | begin i p =>
      simp only [Timer.step] at hs
      split at hs
      · rename_i hii
        split at hs
        · simp only [Option.some.injEq] at hs; subst hs
          show (s.tasks.set _ _).countP _ = 0
          rw [countP_set_active hii rfl (by rfl)]; exact hi hn
        · simp only [Option.some.injEq] at hs; subst hs
          have := countP_set_ended hii rfl false
          have := hi hn
          show (s.tasks.set _ _).countP _ = 0
          omega
      · cases hs
    | resume i =>
      simp only [Timer.step] at hs
      split at hs
      · rename_i f d hii
        split at hs
        · simp only [Option.some.injEq] at hs; subst hs
          rw [Timer.fire_eq] at hn ⊢
          have := countP_set_ended hii rfl (match s.comp with | none => false | some f => !decide (f ∈ s.isDone))
          have := hi hn
          show (s.tasks.set _ _).countP _ = 0
          omega
        · cases hs
      · cases hs
    | tick => simp only [Timer.step, Option.some.injEq] at hs; subst hs; exact hi hn
    | emitShutdown => simp only [Timer.step, Option.some.injEq] at hs; subst hs; exact hi hn
    | process =>
      simp only [Timer.step] at hs
      unfold Timer.process at hs
      split at hs
      · cases hs
      · simp only [Option.some.injEq] at hs; subst hs; exact hi hn
      · simp only [Option.some.injEq] at hs; subst hs
        by_cases hch : s.cancelHandlers = 0
        · rw [if_pos hch] at hn ⊢; exact hi hn
        · rw [if_neg hch, Timer.cancel_eq] at hn ⊢; exact hi hn
  have hd : t0.cancel.Dead 0 := by
    have e := Timer.cancel_eq t0
    refine ⟨by rw [e]; exact hnf.1, by rw [e]; exact List.count_eq_zero.mpr hnf.2, ?_⟩
    cases hcn : t0.canc with
    | none => right; rw [e]; exact hw hcn
    | some f => left; exact Timer.cancel_cancelled t0 (by rw [hcn]; simp)
  exact (runSteps_induct' (R := fun t : Timer => t.Dead 0) (C := fun l => l.isExecute = false)
    (fun s l s' hl hi hs => hi.step (.inl hl) hs) ls _ _ hex hd h).performed

/-- A timer cancelled before it is executed performs nothing, however often it is executed later, and each execution completes
at once. -/
theorem C30_cancelled_before_execution (ls : List TimerLabel) (t : Timer)
    (h : runSteps Timer.step {} (.cancel :: ls) = some t) :
    t.performed = 0 ∧ t.queue.count .timer = 0 ∧ ∀ c, t.comp = some c → c ∈ t.isDone := by
  obtain ⟨t1, h1, h2⟩ := runSteps_cons h
  simp only [Timer.step, Option.some.injEq] at h1; subst h1
  have := runSteps_induct (R := fun t : Timer => t.canceled = true ∧ t.tasks = [] ∧ t.performed = 0 ∧
      t.queue.count .timer = 0 ∧ ∀ c, t.comp = some c → c ∈ t.isDone) ?_ ls _ t ⟨rfl, rfl, rfl, rfl, fun c hc => (by cases hc)⟩ h2
  · exact this.2.2
  · rintro s l s' ⟨a, b, c, d, e⟩ hs
    cases l with
    | execute cos =>
      simp only [Timer.step, Option.some.injEq] at hs; subst hs
      unfold Timer.execute
      simp only [a, if_true]
      exact ⟨trivial, b, c, d, fun x hx => by simp at hx; simp [hx]⟩
    | cancel =>
      simp only [Timer.step, Option.some.injEq] at hs; subst hs
      rw [Timer.cancel_eq]
      exact ⟨rfl, b, c, d, fun x hx => List.mem_append.mpr (.inl (e x hx))⟩
    | begin i p => simp [Timer.step, b] at hs
    | resume i => simp [Timer.step, b] at hs
    | tick => simp only [Timer.step, Option.some.injEq] at hs; subst hs; exact ⟨a, b, c, d, e⟩
    | emitShutdown =>
      simp only [Timer.step, Option.some.injEq] at hs; subst hs
      exact ⟨a, b, c, by simpa [List.count_append] using d, e⟩
    | process =>
      simp only [Timer.step] at hs
      unfold Timer.process at hs
      split at hs
      · cases hs
      · rename_i q hq; rw [hq] at d; simp at d
      · rename_i q hq
        rw [hq] at d
        have d' : q.count .timer = 0 := by simpa using d
        simp only [Option.some.injEq] at hs; subst hs
        split
        · exact ⟨a, b, c, d', e⟩
        · rw [Timer.cancel_eq]
          exact ⟨rfl, b, c, d', fun x hx => List.mem_append.mpr (.inl (e x hx))⟩

/-- Completion of a timer executed once: its completion future gets a result at most once, and as long as evaluating the period does not
raise (no task ended with an exception) it can get it: after enough time, and without any time if the timer
was cancelled. -/
theorem C30_completes_partial (ls : List TimerLabel) (t : Timer) (hb : ls.countP TimerLabel.isExecute = 1)
    (h : runSteps Timer.step {} ls = some t) (hok : .ended false ∉ t.tasks) (p : Nat) :
    ∃ c, t.comp = some c ∧ t.isDone.count c ≤ 1 ∧
      ∃ ls' t', runSteps Timer.step t ls' = some t' ∧ c ∈ t'.isDone ∧ t'.comp = some c ∧
        (∀ l ∈ ls', l = .tick ∨ l = .begin 0 (some p) ∨ l = .resume 0) ∧ (t.canceled = true → .tick ∉ ls') := by
  have hS := Timer.Single.reach (by omega) h
  have hx : t.executions = 1 := by rw [Timer.run_executions ls {} t h, hb]
  obtain ⟨a, b, c⟩ := hS.once hx
  refine ⟨0, a, List.nodup_iff_count.mp hS.nodup 0, ?_⟩
  rcases c with ⟨_, c⟩ | ⟨x, c, d, e, g⟩
  · exact ⟨[], t, rfl, c, a, by simp, by simp⟩
  · -- waiting `n` ticks
    have hticks : ∀ (n : Nat) (u : Timer), runSteps Timer.step u (List.replicate n .tick) = some { u with now := u.now + n } := by
      intro n
      induction n with
      | zero => intro u; rfl
      | succ n ih =>
        intro u
        rw [List.replicate_succ]
        simp only [runSteps, Timer.step]
        rw [ih]
        simp; omega
    -- from a waiting task
    have hwait : ∀ (u : Timer) (dl : Nat), u.comp = some 0 → u.tasks = [.waiting 1 dl] → (u.canceled = true ↔ 1 ∈ u.isDone) →
        0 ∉ u.isDone →
        ∃ ls' u', runSteps Timer.step u ls' = some u' ∧ 0 ∈ u'.isDone ∧ u'.comp = some 0 ∧
          (∀ l ∈ ls', l = .tick ∨ l = .resume 0) ∧ (u.canceled = true → .tick ∉ ls') := by
      intro u dl hc ht hcan h0
      by_cases hd : 1 ∈ u.isDone
      · refine ⟨[.resume 0], u.fire 0, by simp [runSteps, Timer.step, ht, hd], ?_, ?_, by simp, by simp⟩
        · rw [Timer.fire_eq]; simp [hc, h0]
        · rw [Timer.fire_eq]; exact hc
      · refine ⟨List.replicate dl .tick ++ [.resume 0], ({ u with now := u.now + dl } : Timer).fire 0, ?_, ?_, ?_, ?_, ?_⟩
        · rw [runSteps_append, hticks]
          simp [runSteps, Timer.step, ht]
        · rw [Timer.fire_eq]; simp [hc, h0]
        · rw [Timer.fire_eq]; exact hc
        · intro l hl
          rcases List.mem_append.mp hl with hl | hl
          · exact .inl (List.eq_of_mem_replicate hl)
          · exact .inr (by simpa using hl)
        · intro hcc; exact absurd (hcan.mp hcc) hd
    cases x with
    | ended ok =>
      cases ok with
      | true => exact ⟨[], t, rfl, e.mpr rfl, a, by simp, by simp⟩
      | false => rw [c] at hok; simp at hok
    | waiting f dl =>
      have := g f dl rfl
      subst this
      obtain ⟨ls', u', h1, h2, h3, h4, h5⟩ := hwait t dl a c d (fun h0 => by have := e.mp h0; cases this)
      exact ⟨ls', u', h1, h2, h3, fun l hl => (h4 l hl).imp id .inr, h5⟩
    | scheduled =>
      have h0 : 0 ∉ t.isDone := fun h0 => by have := e.mp h0; cases this
      obtain ⟨ls', u', h1, h2, h3, h4, h5⟩ := hwait { t with tasks := [.waiting 1 (t.now + p)] } (t.now + p) a rfl d h0
      refine ⟨.begin 0 (some p) :: ls', u', ?_, h2, h3, ?_, ?_⟩
      · simp only [runSteps, Timer.step, c, b]
        rw [b] at h1
        exact h1
      · intro l hl
        rcases List.mem_cons.mp hl with hl | hl
        · exact .inr (.inl hl)
        · exact (h4 l hl).imp id .inr
      · intro hcc hm
        rcases List.mem_cons.mp hm with hl | hl
        · cases hl
        · exact h5 hcc hl

/-- Handling Shutdown stops a timer with `cancel_on_shutdown` whose TimerEvent is not queued by then: nothing is performed
afterwards, unless it is executed again. -/
theorem C30_shutdown_partial (before ls : List TimerLabel) (t0 t1 t : Timer) (q : List TimerEv)
    (_h0 : runSteps Timer.step {} before = some t0) (hcos : t0.cancelHandlers ≠ 0) (hq : t0.queue = .shutdown :: q)
    (hnq : .timer ∉ q) (hc : t0.step .process = some t1) (h : runSteps Timer.step t1 ls = some t)
    (hls : ∀ c, .execute c ∉ ls) (hcanc : t0.canc ≠ none) : t.performed = t0.performed := by
  have hex : ∀ l ∈ ls, l.isExecute = false := by
    intro l hl
    cases l with
    | execute c => exact absurd hl (hls c)
    | _ => rfl
  simp only [Timer.step, Timer.process, hq, Option.some.injEq] at hc; subst hc
  rw [if_neg hcos] at h
  have hd : (Timer.cancel { t0 with queue := q }).Dead t0.performed := by
    have e := Timer.cancel_eq { t0 with queue := q }
    exact ⟨by rw [e], by rw [e]; exact List.count_eq_zero.mpr hnq, .inl (Timer.cancel_cancelled _ hcanc)⟩
  exact (runSteps_induct' (R := fun t : Timer => t.Dead t0.performed) (C := fun l => l.isExecute = false)
    (fun s l s' hl hi hs => hi.step (.inl hl) hs) ls _ _ hex hd h).performed

/-- The TimerEvent was queued behind Shutdown: the actions are performed after Shutdown was handled. -/
theorem C30_shutdown_queued_violated :
    (runSteps Timer.step {} [.execute (some true), .begin 0 (some 1), .emitShutdown, .tick, .resume 0, .process]).map
      (fun t => (t.cancelHandlers, t.canceled, t.queue, t.performed)) = some (1, true, [.timer], 0) ∧
    (runSteps Timer.step {} [.execute (some true), .begin 0 (some 1), .emitShutdown, .tick, .resume 0, .process, .process]).map
      (fun t => t.performed) = some 1 := by decide +kernel

/-- If evaluating the period raises when the task begins, the completion future never gets a result (and the run never becomes
idle), whatever happens, short of another execution. -/
theorem C30_period_error_violated (ls : List TimerLabel) (t : Timer)
    (h : runSteps Timer.step {} ([.execute (some true), .begin 0 none] ++ ls) = some t) (hls : ∀ c, .execute c ∉ ls) :
    t.comp = some 0 ∧ 0 ∉ t.isDone := by
  have h' : runSteps Timer.step
      ({ comp := some 0, canc := some 1, nextFut := 2, tasks := [.ended false], cancelHandlers := 1, installed := true, executions := 1 } : Timer)
      ls = some t := h
  have hS : ∀ l ∈ ls, l.isExecute = false := by
    intro l hl
    cases l with
    | execute c => exact absurd hl (hls c)
    | _ => rfl
  have hc0 : ls.countP TimerLabel.isExecute = 0 := List.countP_eq_zero.mpr fun l hl => by simp [hS l hl]
  have hsi := Timer.Single.run ls _ t ⟨fun hq => (by cases hq), fun _ => ⟨rfl, rfl, .inr ⟨.ended false, rfl, by simp, by simp, by simp⟩⟩,
    by simp, by simp⟩ (by simp [hc0]) h'
  have hex : t.executions = 1 := by rw [Timer.run_executions ls _ t h', hc0]
  have htk : t.tasks = [.ended false] := by
    refine runSteps_induct' (R := fun t : Timer => t.tasks = [.ended false]) (C := fun l => l.isExecute = false) ?_ ls _ t hS rfl h'
    intro s l s' hl hi hs
    cases l with
    | execute c => cases hl
    | cancel => simp only [Timer.step, Option.some.injEq] at hs; subst hs; rw [Timer.cancel_eq]; exact hi
    | begin i p => cases i <;> simp [Timer.step, hi] at hs
    | resume i => cases i <;> simp [Timer.step, hi] at hs
    | tick => simp only [Timer.step, Option.some.injEq] at hs; subst hs; exact hi
    | emitShutdown => simp only [Timer.step, Option.some.injEq] at hs; subst hs; exact hi
    | process =>
      simp only [Timer.step] at hs
      unfold Timer.process at hs
      split at hs
      · cases hs
      · simp only [Option.some.injEq] at hs; subst hs; exact hi
      · simp only [Option.some.injEq] at hs; subst hs
        split
        · exact hi
        · rw [Timer.cancel_eq]; exact hi
  obtain ⟨a, b, c⟩ := hsi.once hex
  refine ⟨a, ?_⟩
  rcases c with ⟨c, _⟩ | ⟨x, c, _, e, _⟩
  · rw [c] at htk; cases htk
  · rw [c] at htk
    simp only [List.cons.injEq, and_true] at htk
    intro h0
    have := e.mp h0
    rw [htk] at this; cases this

/-- A timer executed twice while the first wait is in progress: the first completion future never gets a result, the second task ends
with an exception. -/
theorem C30_executed_twice_violated :
    (runSteps Timer.step {} [.execute (some true), .begin 0 (some 1), .execute (some true), .begin 1 (some 1), .tick,
      .resume 0, .resume 1]).map (fun t => (t.isDone, t.tasks)) = some ([2], [.ended true, .ended false]) := by decide +kernel

/-- A timer that fires. -/
example : (runSteps Timer.step {} [.execute (some true), .begin 0 (some 2), .tick, .tick, .resume 0, .process]).map
    (fun t => (t.performed, t.isDone, t.comp)) = some (1, [0], some 0) ∧
    runSteps Timer.step {} [.execute (some true), .begin 0 (some 2), .tick, .resume 0] = none := by decide +kernel

/-- A timer that is cancelled while waiting, by a call or by Shutdown. -/
example : (runSteps Timer.step {} [.execute (some true), .begin 0 (some 2), .tick, .cancel, .tick, .resume 0]).map
    (fun t => (t.queue, t.isDone)) = some ([], [1, 0]) ∧
    (runSteps Timer.step {} [.execute (some true), .begin 0 (some 2), .emitShutdown, .process, .resume 0]).map
    (fun t => (t.queue, t.isDone)) = some ([], [1, 0]) := by decide +kernel

end Verif
