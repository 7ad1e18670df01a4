import Verif.Lemmas.Run

/-!
# The invariants behind the end of a run and its return code
-/

namespace Verif

theorem isDone_iff {s : Svc} {f : Nat} : s.isDone f = true ↔ ∃ r, s.fin.lookup f = some r := by
  unfold Svc.isDone
  exact Option.isSome_iff_exists

/-- A done future stays done. -/
theorem isDone_mono {P : Prog} {s s' : Svc} (h : SMono P s s') {f : Nat} (hd : s.isDone f = true) :
    s'.isDone f = true := by
  obtain ⟨r, hr⟩ := isDone_iff.mp hd
  exact isDone_iff.mpr ⟨r, h.fin f r hr⟩

/-- A future ended otherwise than by returning. -/
def Svc.Broken (s : Svc) (r : FutRes) : Prop := ∃ f, s.fin.lookup f = some r

theorem Svc.Broken.mono {P : Prog} {s s' : Svc} (h : SMono P s s') {r : FutRes} (hd : s.Broken r) : s'.Broken r := by
  obtain ⟨f, hf⟩ := hd; exact ⟨f, h.fin f r hf⟩

theorem prune_isDone (s : Svc) (f : Nat) : s.prune.isDone f = s.isDone f := rfl

/-- Idleness as the code computes it is idleness as specified. -/
theorem isIdle_prune (s : Svc) : s.prune.isIdle = true ↔ s.Idle := by
  unfold Svc.isIdle
  simp only [Bool.and_eq_true, beq_iff_eq, Nat.add_eq_zero_iff, List.length_eq_zero_iff, List.isEmpty_iff]
  constructor
  · rintro ⟨⟨h1, h2⟩, h3⟩
    refine ⟨h3, fun p hp => ?_, fun f hf => ?_⟩
    · simp only [Svc.prune, List.filter_eq_nil_iff] at h1
      have := h1 p hp
      simpa using this
    · simp only [Svc.prune, List.filter_eq_nil_iff] at h2
      have := h2 f hf
      simpa using this
  · rintro ⟨h1, h2, h3⟩
    refine ⟨⟨?_, ?_⟩, h1⟩
    · simp only [Svc.prune, List.filter_eq_nil_iff]
      intro p hp; simp [h2 p hp]
    · simp only [Svc.prune, List.filter_eq_nil_iff]
      intro f hf; simp [h3 f hf]

/-- What holds in every reachable state; `T`: other threads may have finished `shutdown()`. -/
structure RunInv (T : Prop) (s : Svc) : Prop where
  /-- after the loop -/
  ending : s.pc = .ending → s.wasCancelled = true ∨ (s.Broken .cancelled ∧ s.rc = true) ∨ (s.shutting = true ∧ s.Idle)
  coll : ∀ p ∈ s.collected, p ∈ s.pairs ∨ s.isDone p.2 = true
  ev : s.evFailed = true → s.rc = true ∨ (s.task = .done false ∧ s.pc.isWaiting = true)
  lf : s.loopFailed = true ∨ s.wasCancelled = true → s.rc = true
  rc : s.rc = true → s.evFailed = true ∨ s.loopFailed = true ∨ s.wasCancelled = true ∨ s.Broken .failed ∨
    s.Broken .cancelled
  task : s.task = .done false → s.evFailed = true
  /-- the futures waited for -/
  fs : ∀ fs, s.pc = .waiting fs → s.task = .pending → ∀ f ∈ fs, f ∈ s.pairs.map (·.2) ∨ f ∈ s.ctx.completion
  /-- a wait for nothing -/
  stuck : s.pc = .waiting [] → s.ctx.queue = [] → s.task = .pending →
    s.whenIdle = false ∧ (T ∨ s.shutting = false ∨ s.coros ≠ 0)

theorem Svc.Idle.mono {P : Prog} {s s' : Svc} (h : SMono P s s') (h1 : s'.ctx.queue = s.ctx.queue) (h2 : s'.pairs = s.pairs)
    (h3 : s'.ctx.completion = s.ctx.completion) (hi : s.Idle) : s'.Idle :=
  ⟨by rw [h1]; exact hi.queue, fun p hp => isDone_mono h (hi.pairs p (h2 ▸ hp)),
    fun f hf => isDone_mono h (hi.completion f (h3 ▸ hf))⟩

/-- Steps that only touch flags, and possibly add events while the run loop is not after its end. -/
theorem RunInv.quiet {T : Prop} {P : Prog} {s s' : Svc} (h : RunInv T s) (hm : SMono P s s') (h1 : s'.pc = s.pc)
    (h2 : s'.pairs = s.pairs) (h3 : s'.ctx.completion = s.ctx.completion) (h4 : s'.collected = s.collected)
    (h5 : s'.evFailed = s.evFailed) (h6 : s'.loopFailed = s.loopFailed) (h7 : s'.wasCancelled = s.wasCancelled)
    (h8 : s'.rc = s.rc) (h9 : s'.task = s.task) (h10 : s'.whenIdle = s.whenIdle)
    (h11 : s.pc = .ending → s.shutting = true → s.ctx.queue = [] → s'.shutting = true ∧ s'.ctx.queue = [])
    (h12 : s'.ctx.queue = [] → s.ctx.queue = [] ∧
      ((s'.shutting = true → s.shutting = true ∧ s'.coros = s.coros) ∨ s'.coros ≠ 0)) : RunInv T s' := by
  refine ⟨fun hp => ?_, ?_, ?_, ?_, ?_, ?_, ?_, ?_⟩
  · rw [h1] at hp
    rw [h7]
    rcases h.ending hp with hc | hc | ⟨hc, hi⟩
    · exact .inl hc
    · exact .inr (.inl ⟨Svc.Broken.mono hm hc.1, by rw [h8]; exact hc.2⟩)
    · obtain ⟨a, b⟩ := h11 hp hc hi.queue
      exact .inr (.inr ⟨a, Svc.Idle.mono hm (by rw [b, hi.queue]) h2 h3 hi⟩)
  · rw [h4, h2]
    intro p hp
    exact (h.coll p hp).imp id (fun hd => isDone_mono hm hd)
  · rw [h5, h8, h9, h1]; exact h.ev
  · rw [h6, h7, h8]; exact h.lf
  · rw [h5, h6, h7, h8]
    intro hr
    rcases h.rc hr with a | a | a | a | a
    · exact .inl a
    · exact .inr (.inl a)
    · exact .inr (.inr (.inl a))
    · exact .inr (.inr (.inr (.inl (Svc.Broken.mono hm a))))
    · exact .inr (.inr (.inr (.inr (Svc.Broken.mono hm a))))
  · rw [h5, h9]; exact h.task
  · rw [h1, h2, h3, h9]; exact h.fs
  · rw [h1, h9, h10]
    intro a b c
    obtain ⟨d, e⟩ := h12 b
    obtain ⟨f, g⟩ := h.stuck a d c
    refine ⟨f, ?_⟩
    cases hs : s'.shutting with
    | false => exact .inr (.inl rfl)
    | true =>
      rcases e with e | e
      · obtain ⟨e1, e2⟩ := e hs
        rw [e1] at g
        rw [e2]; rcases g with g | g | g
        · exact .inl g
        · cases g
        · exact .inr (.inr g)
      · exact .inr (.inr e)

theorem RunInv.prune {T : Prop} {s : Svc} (h : RunInv T s) (hp : s.pc = .top) : RunInv T s.prune := by
  refine ⟨fun hq => (by rw [show s.prune.pc = s.pc from rfl, hp] at hq; cases hq), fun p hpc => ?_, h.ev, h.lf, h.rc, h.task,
    fun fs hq => (by rw [show s.prune.pc = s.pc from rfl, hp] at hq; cases hq),
    fun hq => (by rw [show s.prune.pc = s.pc from rfl, hp] at hq; cases hq)⟩
  rcases h.coll p hpc with hd | hd
  · by_cases hx : s.isDone p.2 = true
    · exact .inr hx
    · left
      exact List.mem_filter.mpr ⟨hd, by simp [hx]⟩
  · exact .inr hd

theorem RunInv.request {T : Prop} {s : Svc} (h : RunInv T s) (hp : s.pc ≠ .ending) (r : String) (b : Bool) :
    RunInv T (s.request r b) := by
  refine h.quiet (P := {}) (request_mono {} r b s) ?_ ?_ ?_ ?_ ?_ ?_ ?_ ?_ ?_ ?_ (fun hq => absurd hq hp) ?_
  all_goals unfold Svc.request; split
  all_goals first | rfl | skip
  · rename_i hs
    intro hq
    exact ⟨hq, .inl fun _ => ⟨hs, rfl⟩⟩
  · intro hq
    simp [Svc.setFlags, Svc.emitShutdown, Ctx.emit] at hq

theorem RunInv.check {T : Prop} {s : Svc} (h : RunInv T s) (hp : s.pc = .top) : RunInv T s.check := by
  have hpr := h.prune hp
  have hpt : s.prune.pc = .top := hp
  have ev : s.evFailed = true → s.rc = true := fun he => by
    rcases h.ev he with a | ⟨_, a⟩
    · exact a
    · rw [hp] at a; cases a
  unfold Svc.check
  simp only
  split
  · exact hpr.request (by rw [hpt]; simp) _ _
  · rename_i hn
    split
    · rename_i hy
      simp only [Bool.and_eq_true] at hy
      refine ⟨fun _ => .inr (.inr ⟨hy.1, ?_⟩), hpr.coll, fun he => .inl (ev he), hpr.lf, hpr.rc, fun hq => (by cases hq),
        fun fs hq => (by cases hq), fun hq => (by cases hq)⟩
      have hi := (isIdle_prune s).mp hy.2
      exact ⟨hi.queue, fun p hq => hi.pairs p (List.mem_filter.mp hq).1,
        fun f hq => hi.completion f (List.mem_filter.mp hq).1⟩
    · rename_i hy
      refine ⟨fun hq => (by cases hq), hpr.coll, fun he => .inl (ev he), hpr.lf, hpr.rc, fun hq => (by cases hq),
        fun fs hq _ f hf => ?_, fun hq hq2 _ => ?_⟩
      · simp only [Pc.waiting.injEq] at hq
        rw [← hq] at hf
        split at hf
        · exact List.mem_append.mp hf
        · cases hf
      · simp only [Pc.waiting.injEq] at hq
        have hq2' : s.prune.ctx.queue = [] := hq2
        rw [hq2'] at hq
        simp only [List.isEmpty_nil, if_true, List.append_eq_nil_iff, List.map_eq_nil_iff] at hq
        have hidle : s.prune.isIdle = true := by
          unfold Svc.isIdle
          rw [hq.1, hq.2, hq2']; rfl
        rw [hidle] at hn hy
        simp only [Bool.and_true, Bool.and_eq_true, Bool.not_eq_true', not_and, Bool.not_eq_true] at hn hy
        exact ⟨hn hy, .inr (.inl hy)⟩

/-- Changing where the loop is, away from a wait. -/
theorem RunInv.start {T : Prop} {s : Svc} (h : RunInv T s) (w : Bool) (hl : s.pc = .off ∨ s.pc.isWaiting = true) :
    RunInv T (s.start w) := by
  unfold Svc.start
  split
  · refine h.quiet (P := {}) (SMono.same rfl rfl rfl rfl rfl rfl rfl rfl) rfl rfl rfl rfl rfl rfl rfl rfl rfl rfl ?_ ?_
    · intro hp; rcases hl with hl | hl <;> rw [hp] at hl <;> cases hl
    · intro hq; exact ⟨hq, .inl fun hs => by cases hs⟩
  · exact ⟨fun hq => (by cases hq), h.coll, fun hq => (by cases hq), fun hq => (by rcases hq with hq | hq <;> cases hq),
      fun hq => (by cases hq), fun hq => (by cases hq), fun fs hq => (by cases hq), fun hq => (by cases hq)⟩


theorem RunInv.process {T : Prop} {P : Prog} {O : Oracle} {fuel : Nat} {s s' : Svc} (h : RunInv T s) (hw : s.pc.isWaiting = true)
    (ht : s.task = .pending) (hs : s.process P O fuel = some s') : RunInv T s' := by
  have hm := process_mono hs
  obtain ⟨e, q, p, r, hq, hp, rfl⟩ := process_inv hs
  obtain ⟨hpm, _, _⟩ := handleAll_facts _ hp
  obtain ⟨t, ht'⟩ := hpm.pairs
  refine ⟨fun hp => (by rw [show s.pc = .ending from hp] at hw; cases hw), fun x hx => ?_, fun he => ?_, h.lf, fun hr => ?_,
    fun hd => ?_, fun fs _ hd => (by cases hd), fun _ _ hd => (by cases hd)⟩
  · rcases List.mem_append.mp hx with hx | hx
    · rcases h.coll x hx with hd | hd
      · left
        show x ∈ p.pairs
        rw [ht']; exact List.mem_append.mpr (.inl hd)
      · exact .inr hd
    · exact .inl (List.mem_of_mem_drop hx)
  · cases r with
    | error err => exact .inr ⟨rfl, hw⟩
    | ok u =>
      simp only [Bool.not_true, Bool.or_false] at he
      rcases h.ev he with a | ⟨a, _⟩
      · exact .inl a
      · rw [ht] at a; cases a
  · rcases h.rc hr with a | a
    · left; show (s.evFailed || _) = true; rw [a]; rfl
    · exact .inr a
  · cases r with
    | error err => simp
    | ok u => cases hd

theorem RunInv.wake {T : Prop} {fs : List Nat} {s s' : Svc} (h : RunInv T s) (hw : s.pc = .waiting fs) (hs : s.wake fs = some s') :
    RunInv T s' := by
  have ends : ∀ r : FutRes, r ∈ (fs.filterMap fun f => s.fin.lookup f) → s.Broken r := by
    intro r hr
    obtain ⟨f, _, hf⟩ := List.mem_filterMap.mp hr
    exact ⟨f, hf⟩
  unfold Svc.wake at hs
  simp only at hs
  split at hs
  · cases hs
  · split at hs
    · rename_i hc
      simp only [Option.some.injEq] at hs; subst hs
      exact ⟨fun _ => .inr (.inl ⟨ends _ hc, rfl⟩), h.coll, fun _ => .inl rfl, fun _ => rfl,
        fun _ => .inr (.inr (.inr (.inr (ends _ hc)))), h.task, fun fs hq => (by cases hq), fun hq => (by cases hq)⟩
    · split at hs
      · rename_i hf
        simp only [Option.some.injEq] at hs; subst hs
        have hr := h.request (by rw [hw]; simp) "Caught exception in launch" false
        refine ⟨fun hq => (by cases hq), hr.coll, fun _ => .inl rfl, fun _ => rfl, fun _ => ?_, hr.task,
          fun fs hq => (by cases hq), fun hq => (by cases hq)⟩
        simp only [Bool.or_eq_true, decide_eq_true_eq] at hf
        have e1 : (s.request "Caught exception in launch" false).evFailed = s.evFailed := by
          unfold Svc.request; split <;> rfl
        have e2 : (s.request "Caught exception in launch" false).fin = s.fin := by
          unfold Svc.request; split <;> rfl
        rcases hf with hf | hf
        · right; right; right; left
          obtain ⟨f, hf⟩ := ends _ hf
          exact ⟨f, by show (s.request _ _).fin.lookup f = _; rw [e2]; exact hf⟩
        · left
          show (s.request _ _).evFailed = true
          rw [e1]; exact h.task hf
      · rename_i hf
        simp only [Option.some.injEq] at hs; subst hs
        refine ⟨fun hq => (by cases hq), h.coll, fun he => ?_, h.lf, h.rc, h.task,
          fun fs hq => (by cases hq), fun hq => (by cases hq)⟩
        simp only [Bool.or_eq_true, decide_eq_true_eq, not_or] at hf
        rcases h.ev he with a | ⟨a, _⟩
        · exact .inl a
        · exact absurd a hf.2

theorem RunInv.step {T : Prop} {P : Prog} {O : Oracle} {s s' : Svc} {l : Label} (h : RunInv T s)
    (hT : T ∨ l ≠ .threadFlags) (hs : s.step P O l = some s') :
    RunInv T s' := by
  have hm := step_mono hs
  cases l with
  | start w =>
    simp only [Svc.step] at hs
    split at hs
    · rename_i hc
      simp only [Option.some.injEq] at hs; subst hs
      simp only [Bool.or_eq_true, decide_eq_true_eq, Bool.and_eq_true] at hc
      exact h.start w (hc.imp id (·.2))
    · cases hs
  | check =>
    simp only [Svc.step] at hs
    split at hs
    · rename_i hp; simp only [Option.some.injEq] at hs; subst hs; exact h.check hp
    · cases hs
  | process fuel =>
    simp only [Svc.step] at hs
    split at hs
    · rename_i hc
      simp only [Bool.and_eq_true, decide_eq_true_eq] at hc
      exact h.process hc.1 hc.2 hs
    · cases hs
  | wake =>
    simp only [Svc.step] at hs
    split at hs
    · rename_i fs hp; exact h.wake hp hs
    · cases hs
  | cancel =>
    simp only [Svc.step] at hs
    split at hs
    · simp only [Option.some.injEq] at hs; subst hs
      exact ⟨fun _ => .inl rfl, h.coll, fun _ => .inl rfl, fun _ => rfl, fun _ => .inr (.inr (.inl rfl)), h.task,
        fun fs hq => (by cases hq), fun hq => (by cases hq)⟩
    · cases hs
  | sigint =>
    simp only [Svc.step] at hs
    split at hs
    · rename_i hw
      simp only [Option.some.injEq] at hs; subst hs
      split
      · exact h
      · have hr := h.request (by intro hp; rw [hp] at hw; cases hw) "ctrl-c (SIGINT)" true
        exact hr.quiet (P := {}) (SMono.same rfl rfl rfl rfl rfl rfl rfl rfl) rfl rfl rfl rfl rfl rfl rfl rfl rfl rfl
          (fun _ hx hq => ⟨hx, hq⟩) (fun hq => ⟨hq, .inl fun hx => ⟨hx, rfl⟩⟩)
    · cases hs
  | shutdownLoop =>
    simp only [Svc.step] at hs
    split at hs
    · rename_i hc
      simp only [Bool.and_eq_true, decide_eq_true_eq] at hc
      simp only [Option.some.injEq] at hs; subst hs
      split
      · split
        · rename_i hsh
          exact h.quiet (P := {}) (SMono.same rfl rfl rfl rfl rfl rfl rfl rfl) rfl rfl rfl rfl rfl rfl rfl rfl rfl rfl
            (fun hp => absurd hp hc.2) (fun hq => ⟨hq, .inl fun _ => ⟨hsh, rfl⟩⟩)
        · exact h.quiet (P := {}) (SMono.same rfl rfl rfl rfl rfl rfl rfl rfl) rfl rfl rfl rfl rfl rfl rfl rfl rfl rfl
            (fun hp => absurd hp hc.2) (fun hq => ⟨hq, .inr (by simp [Svc.setFlags])⟩)
      · exact h
    · cases hs
  | shutdownSync =>
    simp only [Svc.step] at hs
    split at hs
    · rename_i hc
      simp only [Bool.and_eq_true, decide_eq_true_eq] at hc
      simp only [Option.some.injEq] at hs; subst hs
      split
      · exact h.request hc.2 _ _
      · exact h
    · cases hs
  | awaitShutdown =>
    simp only [Svc.step] at hs
    split at hs
    · cases hs
    · rename_i hc
      simp only [Bool.or_eq_true, decide_eq_true_eq, not_or] at hc
      simp only [Option.some.injEq] at hs; subst hs
      exact h.quiet hm rfl rfl rfl rfl rfl rfl rfl rfl rfl rfl (fun hp => absurd hp hc.2)
        (fun hq => by simp [Svc.emitShutdown, Ctx.emit] at hq)
  | threadShutdown =>
    simp only [Svc.step] at hs
    split at hs
    · simp only [Option.some.injEq] at hs; subst hs
      split
      · split
        · rename_i hsh
          exact h.quiet (P := {}) (SMono.same rfl rfl rfl rfl rfl rfl rfl rfl) rfl rfl rfl rfl rfl rfl rfl rfl rfl rfl
            (fun _ _ hq => ⟨rfl, hq⟩) (fun hq => ⟨hq, .inl fun _ => ⟨hsh, rfl⟩⟩)
        · exact h.quiet (P := {}) (SMono.same rfl rfl rfl rfl rfl rfl rfl rfl) rfl rfl rfl rfl rfl rfl rfl rfl rfl rfl
            (fun _ hx hq => ⟨hx, hq⟩) (fun hq => ⟨hq, .inl fun hx => ⟨hx, rfl⟩⟩)
      · exact h
    · cases hs
  | threadEmit =>
    simp only [Svc.step] at hs
    split at hs
    · rename_i hc
      simp only [Bool.and_eq_true, decide_eq_true_eq] at hc
      simp only [Option.some.injEq] at hs; subst hs
      exact h.quiet hm rfl rfl rfl rfl rfl rfl rfl rfl rfl rfl (fun hp => by rw [hp] at hc; cases hc.2)
        (fun hq => by simp [Svc.emitShutdown, Ctx.emit] at hq)
    · cases hs
  | threadFlags =>
    simp only [Svc.step] at hs
    split at hs
    · simp only [Option.some.injEq] at hs; subst hs
      refine ⟨fun hp => ?_, h.coll, h.ev, h.lf, h.rc, h.task, h.fs, fun a b c => ⟨(h.stuck a b c).1, ?_⟩⟩
      · rcases h.ending hp with a | a | ⟨_, a⟩
        · exact .inl a
        · exact .inr (.inl a)
        · exact .inr (.inr ⟨rfl, a.queue, a.pairs, a.completion⟩)
      · exact .inl (hT.resolve_right (by simp))
    · cases hs
  | finish =>
    simp only [Svc.step] at hs
    split at hs
    · rename_i hc
      simp only [Bool.and_eq_true, decide_eq_true_eq] at hc
      simp only [Option.some.injEq] at hs; subst hs
      refine ⟨fun hq => (by cases hq), h.coll, fun he => .inl ?_, h.lf, h.rc, h.task, fun fs hq => (by cases hq),
        fun hq => (by cases hq)⟩
      rcases h.ev he with a | ⟨_, a⟩
      · exact a
      · rw [hc.1] at a; cases a
    · cases hs
  | emit e =>
    simp only [Svc.step] at hs
    split at hs
    · cases hs
    · rename_i hc
      simp only [Option.some.injEq] at hs; subst hs
      exact h.quiet hm rfl rfl rfl rfl rfl rfl rfl rfl rfl rfl (fun hp => absurd hp hc)
        (fun hq => by simp [Ctx.emit] at hq)
  | futureDone f r =>
    simp only [Svc.step] at hs
    split at hs
    · cases hs
    · simp only [Option.some.injEq] at hs; subst hs
      exact h.quiet hm rfl rfl rfl rfl rfl rfl rfl rfl rfl rfl (fun _ hx hq => ⟨hx, hq⟩)
        (fun hq => ⟨hq, .inl fun hx => ⟨hx, rfl⟩⟩)
  | callback i =>
    simp only [Svc.step] at hs
    split at hs
    · cases hs
    · split at hs
      · rename_i hc
        simp only [Bool.and_eq_true, decide_eq_true_eq] at hc
        simp only [Option.some.injEq] at hs; subst hs
        exact h.quiet hm rfl rfl rfl rfl rfl rfl rfl rfl rfl rfl (fun hp => absurd hp hc.2)
          (fun hq => by simp [Ctx.emit] at hq)
      · cases hs
  | loopException =>
    simp only [Svc.step] at hs
    split at hs
    · rename_i hw
      simp only [Option.some.injEq] at hs; subst hs
      exact ⟨fun hp => (by rw [show s.pc = .ending from hp] at hw; cases hw), h.coll, fun _ => .inl rfl, fun _ => rfl,
        fun _ => .inr (.inl rfl), h.task, h.fs, h.stuck⟩
    · cases hs


theorem RunInv.reach {P : Prog} {O : Oracle} {env : Dict String} {ls : List Label} {s : Svc}
    (h : (Svc.init env).Reaches P O ls s) : RunInv (.threadFlags ∈ ls) s := by
  refine steps_induct' (P := P) (O := O) (L := fun l => .threadFlags ∈ ls ∨ l ≠ .threadFlags)
    (fun s l s' hl hi hs => hi.step hl hs) ls _ _ (fun l hl => ?_) ?_ h
  · by_cases hx : l = .threadFlags
    · exact .inl (hx ▸ hl)
    · exact .inr hx
  · exact ⟨fun hq => (by cases hq), fun p hp => (by cases hp), fun hq => (by cases hq),
      fun hq => (by rcases hq with hq | hq <;> cases hq), fun hq => (by cases hq), fun hq => (by cases hq),
      fun fs hq => (by cases hq), fun hq => (by cases hq)⟩

end Verif
