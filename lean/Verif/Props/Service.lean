import Verif.Lemmas.Shutdown
import Verif.Lemmas.Ending
import Verif.Lemmas.Futures
import Verif.Props.Events

/-!
# Shutdown, return code and idleness: C26–C29, C59
-/

namespace Verif

/-! ## C26 Shutdown is announced exactly once per run -/

/-- In one run (the steps `ls` after a successful start) the service emits at most one Shutdown event, plus at most one for
each call of `shutdown()` made in another thread during the run. -/
theorem C26_bound (P : Prog) (O : Oracle) (env : Dict String) (before ls : List Label) (w : Bool) (s0 s1 s2 : Svc)
    (h0 : (Svc.init env).Reaches P O before s0) (hoff : s0.pc = .off) (hc : s0.coros = 0) (hst : s0.stage = .no)
    (h1 : s0.step P O (.start w) = some s1) (h2 : s1.Reaches P O ls s2) (hls : ∀ w, .start w ∉ ls) :
    s2.own ≤ 1 + ls.count .threadShutdown := by
  have hloop : s0.loop = false := by
    cases hl : s0.loop with
    | false => rfl
    | true => exact absurd hoff (loop_running_reach h0 hl)
  simp only [Svc.step, hoff, decide_true, Bool.true_or, if_true, Option.some.injEq] at h1
  have hi : ShutInv 0 s1 := by
    subst h1
    unfold Svc.start
    simp only [hloop, Bool.false_eq_true, if_false]
    have hz : ∀ x : Svc, x.own = 0 → x.coros = 0 → x.stage = .no → x.announcements = 0 := by
      intro x a b c; simp [Svc.announcements, a, b, c]
    refine ⟨?_, fun _ _ => ?_, fun _ => by simp⟩
    · exact Nat.le_trans (Nat.le_of_eq (hz _ rfl hc hst)) (by omega)
    · exact Nat.le_of_eq (hz _ rfl hc hst)
  have := (ShutInv.steps ls 0 s1 s2 hi hls h2).bound
  have hle : s2.own ≤ s2.announcements := by unfold Svc.announcements; omega
  have e : threadCalls ls = ls.count .threadShutdown := rfl
  omega

/-- If `shutdown()` is not called in other threads, the service emits at most one Shutdown event per run,
whatever the order and number of idle checks, exceptions, SIGINTs and calls in the loop's thread. -/
theorem C26_at_most_once_partial (P : Prog) (O : Oracle) (env : Dict String) (before ls : List Label) (w : Bool)
    (s0 s1 s2 : Svc) (h0 : (Svc.init env).Reaches P O before s0) (hoff : s0.pc = .off) (hc : s0.coros = 0)
    (hst : s0.stage = .no) (h1 : s0.step P O (.start w) = some s1) (h2 : s1.Reaches P O ls s2)
    (hls : ∀ w, .start w ∉ ls) (ht : .threadShutdown ∉ ls) : s2.own ≤ 1 := by
  have := C26_bound P O env before ls w s0 s1 s2 h0 hoff hc hst h1 h2 hls
  rw [List.count_eq_zero.mpr ht] at this
  exact this

/-- `own` is what it is meant to be: the Shutdown events emitted other than by user code. -/
theorem C26_own_counts (P : Prog) (O : Oracle) (s s' : Svc) (l : Label) (h : s.step P O l = some s')
    (hl : (∀ w, l ≠ .start w) ∧ (∀ f, l ≠ .process f) ∧ ∀ e, l ≠ .emit e) :
    (s'.ctx.emitted.filter Event.isShutdown).length - (s.ctx.emitted.filter Event.isShutdown).length =
      s'.own - s.own := by
  have hreq : ∀ (s : Svc) r b, ((s.request r b).ctx.emitted.filter Event.isShutdown).length -
      (s.ctx.emitted.filter Event.isShutdown).length = (s.request r b).own - s.own := by
    intro s r b
    unfold Svc.request
    split
    · simp [Svc.setFlags]
    · simp [Svc.setFlags, Svc.emitShutdown, Ctx.emit, List.filter_append]; rfl
  cases l with
  | start w => exact absurd rfl (hl.1 w)
  | process f => exact absurd rfl (hl.2.1 f)
  | emit e => exact absurd rfl (hl.2.2 e)
  | check =>
    simp only [Svc.step] at h
    split at h
    · simp only [Option.some.injEq] at h; subst h
      unfold Svc.check
      simp only
      split
      · exact hreq s.prune _ _
      · split <;> simp [Svc.prune]
    · cases h
  | wake =>
    simp only [Svc.step] at h
    split at h
    · unfold Svc.wake at h
      simp only at h
      split at h
      · cases h
      · split at h
        · simp only [Option.some.injEq] at h; subst h; simp
        · split at h
          · simp only [Option.some.injEq] at h; subst h; exact hreq s _ _
          · simp only [Option.some.injEq] at h; subst h; simp
    · cases h
  | sigint =>
    simp only [Svc.step] at h
    split at h
    · simp only [Option.some.injEq] at h; subst h
      split
      · simp
      · exact hreq s _ _
    · cases h
  | shutdownSync =>
    simp only [Svc.step] at h
    split at h
    · simp only [Option.some.injEq] at h; subst h
      split
      · exact hreq s _ _
      · simp
    · cases h
  | shutdownLoop =>
    simp only [Svc.step] at h
    split at h
    · simp only [Option.some.injEq] at h; subst h
      split
      · split <;> simp [Svc.setFlags]
      · simp
    · cases h
  | threadShutdown =>
    simp only [Svc.step] at h
    split at h
    · simp only [Option.some.injEq] at h; subst h
      split
      · split <;> simp [Svc.setFlags]
      · simp
    · cases h
  | callback i =>
    simp only [Svc.step] at h
    repeat' split at h
    all_goals first | (cases h; done) | skip
    simp only [Option.some.injEq] at h; subst h
    simp [Ctx.emit, List.filter_append, Event.isShutdown]
  | _ =>
    simp only [Svc.step] at h
    split at h
    all_goals first | (cases h; done) | (simp only [Option.some.injEq] at h; subst h; first | (simp [Svc.setFlags, Svc.emitShutdown, Ctx.emit, List.filter_append]; done) | (simp [Svc.emitShutdown, Ctx.emit, List.filter_append]; rfl))

/-- Once shutdown was requested the service reports it, and the context does, until the run ends. -/
theorem C26_stays_shutting_down (P : Prog) (O : Oracle) (s s' : Svc) (ls : List Label) (h : s.Reaches P O ls s')
    (hs : s.shutting = true ∧ s.ctx.isShutdown = true) (hl : .finish ∉ ls ∧ ∀ w, .start w ∉ ls) :
    s'.shutting = true ∧ s'.ctx.isShutdown = true := by
  refine steps_induct' (P := P) (O := O) (R := fun s => s.shutting = true ∧ s.ctx.isShutdown = true)
    (L := fun l => l ≠ .finish ∧ ∀ w, l ≠ .start w) ?_ ls s s'
    (fun l hm => ⟨fun he => hl.1 (he ▸ hm), fun w he => hl.2 w (he ▸ hm)⟩) hs h
  intro s l s' hl hs h
  have hreq : ∀ (s : Svc) r b, (s.request r b).shutting = true ∧ (s.request r b).ctx.isShutdown = true :=
    fun _ _ _ => ⟨rfl, rfl⟩
  cases l with
  | start w => exact absurd rfl (hl.2 w)
  | finish => exact absurd rfl hl.1
  | check =>
    simp only [Svc.step] at h
    split at h
    · simp only [Option.some.injEq] at h; subst h
      unfold Svc.check
      simp only
      repeat' split
      all_goals first | exact hreq _ _ _ | exact hs
    · cases h
  | process fuel =>
    simp only [Svc.step] at h
    split at h
    · obtain ⟨e, q, p, r, hq, hp, rfl⟩ := process_inv h
      obtain ⟨hm, _, _⟩ := handleAll_facts _ hp
      exact ⟨hm.shutting hs.1, hm.flag hs.2⟩
    · cases h
  | wake =>
    simp only [Svc.step] at h
    split at h
    · unfold Svc.wake at h
      simp only at h
      repeat' split at h
      all_goals first | (cases h; done) | skip
      all_goals (simp only [Option.some.injEq] at h; subst h; first | exact hs | exact hreq _ _ _)
    · cases h
  | sigint =>
    simp only [Svc.step] at h
    split at h
    · simp only [Option.some.injEq] at h; subst h
      split
      · exact hs
      · exact hreq _ _ _
    · cases h
  | shutdownSync =>
    simp only [Svc.step] at h
    split at h
    · simp only [Option.some.injEq] at h; subst h
      split
      · exact hreq _ _ _
      · exact hs
    · cases h
  | shutdownLoop =>
    simp only [Svc.step] at h
    split at h
    · simp only [Option.some.injEq] at h; subst h
      split
      · exact ⟨rfl, rfl⟩
      · exact hs
    · cases h
  | threadShutdown =>
    simp only [Svc.step] at h
    split at h
    · simp only [Option.some.injEq] at h; subst h
      split
      · split
        · exact ⟨rfl, rfl⟩
        · exact hs
      · exact hs
    · cases h
  | callback i =>
    simp only [Svc.step] at h
    repeat' split at h
    all_goals first | (cases h; done) | skip
    simp only [Option.some.injEq] at h; subst h
    exact hs
  | _ =>
    simp only [Svc.step] at h
    split at h
    all_goals first | (cases h; done) | (simp only [Option.some.injEq] at h; subst h; first | exact hs | exact ⟨rfl, rfl⟩)

/-- A request does set the flags: SIGINT, `shutdown()` in the loop's thread or in another one, `shutdown(force_sync=True)`. -/
theorem C26_request_sets_flags (P : Prog) (O : Oracle) (s s' : Svc) :
    (s.sigint = false → s.step P O .sigint = some s' → s'.shutting = true ∧ s'.ctx.isShutdown = true) ∧
    (s.loop = true → s.step P O .shutdownLoop = some s' → s'.shutting = true ∧ s'.ctx.isShutdown = true) ∧
    (s.loop = true → s.step P O .shutdownSync = some s' → s'.shutting = true ∧ s'.ctx.isShutdown = true) ∧
    (s.step P O .threadFlags = some s' → s'.shutting = true ∧ s'.ctx.isShutdown = true) := by
  refine ⟨fun hn h => ?_, fun hn h => ?_, fun hn h => ?_, fun h => ?_⟩
  · simp only [Svc.step, hn] at h
    split at h
    · simp only [Option.some.injEq, Bool.false_eq_true, if_false] at h; subst h; exact ⟨rfl, rfl⟩
    · cases h
  · simp only [Svc.step, hn] at h
    split at h
    · simp only [Option.some.injEq, if_true] at h; subst h; exact ⟨rfl, rfl⟩
    · cases h
  · simp only [Svc.step, hn] at h
    split at h
    · simp only [Option.some.injEq, if_true] at h; subst h; exact ⟨rfl, rfl⟩
    · cases h
  · simp only [Svc.step] at h
    split at h
    · simp only [Option.some.injEq] at h; subst h; exact ⟨rfl, rfl⟩
    · cases h

/-- Between runs the service does not shut down and no other thread is inside `shutdown()`. -/
def Svc.Rested (s : Svc) : Prop := s.pc = .off → s.shutting = false ∧ s.stage = .no ∧ s.loop = false

theorem Svc.Rested.step {P : Prog} {O : Oracle} {s s' : Svc} {l : Label} (hr : s.Rested) (h : s.step P O l = some s') : s'.Rested := by
  intro hoff
  have hw : s.pc.isWaiting = true → s.pc ≠ .off := by intro h1 h2; rw [h2] at h1; cases h1
  cases l with
  | start w =>
    simp only [Svc.step] at h
    split at h
    · simp only [Option.some.injEq] at h; subst h
      unfold Svc.start at hoff ⊢
      by_cases hl : s.loop = true
      · rw [if_pos hl] at hoff
        have := hr hoff
        rw [this.2.2] at hl; cases hl
      · rw [if_neg hl] at hoff; cases hoff
    · cases h
  | check =>
    simp only [Svc.step] at h
    split at h
    · rename_i hp
      simp only [Option.some.injEq] at h; subst h
      exfalso
      unfold Svc.check at hoff
      simp only at hoff
      split at hoff
      · unfold Svc.request at hoff
        split at hoff <;> simp [Svc.setFlags, Svc.emitShutdown, Svc.prune, hp] at hoff
      · split at hoff <;> cases hoff
    · cases h
  | process fuel =>
    simp only [Svc.step] at h
    split at h
    · rename_i hc
      simp only [Bool.and_eq_true] at hc
      obtain ⟨e, q, p, r, hq, hp, rfl⟩ := process_inv h
      exact absurd hoff (hw hc.1)
    · cases h
  | wake =>
    simp only [Svc.step] at h
    split at h
    · unfold Svc.wake at h
      simp only at h
      split at h
      · cases h
      · split at h
        · simp only [Option.some.injEq] at h; subst h; cases hoff
        · split at h <;> (simp only [Option.some.injEq] at h; subst h; cases hoff)
    · cases h
  | cancel =>
    simp only [Svc.step] at h
    split at h
    · simp only [Option.some.injEq] at h; subst h; cases hoff
    · cases h
  | sigint =>
    simp only [Svc.step] at h
    split at h
    · rename_i hc
      simp only [Option.some.injEq] at h; subst h
      split at hoff
      · exact absurd hoff (hw hc)
      · exfalso
        apply hw hc
        have : ({ s.request "ctrl-c (SIGINT)" true with sigint := true } : Svc).pc = s.pc := by
          unfold Svc.request
          split <;> rfl
        rw [← this]; exact hoff
    · cases h
  | shutdownSync =>
    simp only [Svc.step] at h
    split at h
    · simp only [Option.some.injEq] at h; subst h
      by_cases hl : s.loop = true
      · rw [if_pos hl] at hoff
        have hp : s.pc = .off := by
          have : (s.request "LaunchService.shutdown() called" false).pc = s.pc := by
            unfold Svc.request
            split <;> rfl
          rw [← this]; exact hoff
        have := hr hp
        rw [this.2.2] at hl; cases hl
      · rw [if_neg hl] at hoff ⊢
        exact hr hoff
    · cases h
  | shutdownLoop =>
    simp only [Svc.step] at h
    split at h
    · simp only [Option.some.injEq] at h; subst h
      by_cases hl : s.loop = true
      · rw [if_pos hl] at hoff
        have hp : s.pc = .off := by
          split at hoff <;> exact hoff
        have := hr hp
        rw [this.2.2] at hl; cases hl
      · rw [if_neg hl] at hoff ⊢
        exact hr hoff
    · cases h
  | awaitShutdown =>
    simp only [Svc.step] at h
    split at h
    · cases h
    · simp only [Option.some.injEq] at h; subst h
      exact hr hoff
  | threadShutdown =>
    simp only [Svc.step] at h
    split at h
    · simp only [Option.some.injEq] at h; subst h
      by_cases hl : s.loop = true
      · rw [if_pos hl] at hoff
        have hp : s.pc = .off := by
          split at hoff <;> exact hoff
        have := hr hp
        rw [this.2.2] at hl; cases hl
      · rw [if_neg hl] at hoff ⊢
        exact hr hoff
    · cases h
  | threadEmit =>
    simp only [Svc.step] at h
    split at h
    · rename_i hc
      simp only [Bool.and_eq_true] at hc
      simp only [Option.some.injEq] at h; subst h
      exact absurd hoff (hw hc.2)
    · cases h
  | threadFlags =>
    simp only [Svc.step] at h
    split at h
    · rename_i hc
      simp only [Option.some.injEq] at h; subst h
      have := (hr hoff).2.1
      rw [hc] at this; cases this
    · cases h
  | finish =>
    simp only [Svc.step] at h
    split at h
    · rename_i hc
      simp only [Bool.and_eq_true, decide_eq_true_eq] at hc
      simp only [Option.some.injEq] at h; subst h
      exact ⟨rfl, hc.2, rfl⟩
    · cases h
  | emit e =>
    simp only [Svc.step] at h
    split at h
    · cases h
    · simp only [Option.some.injEq] at h; subst h; exact hr hoff
  | futureDone f r =>
    simp only [Svc.step] at h
    split at h
    · cases h
    · simp only [Option.some.injEq] at h; subst h; exact hr hoff
  | callback i =>
    simp only [Svc.step] at h
    split at h
    · cases h
    · split at h
      · simp only [Option.some.injEq] at h; subst h; exact hr hoff
      · cases h
  | loopException =>
    simp only [Svc.step] at h
    split at h
    · simp only [Option.some.injEq] at h; subst h; exact hr hoff
    · cases h

/-- C26: after the end of a run, whatever happened in it, the service is ready for the next one: it does not report that it is shutting down, and neither
does the next run. -/
theorem C26_next_run (P : Prog) (O : Oracle) (env : Dict String) (ls : List Label) (s s1 : Svc) (w : Bool)
    (h0 : (Svc.init env).Reaches P O ls s) (hoff : s.pc = .off) (h1 : s.step P O (.start w) = some s1) :
    s.shutting = false ∧ s1.shutting = false ∧ s1.loop = true ∧ s1.pc = .top ∧ s1.sigint = false := by
  have hr : s.Rested := steps_induct (R := Svc.Rested) (fun _ _ _ h hs => h.step hs) ls _ _ (fun _ => ⟨rfl, rfl, rfl⟩) h0
  obtain ⟨a, b, c⟩ := hr hoff
  simp only [Svc.step, hoff, decide_true, Bool.true_or, if_true, Option.some.injEq] at h1
  subst h1
  refine ⟨a, ?_, ?_, ?_, ?_⟩
  · simp [Svc.start, c, a]
  · simp [Svc.start, c]
  · simp [Svc.start, c]
  · simp [Svc.start, c]

/-- C26: the first request of a run emits the Shutdown event: SIGINT at once, `shutdown()` called in the loop when its result is awaited,
`shutdown(force_sync=True)` at once. -/
theorem C26_first_request (P : Prog) (O : Oracle) (s : Svc) (hs : s.shutting = false) (hl : s.loop = true) (hw : s.pc.isWaiting = true) :
    (s.sigint = false → ∃ s', s.step P O .sigint = some s' ∧ s'.ctx.emitted = s.ctx.emitted ++ [.shutdown "ctrl-c (SIGINT)" true] ∧
      s'.ctx.queue = s.ctx.queue ++ [.shutdown "ctrl-c (SIGINT)" true]) ∧
    (s.stage = .no → ∃ s', s.steps P O [.shutdownLoop, .awaitShutdown] = some s' ∧
      s'.ctx.emitted = s.ctx.emitted ++ [.shutdown "LaunchService.shutdown() called" false] ∧
      s'.ctx.queue = s.ctx.queue ++ [.shutdown "LaunchService.shutdown() called" false]) ∧
    (s.stage = .no → ∃ s', s.step P O .shutdownSync = some s' ∧
      s'.ctx.emitted = s.ctx.emitted ++ [.shutdown "LaunchService.shutdown() called" false] ∧
      s'.ctx.queue = s.ctx.queue ++ [.shutdown "LaunchService.shutdown() called" false]) := by
  have hne : s.pc ≠ .ending := by intro h; rw [h] at hw; cases hw
  refine ⟨?_, ?_, ?_⟩
  · intro hn
    refine ⟨_, by simp only [Svc.step, hw, if_true, hn, Bool.false_eq_true, if_false]; rfl, ?_, ?_⟩ <;>
      simp [Svc.request, hs, Svc.setFlags, Svc.emitShutdown, Ctx.emit]
  · intro hst
    refine ⟨_, by
      simp only [Svc.steps, Svc.step, hst, hne, hl, hs, decide_true, ne_eq, not_false_eq_true, Bool.and_self, if_true, Bool.false_eq_true, if_false,
        Svc.setFlags, Nat.succ_ne_zero, decide_false, Bool.or_self]
      rfl, ?_, ?_⟩ <;> simp [Svc.emitShutdown, Ctx.emit]
  · intro hst
    refine ⟨_, by
      simp only [Svc.step, hst, hne, hl, decide_true, ne_eq, not_false_eq_true, Bool.and_self, if_true]
      rfl, ?_, ?_⟩ <;> simp [Svc.request, hs, Svc.setFlags, Svc.emitShutdown, Ctx.emit]

example : (((Svc.init []).steps svcProg sampleOracle [.start true, .check, .check, .process 9, .wake, .check, .finish, .start false]).map
    (fun s => (s.shutting, s.pc))) = some (false, .top) := by decide +kernel

/-- Another thread calls `shutdown()` and finds the flag unset; before its emission is run by the loop, the loop finds itself idle and
emits Shutdown too: two Shutdown events in one run. -/
theorem C26_thread_race_violated :
    ((Svc.init []).steps svcProg sampleOracle
      [.emit (.user 1), .start true, .check, .threadShutdown, .process 1, .wake, .check, .check, .threadEmit,
        .threadFlags]).map (fun s => (s.own, s.ctx.queue)) =
      some (2, [.shutdown "idle" false, .shutdown "LaunchService.shutdown() called" false]) := by decide +kernel

/-- A run with an exception, two SIGINTs, a call of `shutdown()` and an idle check: one Shutdown event. -/
example : ((Svc.init []).steps { svcProg with description := fun _ => [.act (.user 1) none (.registerHandler 4 (some []))] }
    sampleOracle [.emit (.includeDesc 0), .emit (.user 9), .start true, .check, .process 9, .wake, .check, .process 9,
      .sigint, .sigint, .wake, .shutdownLoop, .check, .process 9, .wake, .check, .finish]).map
    (fun s => (s.own, s.result, s.handled)) =
      some (1, some true, [.includeDesc 0, .user 9, .shutdown "ctrl-c (SIGINT)" true]) := by decide +kernel

/-! ## C27 run returns only when idle -/

/-- When a run returns, it was cancelled, or a future it collected was cancelled, or: shutdown was requested, no event is
queued, and every future collected from visited entities (ever) and every completion future is done. -/
theorem C27_returns_only_when_idle_partial (P : Prog) (O : Oracle) (env : Dict String) (ls : List Label) (s s' : Svc)
    (h0 : (Svc.init env).Reaches P O ls s) (h : s.step P O .finish = some s') :
    s.wasCancelled = true ∨ (∃ f, s.fin.lookup f = some .cancelled) ∨
      (s.shutting = true ∧ s'.ctx.queue = [] ∧ (∀ p ∈ s'.collected, s'.isDone p.2 = true) ∧
        ∀ f ∈ s'.ctx.completion, s'.isDone f = true) := by
  have hi := RunInv.reach h0
  simp only [Svc.step] at h
  split at h
  · rename_i hc
    simp only [Bool.and_eq_true, decide_eq_true_eq] at hc
    simp only [Option.some.injEq] at h; subst h
    rcases hi.ending hc.1 with a | ⟨a, _⟩ | ⟨a, b⟩
    · exact .inl a
    · exact .inr (.inl a)
    · refine .inr (.inr ⟨a, b.queue, fun p hp => ?_, b.completion⟩)
      rcases hi.coll p hp with hd | hd
      · exact b.pairs p hd
      · exact hd
  · cases h

/-- So a run that returns 0 left nothing: no event is queued, and every future it collected and every completion future is done. -/
theorem C27_zero_only_when_idle (P : Prog) (O : Oracle) (env : Dict String) (ls : List Label) (s s' : Svc)
    (h0 : (Svc.init env).Reaches P O ls s) (h : s.step P O .finish = some s') (hz : s'.result = some false) :
    s.shutting = true ∧ s'.ctx.queue = [] ∧ (∀ p ∈ s'.collected, s'.isDone p.2 = true) ∧
        ∀ f ∈ s'.ctx.completion, s'.isDone f = true := by
  have hi := RunInv.reach h0
  simp only [Svc.step] at h
  split at h
  · rename_i hc
    simp only [Bool.and_eq_true, decide_eq_true_eq] at hc
    simp only [Option.some.injEq] at h; subst h
    have hz : s.rc = false := Option.some.inj hz
    rcases hi.ending hc.1 with a | ⟨_, a⟩ | ⟨a, b⟩
    · have := hi.lf (.inr a); rw [hz] at this; cases this
    · rw [hz] at a; cases a
    · refine ⟨a, b.queue, fun p hp => ?_, b.completion⟩
      rcases hi.coll p hp with hd | hd
      · exact b.pairs p hd
      · exact hd
  · cases h

/-- What is collected: processing an event adds the futures collected by visiting to those the service waits for; if it does not raise, these include the
future of every action that was executed for the first time, and once, meanwhile. -/
theorem C27_collects (P : Prog) (O : Oracle) (fuel : Nat) (s s' : Svc) (h : s.step P O (.process fuel) = some s') :
    ∃ fs, s'.pairs = s.pairs ++ fs ∧ s'.collected = s.collected ++ fs ∧
      (s'.evFailed = false → ∀ a f, s.ctx.futuresOf a = [] → s'.ctx.futuresOf a = [f] → (a, f) ∈ fs) := by
  have h' := h
  simp only [Svc.step] at h
  split at h
  · obtain ⟨e, q, p, r, hq, hp, rfl⟩ := process_inv h
    obtain ⟨hm, _, _⟩ := handleAll_facts _ hp
    obtain ⟨t, ht⟩ := hm.pairs
    have hcoll : s.collected ++ p.pairs.drop s.pairs.length = s.collected ++ t := by rw [ht]; simp
    refine ⟨t, ht, hcoll, ?_⟩
    intro hok a f h0 h1
    obtain ⟨u, hu, hc⟩ := step_collects h' hok
    have hut : t = u := List.append_cancel_left (hcoll.symm.trans hu)
    subst hut
    rcases hc.only a f h1 with h | h
    · rw [h0] at h; cases h
    · exact h.2
  · cases h

/-- Two asynchronous actions, 5 and 6. -/
def asyncProg : Prog :=
  { svcProg with
    description := fun _ => [.act (.user 5) none (.custom 1 [] []), .act (.user 6) none (.custom 1 [] [])] }

/-- The run waits for both futures. -/
example : ((Svc.init []).steps asyncProg sampleOracle
    [.emit (.includeDesc 0), .start true, .check, .process 9, .wake, .check, .futureDone 0 .ok, .wake, .check]).map
      (fun s => (s.pairs.map (·.2), s.shutting, s.pc)) = some ([1], false, .waiting [1]) ∧
    ((Svc.init []).steps asyncProg sampleOracle
    [.emit (.includeDesc 0), .start true, .check, .process 9, .wake, .check, .futureDone 0 .ok, .wake, .check,
      .futureDone 1 .ok, .wake, .check, .check, .process 9, .wake, .check, .finish]).map
      (fun s => (s.collected.map (·.2), s.handled, s.result)) =
        some ([0, 1], [.includeDesc 0, .shutdown "idle" false], some false) := by decide +kernel

/-- A future that is cancelled (an OpaqueCoroutine's is, at shutdown) ends the run while the other future
is pending, and without shutdown having been requested. -/
theorem C27_cancelled_future_violated :
    ((Svc.init []).steps asyncProg sampleOracle
      [.emit (.includeDesc 0), .start true, .check, .process 9, .wake, .check, .futureDone 0 .cancelled, .wake]).map
      (fun s => (s.pc, s.collected.map (·.2), s.isDone 1, s.shutting, (s.step asyncProg sampleOracle .finish).isSome)) =
        some (.ending, [0, 1], false, false, true) := by decide +kernel

/-- A group with an asynchronous action and an action that raises. -/
def lostProg : Prog :=
  { svcProg with
    fn := fun n _ => if n = 1 then { effects := [.newFuture] } else { result := .error .valueError }
    description := fun _ => [.act (.user 4) none (.group false false []
      [.act (.user 5) none (.custom 1 [] []), .act (.user 6) none (.custom 2 [] [])])] }

/-- The futures of the entities visited before an exception are lost: the asynchronous action 5 was started and its
future 0 is pending, but the run ends (with return code 1) without waiting for it. -/
theorem C27_lost_future_violated :
    ((Svc.init []).steps lostProg sampleOracle
      [.emit (.includeDesc 0), .start true, .check, .process 9, .wake, .check, .process 9, .wake, .check, .finish]).map
      (fun s => (s.ctx.futures.map (·.2), s.isDone 0, s.collected.map (·.2), s.wasCancelled, s.result)) =
        some ([0], false, [], false, some true) := by decide +kernel

/-! ## C28 The return code reflects failures -/

/-- If the processing of an event raised, the loop's exception handler was called or the run was cancelled, the run returns
1. -/
theorem C28_failure_returns_one (P : Prog) (O : Oracle) (env : Dict String) (ls : List Label) (s s' : Svc)
    (h0 : (Svc.init env).Reaches P O ls s) (h : s.step P O .finish = some s')
    (hf : s.evFailed = true ∨ s.loopFailed = true ∨ s.wasCancelled = true) : s'.result = some true := by
  have hi := RunInv.reach h0
  simp only [Svc.step] at h
  split at h
  · rename_i hc
    simp only [Bool.and_eq_true, decide_eq_true_eq] at hc
    simp only [Option.some.injEq] at h; subst h
    show some s.rc = some true
    rcases hf with hf | hf
    · rcases hi.ev hf with a | ⟨_, a⟩
      · rw [a]
      · rw [hc.1] at a; cases a
    · rw [hi.lf hf]
  · cases h

/-- It returns 1 only in these cases or if some future failed or was cancelled. -/
theorem C28_one_only_after_failure (P : Prog) (O : Oracle) (env : Dict String) (ls : List Label) (s s' : Svc)
    (h0 : (Svc.init env).Reaches P O ls s) (h : s.step P O .finish = some s') (hr : s'.result = some true) :
    s.evFailed = true ∨ s.loopFailed = true ∨ s.wasCancelled = true ∨
      ∃ f, s.fin.lookup f = some .failed ∨ s.fin.lookup f = some .cancelled := by
  have hi := RunInv.reach h0
  simp only [Svc.step] at h
  split at h
  · simp only [Option.some.injEq] at h; subst h
    have hr : s.rc = true := by simpa using hr
    rcases hi.rc hr with a | a | a | ⟨f, a⟩ | ⟨f, a⟩
    · exact .inl a
    · exact .inr (.inl a)
    · exact .inr (.inr (.inl a))
    · exact .inr (.inr (.inr ⟨f, .inl a⟩))
    · exact .inr (.inr (.inr ⟨f, .inr a⟩))
  · cases h

/-- If no future failed or was cancelled, the return code is 0 exactly if there was no failure.  Missing: failed futures,
see the two theorems below. -/
theorem C28_return_code_partial (P : Prog) (O : Oracle) (env : Dict String) (ls : List Label) (s s' : Svc)
    (h0 : (Svc.init env).Reaches P O ls s) (h : s.step P O .finish = some s')
    (hf : ∀ f r, s.fin.lookup f = some r → r = .ok) :
    s'.result = some false ↔ s.evFailed = false ∧ s.loopFailed = false ∧ s.wasCancelled = false := by
  have h1 := C28_failure_returns_one P O env ls s s' h0 h
  have h2 := C28_one_only_after_failure P O env ls s s' h0 h
  have h3 : s'.result = some true ∨ s'.result = some false := by
    simp only [Svc.step] at h
    split at h
    · simp only [Option.some.injEq] at h; subst h
      cases s.rc <;> simp
    · cases h
  constructor
  · intro hr
    have h4 : ∀ b : Bool, (b = true → s'.result = some true) → b = false := by
      intro b hb
      cases b with
      | false => rfl
      | true => rw [hb rfl] at hr; cases hr
    exact ⟨h4 _ fun e => h1 (.inl e), h4 _ fun e => h1 (.inr (.inl e)), h4 _ fun e => h1 (.inr (.inr e))⟩
  · rintro ⟨a, b, c⟩
    rcases h3 with h3 | h3
    · rcases h2 h3 with e | e | e | ⟨f, e | e⟩
      · rw [a] at e; cases e
      · rw [b] at e; cases e
      · rw [c] at e; cases e
      · cases hf _ _ e
      · cases hf _ _ e
    · exact h3

/-- `evFailed` is set exactly by the processing of an event that raises. -/
theorem C28_evFailed_means (P : Prog) (O : Oracle) (fuel : Nat) (s s' : Svc) (e : Event) (q : List Event)
    (hq : s.ctx.queue = e :: q) (hc : s.evFailed = false) (h : s.step P O (.process fuel) = some s') :
    s'.evFailed = true ↔ ∃ p err, processEvent P.withService O fuel e
      { ctx := { s.ctx with queue := q }, pairs := s.pairs, shutting := s.shutting, calls := s.calls } =
        some (p, .error err) := by
  simp only [Svc.step] at h
  split at h
  · obtain ⟨e', q', p, r, hq', hp, rfl⟩ := process_inv h
    rw [hq] at hq'
    simp only [List.cons.injEq] at hq'
    obtain ⟨rfl, rfl⟩ := hq'
    rw [hp]
    cases r with
    | ok u => simp [hc]
    | error err => simp
  · cases h

/-- The failure of an asynchronous action is overlooked if it happens while an event is queued: the run returns 0. -/
theorem C28_failed_future_violated :
    ((Svc.init []).steps asyncProg sampleOracle
      [.emit (.includeDesc 0), .emit (.user 1), .start true, .check, .process 9, .wake, .check, .futureDone 0 .failed,
        .process 9, .wake, .check, .futureDone 1 .ok, .wake, .check, .check, .process 9, .wake, .check, .finish]).map
      (fun s => (s.collected.map (·.2), s.fin, s.result)) = some ([0, 1], [(1, .ok), (0, .failed)], some false) := by
  decide +kernel

/-- With no event queued it is noticed: the run returns 1. -/
example : ((Svc.init []).steps asyncProg sampleOracle
    [.emit (.includeDesc 0), .start true, .check, .process 9, .wake, .check, .futureDone 0 .failed, .wake, .check,
      .process 9, .futureDone 1 .ok, .wake, .check, .finish]).map
    (fun s => (s.handled, s.result)) =
      some ([.includeDesc 0, .shutdown "Caught exception in launch" false], some true) := by decide +kernel

/-- Runs of the two kinds: a failing handler, and none. -/
example : ((Svc.init []).steps { svcProg with description := fun _ => [.act (.user 1) none (.registerHandler 4 (some []))] }
    sampleOracle [.emit (.includeDesc 0), .emit (.user 9), .start true, .check, .process 9, .wake, .check, .process 9,
      .wake, .check, .process 9, .wake, .check, .finish]).map (fun s => (s.evFailed, s.result)) =
        some (true, some true) ∧
    ((Svc.init []).steps svcProg sampleOracle [.start true, .check, .check, .process 9, .wake, .check, .finish]).map
      (fun s => (s.evFailed, s.result)) = some (false, some false) := by decide +kernel

/-! ## C29 An idle service shuts down by itself only if asked to -/

/-- The head of the loop emits Shutdown exactly if the run is not shutting down, was asked to shut down when idle, and
nothing is left to do. -/
theorem C29_emits_iff_idle (P : Prog) (O : Oracle) (s s' : Svc) (h : s.step P O .check = some s') :
    (s.shutting = false ∧ s.whenIdle = true ∧ s.Idle →
      s'.ctx.queue = [.shutdown "idle" false] ∧ s'.shutting = true ∧ s'.own = s.own + 1) ∧
    (¬ (s.shutting = false ∧ s.whenIdle = true ∧ s.Idle) →
      s'.ctx.emitted = s.ctx.emitted ∧ s'.shutting = s.shutting ∧ s'.own = s.own) := by
  simp only [Svc.step] at h
  split at h
  · simp only [Option.some.injEq] at h; subst h
    have hx : (!s.prune.shutting && s.prune.whenIdle && s.prune.isIdle) = true ↔
        s.shutting = false ∧ s.whenIdle = true ∧ s.Idle := by
      rw [← isIdle_prune]
      simp [Svc.prune, and_assoc]
    constructor
    · intro hc
      have hq := hc.2.2.queue
      unfold Svc.check
      simp only [hx.mpr hc, if_true]
      have e1 : s.prune.shutting = false := hc.1
      unfold Svc.request
      simp only [e1, Bool.false_eq_true, if_false]
      refine ⟨?_, rfl, rfl⟩
      show s.ctx.queue ++ _ = _
      rw [hq]; rfl
    · intro hc
      unfold Svc.check
      simp only
      rw [if_neg (fun hy => hc (hx.mp hy))]
      split <;> exact ⟨rfl, rfl, rfl⟩
  · cases h

/-- With `shutdown_when_idle=False`, and no request for shutdown by the user or a signal, the service emits
Shutdown only after a failure. -/
theorem C29_never_on_its_own (P : Prog) (O : Oracle) (env : Dict String) (before ls : List Label) (s0 s1 s2 : Svc)
    (h0 : (Svc.init env).Reaches P O before s0) (hoff : s0.pc = .off) (hc : s0.coros = 0) (hst : s0.stage = .no)
    (h1 : s0.step P O (.start false) = some s1) (h2 : s1.Reaches P O ls s2)
    (hls : ∀ l ∈ ls, (∀ w, l ≠ .start w) ∧ l ≠ .sigint ∧ l ≠ .shutdownLoop ∧ l ≠ .shutdownSync ∧ l ≠ .threadShutdown) (hown : s2.own ≠ 0) :
    s2.evFailed = true ∨ ∃ f, s2.fin.lookup f = some .failed := by
  have hloop : s0.loop = false := by
    cases hl : s0.loop with
    | false => rfl
    | true => exact absurd hoff (loop_running_reach h0 hl)
  have hr1 : RunInv True s1 := by
    have : RunInv (.threadFlags ∈ before ++ [.start false]) s1 :=
      RunInv.reach (P := P) (O := O) (env := env) (by
        have h0' : (Svc.init env).steps P O before = some s0 := h0
        unfold Svc.Reaches; rw [steps_append, h0']; simp [Svc.steps, h1])
    exact ⟨this.ending, this.coll, this.ev, this.lf, this.rc, this.task, this.fs,
      fun a b c => ⟨(this.stuck a b c).1, .inl trivial⟩⟩
  simp only [Svc.step, hoff, decide_true, Bool.true_or, if_true, Option.some.injEq] at h1
  have hi : s1.whenIdle = false ∧ s1.coros = 0 ∧ s1.stage = .no ∧ s1.own = 0 := by
    subst h1
    unfold Svc.start
    simp only [hloop, Bool.false_eq_true, if_false]
    exact ⟨trivial, hc, hst, trivial⟩
  have key : RunInv True s2 ∧ s2.whenIdle = false ∧ s2.coros = 0 ∧ s2.stage = .no ∧
      (s2.own ≠ 0 → s2.evFailed = true ∨ s2.Broken .failed) := by
    refine steps_induct' (P := P) (O := O)
      (R := fun s => RunInv True s ∧ s.whenIdle = false ∧ s.coros = 0 ∧ s.stage = .no ∧
        (s.own ≠ 0 → s.evFailed = true ∨ s.Broken .failed))
      (L := fun l => (∀ w, l ≠ .start w) ∧ l ≠ .sigint ∧ l ≠ .shutdownLoop ∧ l ≠ .shutdownSync ∧ l ≠ .threadShutdown) ?_ ls s1 s2 hls
      ⟨hr1, hi.1, hi.2.1, hi.2.2.1, fun hn => absurd hi.2.2.2 hn⟩ h2
    rintro s l s' ⟨hl1, hl2, hl3, hl5, hl4⟩ ⟨hr, hw, hco, hsg, ho⟩ hs
    have hr' := hr.step (.inl trivial) hs
    have hm := step_mono hs
    refine ⟨hr', ?_⟩
    cases l with
    | start w => exact absurd rfl (hl1 w)
    | sigint => exact absurd rfl hl2
    | shutdownLoop => exact absurd rfl hl3
    | shutdownSync => exact absurd rfl hl5
    | threadShutdown => exact absurd rfl hl4
    | check =>
      have hn := (C29_emits_iff_idle P O s s' hs).2 (by rw [hw]; simp)
      simp only [Svc.step] at hs
      split at hs
      · simp only [Option.some.injEq] at hs; subst hs
        rw [hn.2.2]
        unfold Svc.check
        simp only
        split
        · rename_i hx; simp [Svc.prune, hw] at hx
        · split <;> exact ⟨hw, hco, hsg, ho⟩
      · cases hs
    | process fuel =>
      simp only [Svc.step] at hs
      split at hs
      · obtain ⟨e, q, p, r, hq, hp, rfl⟩ := process_inv hs
        refine ⟨hw, hco, hsg, fun hn => (ho hn).imp (fun a => ?_) id⟩
        show (s.evFailed || _) = true
        rw [a]; rfl
      · cases hs
    | wake =>
      simp only [Svc.step] at hs
      split at hs
      · rename_i fs hpc
        unfold Svc.wake at hs
        simp only at hs
        split at hs
        · cases hs
        · split at hs
          · simp only [Option.some.injEq] at hs; subst hs; exact ⟨hw, hco, hsg, ho⟩
          · split at hs
            · rename_i hf
              simp only [Option.some.injEq] at hs; subst hs
              have e1 : (s.request "Caught exception in launch" false).evFailed = s.evFailed ∧
                  (s.request "Caught exception in launch" false).fin = s.fin ∧
                  (s.request "Caught exception in launch" false).whenIdle = s.whenIdle ∧
                  (s.request "Caught exception in launch" false).coros = s.coros ∧
                  (s.request "Caught exception in launch" false).stage = s.stage := by
                unfold Svc.request; split <;> exact ⟨rfl, rfl, rfl, rfl, rfl⟩
              refine ⟨e1.2.2.1.trans hw, e1.2.2.2.1.trans hco, e1.2.2.2.2.trans hsg, fun _ => ?_⟩
              simp only [Bool.or_eq_true, decide_eq_true_eq] at hf
              rcases hf with hf | hf
              · obtain ⟨f, _, hf⟩ := List.mem_filterMap.mp hf
                right
                exact ⟨f, by show (s.request _ _).fin.lookup f = _; rw [e1.2.1]; exact hf⟩
              · left
                show (s.request _ _).evFailed = true
                rw [e1.1]; exact hr.task hf
            · simp only [Option.some.injEq] at hs; subst hs; exact ⟨hw, hco, hsg, ho⟩
      · cases hs
    | awaitShutdown => simp [Svc.step, hco] at hs
    | threadEmit => simp [Svc.step, hsg] at hs
    | threadFlags => simp [Svc.step, hsg] at hs
    | callback i =>
      simp only [Svc.step] at hs
      repeat' split at hs
      all_goals first | (cases hs; done) | skip
      simp only [Option.some.injEq] at hs; subst hs
      exact ⟨hw, hco, hsg, ho⟩
    | futureDone f r =>
      simp only [Svc.step] at hs
      split at hs
      · cases hs
      · simp only [Option.some.injEq] at hs; subst hs
        exact ⟨hw, hco, hsg, fun hn => (ho hn).imp id (fun hb => Svc.Broken.mono hm hb)⟩
    | _ =>
      simp only [Svc.step] at hs
      split at hs
      all_goals first | (cases hs; done) | (simp only [Option.some.injEq] at hs; subst hs; exact ⟨hw, hco, hsg, ho⟩)
  exact key.2.2.2.2 hown

/-- A waiting run with nothing left to do wakes up, if it was asked to shut down when idle, or shutdown was requested and all
coroutines returned by `shutdown()` were awaited (and no other thread was inside `shutdown()`). -/
theorem wake_inv {P : Prog} {O : Oracle} {T : Prop} {s : Svc} (hr : RunInv T s) (hw : s.pc.isWaiting = true) (hi : s.Idle)
    (hc : s.whenIdle = true ∨ (s.shutting = true ∧ s.coros = 0 ∧ ¬ T)) :
    (∃ s', s.step P O .wake = some s' ∧ s'.Idle ∧ s'.whenIdle = s.whenIdle ∧ s'.stage = s.stage ∧
        (s.shutting = true → s'.shutting = true) ∧ (s'.pc = .ending ∨ s'.pc = .top)) ∨
      (∃ s', s.step P O .wake = some s' ∧ s'.shutting = true ∧ s.shutting = false ∧ s'.pc = .top) := by
  cases hp : s.pc with
  | waiting fs =>
    have hen : ((fs.filterMap fun f => s.fin.lookup f).isEmpty && decide (s.task = .pending)) = false := by
      by_cases ht : s.task = .pending
      · cases fs with
        | nil =>
          obtain ⟨a, b⟩ := hr.stuck hp hi.queue ht
          rcases hc with hc | ⟨c1, c2, c3⟩
          · rw [a] at hc; cases hc
          · rcases b with b | b | b
            · exact absurd b c3
            · rw [c1] at b; cases b
            · exact absurd c2 b
        | cons f fs =>
          have hd : s.isDone f = true := by
            rcases hr.fs _ hp ht f (by simp) with a | a
            · obtain ⟨x, hx, rfl⟩ := List.mem_map.mp a
              exact hi.pairs x hx
            · exact hi.completion f a
          obtain ⟨r, hr⟩ := isDone_iff.mp hd
          have : ¬ ((f :: fs).filterMap fun f => s.fin.lookup f) = [] := by
            simp [List.filterMap_cons, hr]
          simp [List.isEmpty_iff, this]
      · simp [ht]
    simp only [Svc.step, hp]
    unfold Svc.wake
    simp only [hen, Bool.false_eq_true, if_false]
    split
    · exact .inl ⟨_, rfl, ⟨hi.queue, hi.pairs, hi.completion⟩, rfl, rfl, id, .inl rfl⟩
    · split
      · cases hs : s.shutting with
        | true =>
          refine .inl ⟨_, rfl, ?_, ?_, ?_, fun _ => rfl, .inr rfl⟩
          all_goals simp only [Svc.request, hs, if_true]
          · exact ⟨hi.queue, hi.pairs, hi.completion⟩
          · rfl
          · rfl
        | false => exact .inr ⟨_, rfl, rfl, rfl, rfl⟩
      · exact .inl ⟨_, rfl, ⟨hi.queue, hi.pairs, hi.completion⟩, rfl, rfl, id, .inr rfl⟩
  | _ => rw [hp] at hw; cases hw

theorem step_check {P : Prog} {O : Oracle} {s : Svc} (h : s.pc = .top) : s.step P O .check = some s.check := by
  simp [Svc.step, h]

theorem steps_two {P : Prog} {O : Oracle} {a b c : Svc} {l1 l2 : Label} (h1 : a.step P O l1 = some b)
    (h2 : b.step P O l2 = some c) : a.Reaches P O [l1, l2] c := by
  simp only [Svc.Reaches, Svc.steps, h1, h2]

theorem steps_three {P : Prog} {O : Oracle} {a b c d : Svc} {l1 l2 l3 : Label} (h1 : a.step P O l1 = some b)
    (h2 : b.step P O l2 = some c) (h3 : c.step P O l3 = some d) : a.Reaches P O [l1, l2, l3] d := by
  simp only [Svc.Reaches, Svc.steps, h1, h2, h3]

/-- As soon as a waiting run that was asked to shut down when idle has nothing left to do, its next two
steps are possible and shut it down (or end it). -/
theorem C29_shuts_down_when_idle (P : Prog) (O : Oracle) (env : Dict String) (ls : List Label) (s : Svc)
    (h0 : (Svc.init env).Reaches P O ls s) (hw : s.pc.isWaiting = true) (hi : s.Idle) (hc : s.whenIdle = true) :
    (∃ s', s.Reaches P O [.wake] s' ∧ s'.pc = .ending) ∨
      ∃ s', s.Reaches P O [.wake, .check] s' ∧ (s'.shutting = true ∨ s'.pc = .ending) := by
  have hcheck : ∀ s : Svc, s.pc = .top → s.shutting = true → s.check.shutting = true := by
    intro s _ hs
    unfold Svc.check
    simp only
    repeat' split
    all_goals first | rfl | exact hs
  obtain ⟨s', h⟩ | ⟨s', h1, h2, _, h3⟩ := wake_inv (P := P) (O := O) (RunInv.reach h0) hw hi (.inl hc)
  · obtain ⟨h1, h2, h3, _, _, h5 | h5⟩ := h
    · exact .inl ⟨s', by simp [Svc.Reaches, Svc.steps, h1], h5⟩
    · right
      refine ⟨s'.check, steps_two h1 (step_check h5), .inl ?_⟩
      cases hs : s'.shutting with
      | true => exact hcheck s' h5 hs
      | false =>
        exact ((C29_emits_iff_idle P O s' s'.check (by simp [Svc.step, h5])).1 ⟨hs, h3.trans hc, h2⟩).2.1
  · exact .inr ⟨s'.check, steps_two h1 (step_check h3), .inl (hcheck s' h3 h2)⟩

/-- Two runs with a pending future: the one that should shuts down when the future is done, the other does not. -/
example : ((Svc.init []).steps asyncProg sampleOracle
    [.emit (.includeDesc 0), .start true, .check, .process 9, .wake, .check, .futureDone 0 .ok, .futureDone 1 .ok,
      .wake, .check]).map (fun s => (s.ctx.queue, s.shutting)) = some ([.shutdown "idle" false], true) ∧
    ((Svc.init []).steps asyncProg sampleOracle
    [.emit (.includeDesc 0), .start false, .check, .process 9, .wake, .check, .futureDone 0 .ok, .futureDone 1 .ok,
      .wake, .check]).map (fun s => (s.ctx.queue, s.shutting, s.pc)) = some ([], false, .waiting []) := by decide +kernel

/-! ## C59 A rejected second run leaves the running one alone -/

/-- A second run attempted while one is in progress is rejected, but unsets the loop and the shutting-down flag of the
running one: `shutdown()` then does nothing, and an announced shutdown is forgotten and announced again. -/
theorem C59_rejected_run_violated :
    ((Svc.init []).steps asyncProg sampleOracle
      [.emit (.includeDesc 0), .start false, .check, .process 9, .wake, .check, .start true]).map
      (fun s => (s.loop, s.pc, (s.step asyncProg sampleOracle .shutdownLoop).map (fun s => (s.shutting, s.coros)))) =
        some (false, .waiting [0, 1], some (false, 0)) ∧
    ((Svc.init []).steps svcProg sampleOracle
      [.start true, .check, .check, .process 9, .start true, .wake, .check]).map (fun s => (s.own, s.handled, s.ctx.queue)) =
        some (2, [.shutdown "idle" false], [.shutdown "idle" false]) := by decide +kernel

/-- What it does leave alone: the context, the futures waited for, the point the run has reached and its return code so
far. -/
theorem C59_rejected_run_partial (P : Prog) (O : Oracle) (s s' : Svc) (w : Bool) (hr : s.loop = true)
    (h : s.step P O (.start w) = some s') :
    s'.ctx = s.ctx ∧ s'.pc = s.pc ∧ s'.whenIdle = s.whenIdle ∧ s'.rc = s.rc ∧ s'.pairs = s.pairs ∧ s'.task = s.task := by
  simp only [Svc.step] at h
  split at h
  · simp only [Option.some.injEq] at h; subst h
    simp only [Svc.start, hr, if_true]
    exact ⟨trivial, trivial, trivial, trivial, trivial, trivial⟩
  · cases h

/-! ## C60 A requested shutdown ends the run -/

theorem ends_inv {P : Prog} {O : Oracle} {T : Prop} {s : Svc} (hr : RunInv T s) (hw : s.pc.isWaiting = true) (hi : s.Idle) (hs : s.shutting = true)
    (hc : s.whenIdle = true ∨ (s.coros = 0 ∧ ¬ T)) (hst : s.stage = .no) :
    ∃ ls' s', s.Reaches P O ls' s' ∧ s'.pc = .off ∧ ls' ⊆ [.wake, .check, .finish] := by
  have hend : ∀ s : Svc, s.pc = .ending → s.stage = .no → ∃ s', s.step P O .finish = some s' ∧ s'.pc = .off := by
    intro s h1 h2
    exact ⟨_, by simp only [Svc.step, h1, h2, decide_true, Bool.and_self, if_true]; rfl, rfl⟩
  obtain ⟨s', h⟩ | ⟨s', _, _, h2, _⟩ := wake_inv (P := P) (O := O) hr hw hi (hc.imp id fun h => ⟨hs, h⟩)
  · obtain ⟨h1, h2, h3, h4, h5, h6 | h6⟩ := h
    · obtain ⟨s2, h7, h8⟩ := hend s' h6 (h4.trans hst)
      exact ⟨[.wake, .finish], s2, by simp [Svc.Reaches, Svc.steps, h1, h7], h8, by simp⟩
    · have hck : s'.check.pc = .ending ∧ s'.check.stage = s'.stage := by
        unfold Svc.check
        have e1 : s'.prune.shutting = true := h5 hs
        have e2 := (isIdle_prune s').mpr h2
        simp only [e1, e2, Bool.not_true, Bool.false_and, Bool.false_eq_true, if_false, Bool.and_self, if_true]
        exact ⟨trivial, rfl⟩
      obtain ⟨s2, h7, h8⟩ := hend s'.check hck.1 (hck.2.trans (h4.trans hst))
      exact ⟨[.wake, .check, .finish], s2, steps_three h1 (step_check h6) h7, h8, by simp⟩
  · rw [hs] at h2; cases h2

/-- A waiting run that was asked to shut down and has nothing left to do can return, unless a coroutine returned by
`shutdown()` was not awaited or other threads called `shutdown()`.  With
`shutdown_when_idle=True` other threads may have called it, as long as they are not inside. -/
theorem C60_shutdown_ends_partial (P : Prog) (O : Oracle) (env : Dict String) (ls : List Label) (s : Svc)
    (h0 : (Svc.init env).Reaches P O ls s) (hw : s.pc.isWaiting = true) (hi : s.Idle) (hs : s.shutting = true)
    (hc : s.whenIdle = true ∨ (s.coros = 0 ∧ .threadFlags ∉ ls)) (hst : s.stage = .no) :
    ∃ ls' s', s.Reaches P O ls' s' ∧ s'.pc = .off ∧ ls' ⊆ [.wake, .check, .finish] := by
  exact ends_inv (RunInv.reach h0) hw hi hs hc hst

/-- A run without `shutdown_when_idle` whose user calls `shutdown()` in the loop's thread and drops the returned coroutine:
shutting down and idle, but no step of the run is possible. -/
theorem C60_dropped_coroutine_violated :
    ((Svc.init []).steps svcProg sampleOracle [.start false, .check, .shutdownLoop]).map
      (fun s => (s.shutting, s.ctx.queue, s.pairs.length + s.ctx.completion.length,
        [Label.check, .process 9, .wake, .finish].map fun l => (s.step svcProg sampleOracle l).isSome)) =
      some (true, [], 0, [false, false, false, false]) := by decide +kernel

/-- Another thread is inside `shutdown()` when the run ends by itself: the run waits for the lock and the thread for
the loop, and neither has a step. -/
theorem C60_thread_deadlock_violated :
    ((Svc.init []).steps svcProg sampleOracle
      [.emit (.user 1), .start true, .check, .threadShutdown, .process 9, .cancel]).map
      (fun s => (s.pc, s.stage,
        [Label.check, .process 9, .wake, .finish, .threadEmit, .threadFlags].map fun l =>
          (s.step svcProg sampleOracle l).isSome)) =
      some (.ending, .scheduled, [false, false, false, false, false, false]) := by decide +kernel

/-- The usual case. -/
example : ((Svc.init []).steps svcProg sampleOracle
    [.start false, .check, .shutdownLoop, .awaitShutdown, .process 9, .wake, .check, .finish]).map
    (fun s => (s.result, s.handled)) =
      some (some false, [.shutdown "LaunchService.shutdown() called" false]) := by decide +kernel

end Verif
