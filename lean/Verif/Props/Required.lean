import Verif.Props.Joint
import Verif.Props.ShutdownEvent
import Verif.Spec.Required

/-!
# C111: the end of a process that the launch needs ends the launch
-/

namespace Verif
open ProcAct

/-! ## The Shutdown event is emitted -/

theorem visit_emits {P : Prog} {O : Oracle} {fuel : Nat} {id : ActId} {ev : Event} {c c' : Ctx} {fs : List Fut}
    (h : visit P O fuel (.act id none (.emitEvent ev)) c = some (c', .ok fs)) : ∃ t, c'.emitted = c.emitted ++ ev :: t := by
  cases fuel with
  | zero => cases h
  | succ n =>
    obtain ⟨c2, subs, gs, hx, hv⟩ := visit_simple_ok h
    simp only [execute, Option.some.injEq, Prod.mk.injEq, Except.ok.injEq] at hx
    obtain ⟨rfl, rfl⟩ := hx
    simp only [visitList, Option.some.injEq, Prod.mk.injEq] at hv
    rw [← hv.1]
    unfold announce
    repeat' split
    · exact ⟨[], rfl⟩
    · exact ⟨[.executionComplete id], by simp [Ctx.emit]⟩
    · exact ⟨[], rfl⟩

theorem visitEach_emits {P : Prog} {O : Oracle} {fuel : Nat} {id : ActId} {ev : Event} : ∀ {es : List Entity} {s s' : Proc},
    .act id none (.emitEvent ev) ∈ es → visitEach P O fuel es s = some (s', .ok ()) → ∃ q, s'.ctx.emitted = s.ctx.emitted ++ q ∧ ev ∈ q
  | [], _, _, hm, _ => by cases hm
  | e :: es, s, s', hm, h => by
    unfold visitEach at h
    split at h
    · cases h
    · simp at h
    · rename_i c fs hv
      obtain ⟨q1, _, e1⟩ := (visit_mono _ _ _ _ _ hv).emitted
      rcases List.mem_cons.mp hm with rfl | hm
      · obtain ⟨t, ht⟩ := visit_emits hv
        obtain ⟨⟨q, _, e2⟩, _⟩ := (visitEach_pmono P P es h).1
        exact ⟨ev :: t ++ q, by rw [e2]; simp only; rw [ht]; simp, by simp⟩
      · obtain ⟨q, e2, h2⟩ := visitEach_emits hm h
        exact ⟨q1 ++ q, by rw [e2]; simp only; rw [e1]; simp, List.mem_append_right _ h2⟩

theorem handleOne_emits {P : Prog} {O : Oracle} {fuel : Nat} {ev : Event} {k : Nat} {s s' : Proc} (hk : P.EndsLaunch k ev)
    (h : handleOne P O fuel ev k s = some (s', .ok ())) : ∃ q r sig, s'.ctx.emitted = s.ctx.emitted ++ q ∧ .shutdown r sig ∈ q := by
  obtain ⟨⟨q0, _, e0⟩, _⟩ := (handleOne_facts h).1
  unfold handleOne at h
  split at h
  · simp at h
  · rename_i c hb
    obtain ⟨f1, f2, -⟩ := baseHandle_facts hb
    obtain ⟨qb, _, eb⟩ := f2.toMono.emitted
    split at h
    · simp at h
    · rename_i s1 es hr
      unfold runCallback at hr
      simp only [Prod.mk.injEq] at hr
      obtain ⟨r1, r2⟩ := hr
      obtain ⟨es', id, r, sig, g1, g2⟩ := hk.2 (if k = shutdownHandler then { c with isShutdown := true } else c)
      rw [g1] at r2
      cases r2
      split at h
      · cases h
      · simp at h
      · rename_i s2 hv
        obtain ⟨q, e1, e2⟩ := visitEach_emits g2 hv
        have hs' : s'.ctx.emitted = s2.ctx.emitted := by
          split at h
          · simp at h
          · simp at h; rw [← h]
        obtain ⟨qe, _, ee⟩ := (applyEffects_step none (if k = shutdownHandler then { c with isShutdown := true } else c)
          (P.callback k ev (if k = shutdownHandler then { c with isShutdown := true } else c)).effects).toMono.emitted
        have hc : (if k = shutdownHandler then { c with isShutdown := true } else c : Ctx).emitted = c.emitted := by split <;> rfl
        refine ⟨qb ++ (qe ++ q), r, sig, ?_, by simp [e2]⟩
        rw [hs', e1, ← r1]
        simp only
        rw [ee, hc, eb]
        simp

theorem handleAll_emits {P : Prog} {O : Oracle} {fuel : Nat} {ev : Event} {k : Nat} (hk : P.EndsLaunch k ev) : ∀ {hs : List Nat} {s s' : Proc},
    k ∈ hs → handleAll P O fuel ev hs s = some (s', .ok ()) → ∃ q r sig, s'.ctx.emitted = s.ctx.emitted ++ q ∧ .shutdown r sig ∈ q
  | [], _, _, hm, _ => by cases hm
  | j :: hs, s, s', hm, h => by
    unfold handleAll at h
    split at h
    · split at h
      · cases h
      · simp at h
      · rename_i s1 h1
        obtain ⟨⟨q1, _, e1⟩, _⟩ := (handleOne_facts h1).1
        obtain ⟨⟨q2, _, e2⟩, _⟩ := (handleAll_facts _ h).1
        by_cases hj : k = j
        · subst hj
          obtain ⟨q, r, sig, e3, e4⟩ := handleOne_emits hk h1
          exact ⟨q ++ q2, r, sig, by rw [e2, e3]; simp, List.mem_append_left _ e4⟩
        · obtain ⟨q, r, sig, e3, e4⟩ := handleAll_emits hk (List.mem_of_ne_of_mem hj hm) h
          exact ⟨q1 ++ q, r, sig, by rw [e3, e1]; simp, List.mem_append_right _ e4⟩
    · rename_i hmt
      have hj : k ≠ j := by
        rintro rfl
        exact hmt hk.1
      exact handleAll_emits hk (List.mem_of_ne_of_mem hj hm) h

/-- When the event was handled without an exception, a Shutdown event has been emitted. -/
theorem process_emits {P : Prog} {O : Oracle} {fuel : Nat} {ev : Event} {rest : List Event} {k : Nat} {s s' : Svc} (hk : P.withService.EndsLaunch k ev)
    (hm : k ∈ s.ctx.handlers) (hq : s.ctx.queue = ev :: rest) (h : s.step P O (.process fuel) = some s') (ht : s'.task = .done true) :
    ∃ q r sig, s'.ctx.emitted = s.ctx.emitted ++ q ∧ .shutdown r sig ∈ q := by
  simp only [Svc.step] at h
  split at h
  · obtain ⟨e', q', p, r, hq', hp, rfl⟩ := process_inv h
    rw [hq] at hq'
    simp only [List.cons.injEq] at hq'
    obtain ⟨rfl, rfl⟩ := hq'
    cases r with
    | error err => simp at ht
    | ok u => exact handleAll_emits hk hm hp
  · cases h

/-! ## Until the event is handled -/

/-- The first process of the action is not started yet, or its process `n` runs; and its shutdown has not begun. -/
structure Calm (n : Nat) (a : ProcAct) : Prop where
  comp : a.comp = .pending
  shut : a.shut = .pending
  pos : (a.transport = none ∧ a.retries = 0 ∧ n = 0) ∨ (a.task = .running n ∧ a.transport = some n)

theorem shutdown_none (b : Bool) {a : ProcAct} (h1 : a.comp = .pending) (h2 : a.shut = .pending) (h3 : a.transport = none) :
    (a.shutdownProcess b).shut = .pending := by
  unfold shutdownProcess; simp [h1, h2, h3]

/-- Without a process no shutdown begins. -/
theorem process_none {c : ProcCfg} {a a' : ProcAct} (h1 : a.comp = .pending) (h2 : a.shut = .pending) (h3 : a.transport = none)
    (hs : a.process c = some a') : a'.shut = .pending := by
  unfold ProcAct.process at hs
  split at hs
  · cases hs
  · rename_i e q hq
    simp only [Option.some.injEq] at hs
    subst hs
    cases e with
    | shutdownProcess m => simp only; split; exact shutdown_none _ h1 h2 h3; exact h2
    | signal s m o =>
      simp only
      split
      · unfold onSignal; simp only [h3]; exact h2
      · exact h2
    | shutdown sig => simp only; split; exact shutdown_none _ h1 h2 h3; exact h2
    | started m => rw [deferred_none a.deferred { a with queue := q } h2 h1 h3]; exact h2
    | otherStarted => rw [deferred_none a.deferred { a with queue := q } h2 h1 h3]; exact h2
    | exited m code => exact h2
    | timer s => exact h2

theorem Calm.mono {n : Nat} {a a' : ProcAct} (h : Calm n a) (h1 : a'.comp = a.comp) (h2 : a'.shut = .pending) (h3 : a'.transport = a.transport)
    (h4 : a'.retries = a.retries) (h5 : a'.task = a.task ∨ a.transport = none) : Calm n a' := by
  refine ⟨h1.trans h.comp, h2, ?_⟩
  rcases h.pos with ⟨x1, x2, x3⟩ | ⟨x1, x2⟩
  · exact .inl ⟨h3.trans x1, h4.trans x2, x3⟩
  · rcases h5 with e | e
    · exact .inr ⟨e.trans x1, h3.trans x2⟩
    · rw [x2] at e; cases e

/-- A frame of a calm action is calm, or the action is being shut down. -/
theorem Calm.frame {c : ProcCfg} {n : Nat} {a a' : ProcAct} {l : ProcLabel} (hc : Ctl c a) (h : Calm n a) (hs : a.step c l = some a') (hf : Frame a a')
    (hn : a.transport = none → a'.shut = .pending) : Calm n a' ∨ Hunted n false a' := by
  have hr := hf.rest
  have e1 : a'.task = a.task := by rw [hr]
  have e2 : a'.comp = a.comp := by rw [hr]
  have e3 : a'.transport = a.transport := by rw [hr]
  have e4 : a'.retries = a.retries := by rw [hr]
  cases hsh : a'.shut with
  | unset => have := h.shut; rw [hf.shutUnset.mp hsh] at this; cases this
  | pending => exact .inl (h.mono e2 hsh e3 e4 (.inl e1))
  | done =>
    rcases h.pos with ⟨x, _⟩ | ⟨x, _⟩
    · rw [hn x] at hsh; cases hsh
    · exact .inr (hunted_of_begun hc x hs (by rw [h.shut]; simp) hsh)

/-- What can become of it. -/
def Watched (n : Nat) (a : ProcAct) : Prop := a.comp = .done ∨ a.complete n = true ∨ Calm n a ∨ Hunted n false a

theorem Calm.step {c : ProcCfg} {n : Nat} {a a' : ProcAct} {l : ProcLabel} (hc : Ctl c a) (h : Calm n a) (hs : a.step c l = some a') : Watched n a' := by
  have hx : a.executed = true := by
    refine (hc.present ?_).2.2
    intro ht
    have := h.comp
    rw [(hc.absent ht).1] at this
    cases this
  have keep : ∀ {x : ProcAct}, Calm n x → Watched n x := fun h => .inr (.inr (.inl h))
  have hs0 := hs
  cases l with
  | execute =>
    simp only [ProcAct.step, Option.some.injEq] at hs; subst hs
    unfold ProcAct.execute
    rw [if_pos hx]
    exact keep (h.mono rfl h.shut rfl rfl (.inl rfl))
  | begin ok =>
    simp only [ProcAct.step] at hs
    split at hs
    · rename_i ht
      simp only [Option.some.injEq] at hs; subst hs
      refine keep (h.mono rfl h.shut rfl rfl (.inr ?_))
      rcases h.pos with ⟨x, _⟩ | ⟨x, _⟩
      · exact x
      · rw [ht] at x; cases x
    · cases hs
  | spawn =>
    simp only [ProcAct.step] at hs
    split at hs
    · rename_i ht
      simp only [Option.some.injEq] at hs; subst hs
      refine keep (h.mono rfl h.shut rfl rfl (.inr ?_))
      rcases h.pos with ⟨x, _⟩ | ⟨x, _⟩
      · exact x
      · rw [ht] at x; cases x
    · cases hs
  | spawnFail =>
    simp only [ProcAct.step] at hs
    split at hs
    · simp only [Option.some.injEq] at hs; subst hs; exact .inl rfl
    · cases hs
  | attach =>
    simp only [ProcAct.step] at hs
    split at hs
    · rename_i m ht
      simp only [Option.some.injEq] at hs; subst hs
      have hlen := hc.length
      rw [ht] at hlen
      simp only at hlen
      refine keep ⟨h.comp, h.shut, .inr ?_⟩
      rcases h.pos with ⟨_, x2, x3⟩ | ⟨x, _⟩
      · have hm : m = n := by omega
        subst hm
        exact ⟨rfl, rfl⟩
      · rw [ht] at x; cases x
    · cases hs
  | procExit m code =>
    simp only [ProcAct.step] at hs
    split at hs
    · simp only [Option.some.injEq] at hs; subst hs
      exact keep (h.mono rfl h.shut rfl rfl (.inl rfl))
    · cases hs
  | observe =>
    simp only [ProcAct.step] at hs
    split at hs
    · rename_i m ht
      split at hs
      · rename_i code hcd
        refine .inr (.inl (complete_iff.mpr ⟨code, complete_step hs0 ?_⟩))
        rcases h.pos with ⟨x, _⟩ | ⟨x, _⟩
        · rw [hc.running m ht] at x; cases x
        · rw [ht] at x; cases x; exact hcd
      · cases hs
    · cases hs
  | delayOver =>
    simp only [ProcAct.step] at hs
    split at hs
    · rename_i ht
      simp only [Option.some.injEq] at hs; subst hs
      split
      · exact .inl rfl
      · refine keep (h.mono rfl h.shut rfl rfl (.inr ?_))
        rcases h.pos with ⟨x, _⟩ | ⟨x, _⟩
        · exact x
        · rw [ht] at x; cases x
    · cases hs
  | timerBegin s =>
    simp only [ProcAct.step] at hs
    split at hs
    · simp only [Option.some.injEq] at hs; subst hs
      rw [setTimer_eq]
      exact keep (h.mono rfl h.shut rfl rfl (.inl rfl))
    · cases hs
  | timerFire s =>
    simp only [ProcAct.step] at hs
    split at hs
    · split at hs
      · simp only [Option.some.injEq] at hs; subst hs
        rw [setTimer_eq]
        exact keep (h.mono rfl h.shut rfl rfl (.inl rfl))
      · cases hs
    · cases hs
  | tick =>
    simp only [ProcAct.step, Option.some.injEq] at hs; subst hs
    exact keep (h.mono rfl h.shut rfl rfl (.inl rfl))
  | setShut =>
    simp only [ProcAct.step, Option.some.injEq] at hs; subst hs
    exact keep (h.mono rfl h.shut rfl rfl (.inl rfl))
  | emit e =>
    simp only [ProcAct.step] at hs
    split at hs
    · simp only [Option.some.injEq] at hs; subst hs
      exact keep (h.mono rfl h.shut rfl rfl (.inl rfl))
    · cases hs
  | ask m =>
    simp only [ProcAct.step, Option.some.injEq] at hs; subst hs
    exact .inr (.inr (h.frame hc hs0 (shutdownProcess_frame _ _) (shutdown_none _ h.comp h.shut)))
  | process => exact .inr (.inr (h.frame hc hs0 (process_frame hs) (fun x => process_none h.comp h.shut x hs)))

theorem Watched.step {c : ProcCfg} {n : Nat} {a a' : ProcAct} {l : ProcLabel} (hc : Ctl c a) (h : Watched n a) (hs : a.step c l = some a') : Watched n a' := by
  rcases h with h | h | h | h
  · exact .inl (done_step hc h hs)
  · obtain ⟨code, e⟩ := complete_iff.mp h
    exact .inr (.inl (complete_iff.mpr ⟨code, complete_step hs e⟩))
  · exact h.step hc hs
  · have hr : runSteps (ProcAct.step c) a [l] = some a' := by simp [runSteps, hs]
    rcases doomed_run (b := false) hc (.inr (.inr (.inr h))) (by simp) hr with x | x | x | x
    · exact .inl x
    · exact .inr (.inl x)
    · refine .inr (.inr (.inl ⟨x.comp, x.shut, ?_⟩))
      rcases x.pos with ⟨y1, y2, y3, _⟩ | ⟨y1, y2, _⟩
      · exact .inl ⟨y1, y2, y3⟩
      · exact .inr ⟨y1, y2⟩
    · exact .inr (.inr (.inr x))

theorem Watched.run {c : ProcCfg} {n : Nat} {ls : List ProcLabel} {a a' : ProcAct} (hc : Ctl c a) (h : Watched n a)
    (hr : runSteps (ProcAct.step c) a ls = some a') : Watched n a' :=
  (runSteps_induct (R := fun x => Ctl c x ∧ Watched n x) (fun _ _ _ ⟨hx, hd⟩ hs => ⟨hx.step hs, hd.step hx hs⟩) ls _ _ ⟨hc, h⟩ hr).2

/-! ## The whole launch -/

/-- More about the handling of an event. -/
theorem stepHandle_svc {P : Prog} {O : Oracle} {ids : List Nat} {cfg : Nat → ProcCfg} {K : Codes} {y y' : Sys} {fuel : Nat} {told : List Nat} {q : List Event}
    (hs : y.stepHandle P O ids cfg K fuel told q = some y') :
    ∃ e rest s', y.svc.ctx.queue = e :: rest ∧ y.svc.step P O (.process fuel) = some s' ∧ (y'.failed = false → s'.task = .done true) ∧
      q.filter (K.others ids) = s'.ctx.emitted.drop y.svc.ctx.emitted.length ∧ y'.svc.ctx.queue = rest ++ q ∧
      y'.svc.ctx.handlers = s'.ctx.handlers ∧ y'.svc.ctx.registered = s'.ctx.registered ∧ y'.svc.ctx.unregistered = s'.ctx.unregistered ∧
      y'.svc.shutting = s'.shutting ∧ y'.svc.pc = s'.pc := by
  unfold Sys.stepHandle at hs
  split at hs
  · cases hs
  · rename_i e rest hq
    cases h : y.svc.step P O (.process fuel) with
    | none => rw [h] at hs; cases hs
    | some s' =>
      rw [h] at hs
      simp only [Option.bind_some] at hs
      split at hs
      · rename_i hc
        simp only [Option.some.injEq] at hs
        simp only [Bool.and_eq_true] at hc
        refine ⟨e, rest, s', hq, rfl, ?_, by simpa using hc.1.2, by rw [← hs]; rfl, by rw [← hs]; rfl, by rw [← hs]; rfl, by rw [← hs]; rfl,
          by rw [← hs]; rfl, by rw [← hs]; rfl⟩
        intro hf
        rw [← hs] at hf
        simp only [Sys.mark, Bool.or_eq_false_iff, Bool.not_eq_false', Bool.and_eq_true] at hf
        simpa using hf.2.1
      · cases hs

/-- What a step does with the queue and with the handlers. -/
theorem joint_kept {P : Prog} {O : Oracle} {ids : List Nat} {cfg : Nat → ProcCfg} {K : Codes} {y y' : Sys} {l : JointLabel}
    (hs : y.stepJoint P O ids cfg K l = some y') :
    Kept y.svc.ctx y'.svc.ctx ∧
      ((∃ new, y'.svc.ctx.queue = y.svc.ctx.queue ++ new) ∨
        ∃ fuel told q e rest, l = .handle fuel told q ∧ y.svc.ctx.queue = e :: rest ∧ y'.svc.ctx.queue = rest ++ q) := by
  have hsvc : ∀ l, (∀ fuel, l ≠ .process fuel) → y.stepSvc P O ids K l = some y' →
      Kept y.svc.ctx y'.svc.ctx ∧ ∃ new, y'.svc.ctx.queue = y.svc.ctx.queue ++ new := by
    intro l hl h
    unfold Sys.stepSvc at h
    cases h1 : y.svc.step P O l with
    | none => rw [h1] at h; cases h
    | some s' =>
      rw [h1] at h
      simp only [Option.bind_some] at h
      split at h
      · simp only [Option.some.injEq] at h; subst h
        obtain ⟨new, _, e⟩ := queue_step hl h1
        exact ⟨(step_mono h1).kept, new, e⟩
      · cases h
  have hproc : ∀ j l, y.stepProc P O ids cfg K j l = some y' → Kept y.svc.ctx y'.svc.ctx ∧ ∃ new, y'.svc.ctx.queue = y.svc.ctx.queue ++ new := by
    intro j l h
    unfold Sys.stepProc at h
    split at h
    · cases h1 : (y.act j).step (cfg j) l with
      | none => rw [h1] at h; cases h
      | some a =>
        rw [h1] at h
        simp only [Option.bind_some] at h
        split at h
        · cases h
        · simp only [Option.some.injEq] at h; subst h
          have e : (y.set P O j { a with queue := [] }).svc.ctx = y.svc.ctx := set_ctx P O y j _
          simp only [emitAll_eq, e]
          exact ⟨Kept.same rfl rfl rfl, _, rfl⟩
    · cases h
  cases l with
  | svc l =>
    have : Kept y.svc.ctx y'.svc.ctx ∧ ∃ new, y'.svc.ctx.queue = y.svc.ctx.queue ++ new := by
      cases l <;> simp only [Sys.stepJoint] at hs <;>
        first | cases hs | (split at hs; cases hs; exact hsvc _ (by simp) hs) | exact hsvc _ (by simp) hs
    exact ⟨this.1, .inl this.2⟩
  | handle fuel told q =>
    obtain ⟨e, rest, s', h1, h2, _, _, h5, h6, h7, h8, _⟩ := stepHandle_svc hs
    refine ⟨?_, .inr ⟨fuel, told, q, e, rest, rfl, h1, h5⟩⟩
    have := (step_mono h2).kept
    unfold Kept at this ⊢
    rw [h6, h7, h8]
    exact this
  | proc j l =>
    have : Kept y.svc.ctx y'.svc.ctx ∧ ∃ new, y'.svc.ctx.queue = y.svc.ctx.queue ++ new := by
      cases l <;> simp only [Sys.stepJoint] at hs <;> first | cases hs | exact hproc _ _ hs
    exact ⟨this.1, .inl this.2⟩

theorem joint_kept_run {P : Prog} {O : Oracle} {ids : List Nat} {cfg : Nat → ProcCfg} {K : Codes} {ls : List JointLabel} {y y' : Sys}
    (h : runSteps (Sys.stepJoint P O ids cfg K) y ls = some y') : Kept y.svc.ctx y'.svc.ctx :=
  runSteps_induct (R := fun z : Sys => Kept y.svc.ctx z.svc.ctx) (fun _ _ _ a b => a.trans (joint_kept b).1) ls y y' (Kept.same rfl rfl rfl) h

theorem joint_failed_run {P : Prog} {O : Oracle} {ids : List Nat} {cfg : Nat → ProcCfg} {K : Codes} {ls : List JointLabel} {y y' : Sys}
    (h : runSteps (Sys.stepJoint P O ids cfg K) y ls = some y') (hf : y'.failed = false) : y.failed = false := by
  cases hh : y.failed
  · rfl
  · have : y'.failed = true := runSteps_induct (R := fun y : Sys => y.failed = true) (step := Sys.stepJoint P O ids cfg K)
      (fun s l s' a b => by
        cases hh : s'.failed
        · rw [joint_failed b hh] at a; cases a
        · rfl) ls y y' hh h
    rw [hf] at this; cases this

/-- An event that waits is handled before the queue is empty. -/
theorem joint_until {P : Prog} {O : Oracle} {ids : List Nat} {cfg : Nat → ProcCfg} {K : Codes} {ev : Event} : ∀ {ls : List JointLabel} {y y' : Sys},
    ev ∈ y.svc.ctx.queue → runSteps (Sys.stepJoint P O ids cfg K) y ls = some y' → y'.svc.ctx.queue = [] →
      ∃ l1 fuel told q l2 ya yb rest, ls = l1 ++ .handle fuel told q :: l2 ∧ runSteps (Sys.stepJoint P O ids cfg K) y l1 = some ya ∧
        ya.svc.ctx.queue = ev :: rest ∧ ya.stepJoint P O ids cfg K (.handle fuel told q) = some yb ∧ runSteps (Sys.stepJoint P O ids cfg K) yb l2 = some y'
  | [], y, y', hm, h, hq => by
    simp only [runSteps, Option.some.injEq] at h
    rw [h, hq] at hm; cases hm
  | l :: ls, y, y', hm, h, hq => by
    obtain ⟨y1, h1, h2⟩ := runSteps_cons h
    have go : ev ∈ y1.svc.ctx.queue → _ := fun hm1 => joint_until hm1 h2 hq
    rcases (joint_kept h1).2 with ⟨new, e⟩ | ⟨fuel, told, q, e', rest, rfl, e1, e2⟩
    · obtain ⟨l1, fuel, told, q, l2, ya, yb, rest, g1, g2, g3⟩ := go (by rw [e]; exact List.mem_append_left _ hm)
      exact ⟨l :: l1, fuel, told, q, l2, ya, yb, rest, by rw [g1]; rfl, by simp [runSteps, h1, g2], g3⟩
    · by_cases he : ev = e'
      · subst he
        exact ⟨[], fuel, told, q, ls, y, y1, rest, rfl, rfl, e1, h1, h2⟩
      · rw [e1] at hm
        obtain ⟨l1, fuel', told', q', l2, ya, yb, rest', g1, g2, g3⟩ := go (by rw [e2]; exact List.mem_append_left _ (List.mem_of_ne_of_mem he hm))
        exact ⟨_ :: l1, fuel', told', q', l2, ya, yb, rest', by rw [g1]; rfl, by simp [runSteps, h1, g2], g3⟩

/-- The handling of the event puts a Shutdown event into the queue. -/
theorem handle_asks {P : Prog} {O : Oracle} {ids : List Nat} {cfg : Nat → ProcCfg} {K : Codes} {y y' : Sys} {fuel : Nat} {told : List Nat} {q : List Event} {ev : Event}
    {rest : List Event} {k : Nat} (hk : P.withService.EndsLaunch k ev) (hm : k ∈ y.svc.ctx.handlers) (hq : y.svc.ctx.queue = ev :: rest)
    (hs : y.stepJoint P O ids cfg K (.handle fuel told q) = some y') (hf : y'.failed = false) : ∃ r sig, .shutdown r sig ∈ y'.svc.ctx.queue := by
  obtain ⟨e, rest', s', h1, h2, h3, h4, h5, _⟩ := stepHandle_svc hs
  rw [hq] at h1
  simp only [List.cons.injEq] at h1
  obtain ⟨rfl, rfl⟩ := h1
  obtain ⟨q', r, sig, e1, e2⟩ := process_emits hk hm hq h2 (h3 hf)
  rw [e1, List.drop_left] at h4
  rw [← h4] at e2
  exact ⟨r, sig, by rw [h5]; exact List.mem_append_right _ (List.mem_filter.mp e2).1⟩

/-- **C111 The end of a process that the launch needs ends the launch: every process is told.**  The event (the exit of that process, say) waits to be handled, and a handler is
registered that gives a Shutdown action for it and is not removed.  Some process action was executed, its first process is not started yet or a process of it runs, and
its shutdown has not begun.  Then in every later state in which everything that is due was done, and if no handler has raised an exception, that process, if it still
runs, has been sent SIGTERM, or the timer for it is still to fire, and the same for SIGKILL. -/
theorem C111_everybody_told_partial (P : Prog) (O : Oracle) (env : Dict String) (ids : List Nat) (cfg : Nat → ProcCfg) (K : Codes) (hK : K.Lawful)
    (ls : List JointLabel) (y : Sys) (h : Sys.ReachesJoint P O env ids cfg K ls y) (ev : Event) (hev : ev ∈ y.svc.ctx.queue)
    (k : Nat) (hk : k ∈ y.svc.ctx.handlers) (hends : P.withService.EndsLaunch k ev)
    (j : Nat) (hj : j ∈ ids) (n : Nat) (hp : (y.act j).comp = .pending) (hsh : (y.act j).shut = .pending)
    (hn : (y.act j).transport = none ∧ n = 0 ∨ (y.act j).RunsProc n) (ls' : List JointLabel) (y' : Sys)
    (hrun : runSteps (Sys.stepJoint P O ids cfg K) y ls' = some y') (hf : y'.failed = false)
    (hkept : y'.svc.ctx.unregistered.count k = y.svc.ctx.unregistered.count k) (hset : y'.SettledFor cfg j) (hn' : (y'.act j).RunsProc n) :
    ((y'.act j).Sent n .term ∨ (y'.act j).Awaits .term) ∧ ((y'.act j).Sent n .kill ∨ (y'.act j).Awaits .kill) := by
  obtain ⟨l1, fuel, told, q, l2, ya, yb, rest, rfl, g1, g2, g3, g4⟩ := joint_until hev hrun hset.1
  have hfb := joint_failed_run g4 hf
  have hfa := joint_failed g3 hfb
  have hf0 := joint_failed_run g1 hfa
  -- the handler is still there
  have hka : k ∈ ya.svc.ctx.handlers := by
    have k1 := joint_kept_run g1 k
    have k2 := ((joint_kept g3).1.trans (joint_kept_run g4)) k
    have h3 : 0 < y.svc.ctx.handlers.count k := List.count_pos_iff.2 hk
    exact List.count_pos_iff.1 (by omega)
  obtain ⟨r, sig, hr⟩ := handle_asks hends hka g2 g3 hfb
  -- the process action meanwhile
  obtain ⟨hq, hreach⟩ := joint_reach hK h
  obtain ⟨ls0, h0⟩ := hreach hf0 j hj
  have hc0 := Ctl.reach h0
  have hx : (y.act j).executed = true := by
    cases hh : (y.act j).executed
    · have := congrArg ProcAct.comp (ProcAct.unexecuted_reach h0 hh).eq
      simp only [Sys.view] at this
      rw [hp] at this; cases this
    · rfl
  have hrb : runSteps (Sys.stepJoint P O ids cfg K) y (l1 ++ [.handle fuel told q]) = some yb := by
    rw [runSteps_append, g1]; simp [runSteps, g3]
  have hb : Sys.ReachesJoint P O env ids cfg K (ls ++ (l1 ++ [.handle fuel told q])) yb := by
    unfold Sys.ReachesJoint at h ⊢
    rw [runSteps_append, h]; exact hrb
  obtain ⟨hqb, hreachb⟩ := joint_reach hK hb
  obtain ⟨_, lsb, _, hvb, _⟩ := joint_run hK hj hq hx hrb hfb
  have hxb : (yb.view K j).executed = true :=
    runSteps_induct (R := fun a : ProcAct => a.executed = true) (step := ProcAct.step (cfg j)) (fun s l s' a b => ProcAct.executed_step a b) lsb _ _
      (show (y.view K j).executed = true from hx) hvb
  obtain ⟨_, ls1, _, hv1, _⟩ := joint_run hK hj hqb hxb g4 hf
  have hcb := hc0.run hvb
  have hc1 := hcb.run hv1
  have hcalm : Calm n (y.view K j) := by
    refine ⟨hp, hsh, ?_⟩
    rcases hn with ⟨x, z⟩ | x
    · exact .inl ⟨x, retries_none h0 x, z⟩
    · exact .inr ⟨x.1, hc0.running n x.1⟩
  have hview : y'.view K j = y'.act j := by
    have hq' : (y'.act j).queue = [] := runSteps_induct (R := fun y : Sys => ∀ i, (y.act i).queue = []) (step := Sys.stepJoint P O ids cfg K)
      (fun s l s' a b => joint_queue a b) _ y y' hq hrun j
    simp only [Sys.view, hset.1, List.filterMap_nil]
    rw [← hq']
  have hs : (y'.act j).Settled (cfg j) := ⟨by rw [← hview]; simp [Sys.view, hset.1], hset.2⟩
  rw [hview] at hv1 hc1
  have hnd : (y'.act j).comp ≠ .done := by
    intro hd
    have := hc1.ended.mp hd
    rw [hn'.1] at this; cases this
  have hnc : (y'.act j).complete n ≠ true := by
    intro hd
    obtain ⟨code, e⟩ := complete_iff.mp hd
    rw [hn'.2] at e; cases e
  have hdone : ∀ {x : ProcAct}, Ctl (cfg j) x → runSteps (ProcAct.step (cfg j)) x ls1 = some (y'.act j) → x.comp ≠ .done ∧ x.complete n ≠ true := by
    intro x hcx hrx
    have := runSteps_induct (R := fun z => Ctl (cfg j) z ∧ (x.comp = .done → z.comp = .done) ∧ (x.complete n = true → z.complete n = true))
      (fun s l s' ⟨a1, a2, a3⟩ b => ⟨a1.step b, fun z => done_step a1 (a2 z) b, fun z => by
        obtain ⟨code, e⟩ := complete_iff.mp (a3 z)
        exact complete_iff.mpr ⟨code, complete_step b e⟩⟩) ls1 _ _ ⟨hcx, id, id⟩ hrx
    exact ⟨fun z => hnd (this.2.1 z), fun z => hnc (this.2.2 z)⟩
  obtain ⟨d1, d2⟩ := hdone hcb hv1
  rcases Watched.run hc0 (.inr (.inr (.inl hcalm))) hvb with x | x | x | x
  · exact absurd x d1
  · exact absurd x d2
  · -- nobody has begun to shut it down before
    refine C108_shutdown_reaches_partial P O env ids cfg K hK _ yb hb r sig hr j hj n x.comp x.shut ?_ l2 y' g4 hf hset hn'
    rcases x.pos with ⟨z1, _, z3⟩ | ⟨z1, z2⟩
    · exact .inl ⟨z1, z3⟩
    · refine .inr ⟨z1, ?_⟩
      have hlt : n < (yb.view K j).procs.length := (hcb.transport n z2).1
      have hv : (yb.view K j).procs[n]? = some ((yb.view K j).procs[n]) := List.getElem?_eq_getElem hlt
      cases hw : (yb.view K j).procs[n] with
      | none => rw [hw] at hv; exact hv
      | some code => rw [hw] at hv; exact absurd (complete_iff.mpr ⟨code, hv⟩) d2
  · -- somebody has
    rcases Watched.run hcb (.inr (.inr (.inr x))) hv1 with z | z | z | z
    · exact absurd z hnd
    · exact absurd z hnc
    · have : (y'.act j).shut = .done := (runSteps_induct (R := fun a : ProcAct => Ctl (cfg j) a ∧ a.shut = .done) (step := ProcAct.step (cfg j))
        (fun _ _ _ a b => ⟨a.1.step b, (about_step a.1 a.2 b).1⟩) ls1 _ _ ⟨hcb, x.shut⟩ hv1).2
      rw [z.shut] at this; cases this
    · exact ⟨settled_esc z.term hs, settled_esc z.kill hs⟩

/-- What is reported when the end of a process is noticed. -/
theorem observe_reports {P : Prog} {O : Oracle} {ids : List Nat} {cfg : Nat → ProcCfg} {K : Codes} {y y' : Sys} {i m : Nat} {code : Int} (hq : (y.act i).queue = [])
    (ht : (y.act i).task = .running m) (hc : (y.act i).procs[m]? = some (some code)) (hs : y.stepJoint P O ids cfg K (.proc i .observe) = some y') :
    K.enc i (.exited m code) ∈ y'.svc.ctx.queue ∧ y'.svc.ctx.handlers = y.svc.ctx.handlers ∧ y'.svc.ctx.unregistered = y.svc.ctx.unregistered ∧
      ∀ j, j ≠ i → y'.act j = y.act j := by
  simp only [Sys.stepJoint, Sys.stepProc] at hs
  split at hs
  · simp only [ProcAct.step, ht, hc, Option.bind_some] at hs
    split at hs
    · cases hs
    · simp only [Option.some.injEq] at hs; subst hs
      simp only [emitAll_eq, set_ctx]
      refine ⟨List.mem_append_right _ (List.mem_map.mpr ⟨_, ?_, rfl⟩), trivial, trivial, fun j hj => ?_⟩
      · unfold ProcAct.observe ProcAct.cleanup
        simp only [hq]
        split <;> simp
      · unfold Sys.set
        simp [hj]
  · cases hs

/-- **C111 When a process that the launch needs exits, every other process is told.**  The exit of process `m` of action `i` is noticed, and a handler is registered that gives
a Shutdown action for that exit and is not removed.  Another process action was executed, its first process is not started yet or a process of it runs, and its shutdown
has not begun.  Then in every later state in which everything that is due was done, and if no handler has raised an exception, that process, if it still runs, has been
sent SIGTERM, or the timer for it is still to fire, and the same for SIGKILL. -/
theorem C111_needed_process_partial (P : Prog) (O : Oracle) (env : Dict String) (ids : List Nat) (cfg : Nat → ProcCfg) (K : Codes) (hK : K.Lawful)
    (ls : List JointLabel) (y y1 : Sys) (h : Sys.ReachesJoint P O env ids cfg K ls y) (i m : Nat) (code : Int) (ht : (y.act i).task = .running m)
    (hc : (y.act i).procs[m]? = some (some code)) (hs : y.stepJoint P O ids cfg K (.proc i .observe) = some y1)
    (k : Nat) (hk : k ∈ y.svc.ctx.handlers) (hends : P.withService.EndsLaunch k (K.enc i (.exited m code)))
    (j : Nat) (hj : j ∈ ids) (hij : j ≠ i) (n : Nat) (hp : (y.act j).comp = .pending) (hsh : (y.act j).shut = .pending)
    (hn : (y.act j).transport = none ∧ n = 0 ∨ (y.act j).RunsProc n) (ls' : List JointLabel) (y' : Sys)
    (hrun : runSteps (Sys.stepJoint P O ids cfg K) y1 ls' = some y') (hf : y'.failed = false)
    (hkept : y'.svc.ctx.unregistered.count k = y.svc.ctx.unregistered.count k) (hset : y'.SettledFor cfg j) (hn' : (y'.act j).RunsProc n) :
    ((y'.act j).Sent n .term ∨ (y'.act j).Awaits .term) ∧ ((y'.act j).Sent n .kill ∨ (y'.act j).Awaits .kill) := by
  obtain ⟨g1, g2, g3, g4⟩ := observe_reports ((joint_reach hK h).1 i) ht hc hs
  have h1 : Sys.ReachesJoint P O env ids cfg K (ls ++ [.proc i .observe]) y1 := by
    unfold Sys.ReachesJoint at h ⊢
    rw [runSteps_append, h]; simp [runSteps, hs]
  exact C111_everybody_told_partial P O env ids cfg K hK _ y1 h1 _ g1 k (by rw [g2]; exact hk) hends j hj n (by rw [g4 j hij]; exact hp) (by rw [g4 j hij]; exact hsh)
    (by rw [g4 j hij]; exact hn) ls' y' hrun hf (by rw [g3]; exact hkept) hset hn'

/-- A Shutdown event that was handled has been noted. -/
theorem handle_shutting {P : Prog} {O : Oracle} {ids : List Nat} {cfg : Nat → ProcCfg} {K : Codes} {y y' : Sys} {fuel : Nat} {told : List Nat} {q : List Event} {r : String} {sig : Bool}
    {rest : List Event} (hm : shutdownHandler ∈ y.svc.ctx.handlers) (hq : y.svc.ctx.queue = .shutdown r sig :: rest)
    (hs : y.stepJoint P O ids cfg K (.handle fuel told q) = some y') (hf : y'.failed = false) : y'.svc.shutting = true := by
  obtain ⟨e, rest', s', h1, h2, h3, _, _, _, _, _, h9, _⟩ := stepHandle_svc hs
  rw [h9]
  have ht := h3 hf
  simp only [Svc.step] at h2
  split at h2
  · obtain ⟨e', q', p, r', hq', hp, rfl⟩ := process_inv h2
    rw [hq] at hq'
    simp only [List.cons.injEq] at hq'
    obtain ⟨rfl, rfl⟩ := hq'
    obtain ⟨_, _, hok⟩ := handleAll_facts _ hp
    cases r' with
    | error err => simp at ht
    | ok u =>
      obtain ⟨_, _, _, h4, h5⟩ := hok rfl
      have hin : shutdownHandler ∈ y.svc.ctx.handlers.filter (P.withService.matchesEv · (.shutdown r sig)) := by
        rw [List.mem_filter]
        exact ⟨hm, by simp [Prog.withService, shutdownHandler, includeHandler, Event.isShutdown]⟩
      show p.shutting = true
      rw [h4]; simp [hin]
  · cases h2

/-- **C111 … and the launch is shut down.**  In a run that goes on until no event waits, and in which no handler raises an exception, there is a time after that at which the
launch is shutting down. -/
theorem C111_shuts_down_partial (P : Prog) (O : Oracle) (env : Dict String) (ids : List Nat) (cfg : Nat → ProcCfg) (K : Codes)
    (ls : List JointLabel) (y : Sys) (h : Sys.ReachesJoint P O env ids cfg K ls y) (ev : Event) (hev : ev ∈ y.svc.ctx.queue)
    (k : Nat) (hk : k ∈ y.svc.ctx.handlers) (hends : P.withService.EndsLaunch k ev) (ls' : List JointLabel) (y' : Sys)
    (hrun : runSteps (Sys.stepJoint P O ids cfg K) y ls' = some y') (hf : y'.failed = false)
    (hkept : y'.svc.ctx.unregistered.count k = y.svc.ctx.unregistered.count k) (hown : shutdownHandler ∉ y'.svc.ctx.unregistered)
    (hq : y'.svc.ctx.queue = []) :
    ∃ l1 l2 z, ls' = l1 ++ l2 ∧ runSteps (Sys.stepJoint P O ids cfg K) y l1 = some z ∧ runSteps (Sys.stepJoint P O ids cfg K) z l2 = some y' ∧ z.svc.shutting = true := by
  obtain ⟨l1, fuel, told, q, l2, ya, yb, rest, rfl, g1, g2, g3, g4⟩ := joint_until hev hrun hq
  have hfb := joint_failed_run g4 hf
  have hka : k ∈ ya.svc.ctx.handlers := by
    have k1 := joint_kept_run g1 k
    have k2 := ((joint_kept g3).1.trans (joint_kept_run g4)) k
    have h3 : 0 < y.svc.ctx.handlers.count k := List.count_pos_iff.2 hk
    exact List.count_pos_iff.1 (by omega)
  obtain ⟨r, sig, hr⟩ := handle_asks hends hka g2 g3 hfb
  obtain ⟨m1, fuel', told', q', m2, yc, yd, rest', rfl, f1, f2, f3, f4⟩ := joint_until hr g4 hq
  have hfd := joint_failed_run f4 hf
  have hin : shutdownHandler ∈ yc.svc.ctx.handlers := by
    have r0 : runSteps (Sys.stepJoint P O ids cfg K) { svc := Svc.init env } (ls ++ (l1 ++ .handle fuel told q :: m1)) = some yc := by
      unfold Sys.ReachesJoint at h
      rw [runSteps_append, h]
      simp only [Option.bind_some]
      rw [runSteps_append, g1]
      simp [runSteps, g3, f1]
    have k1 := joint_kept_run r0 shutdownHandler
    have k2 := ((joint_kept f3).1.trans (joint_kept_run f4)) shutdownHandler
    have h0 : y'.svc.ctx.unregistered.count shutdownHandler = 0 := List.count_eq_zero.2 hown
    have h3 : 0 < (Svc.init env).ctx.handlers.count shutdownHandler := by simp [Svc.init, Ctx.registerHandler, shutdownHandler, includeHandler]
    simp only at k1
    exact List.count_pos_iff.1 (by omega)
  refine ⟨l1 ++ .handle fuel told q :: (m1 ++ [.handle fuel' told' q']), m2, yd, by simp, ?_, f4, handle_shutting hin f2 f3 hfd⟩
  rw [runSteps_append, g1]
  simp only [Option.bind_some, runSteps, g3]
  rw [runSteps_append, f1]
  simp [runSteps, f3]

/-! ## Examples -/

/-- The launch needs the first process: when it has exited with 1, its handler gives a Shutdown action. -/
def neededProg : Prog :=
  { jointProg with
    matchesEv := fun h e => h == 6 && e == sampleCodes.enc 0 (.exited 0 1)
    once := fun _ => false
    callback := fun _ _ _ => { result := .ok [.act (.user 9) none (.emitEvent (.shutdown "needed" false))] }
    description := fun _ => [.act (.user 0) none (.custom 1 [] []), .act (.user 1) none (.custom 1 [] []), .act (.user 2) none (.registerHandler 6 none)] }

example : neededProg.withService.EndsLaunch 6 (sampleCodes.enc 0 (.exited 0 1)) :=
  ⟨by decide +kernel, fun c => ⟨_, _, _, _, rfl, List.mem_singleton_self _⟩⟩

/-- Both run when the first has exited. -/
example : (jointRun neededProg (jointBoth ++ [.proc 0 (.procExit 0 1)])).map (fun y => ((y.act 0).task, (y.act 0).procs, y.svc.ctx.handlers, y.svc.ctx.unregistered)) =
      some (.running 0, [some 1], [6, 1, 0], []) ∧
    (jointRun neededProg (jointBoth ++ [.proc 0 (.procExit 0 1)])).map (fun y => ((y.act 1).comp, (y.act 1).shut, (y.act 1).task, (y.act 1).procs)) =
      some (.pending, .pending, .running 0, [none]) := ⟨by decide +kernel, by decide +kernel⟩

/-- What happens then: the second process is sent SIGINT, and SIGTERM a second later. -/
def neededAfter : List JointLabel :=
  [.proc 0 .observe] ++ jointServe [.shutdown "needed" false] ++ jointServe [signalOf 1 .int] ++ jointServe [] ++
    [.proc 1 (.timerBegin .term), .proc 1 (.timerBegin .kill), .proc 1 .tick, .proc 1 (.timerFire .term)] ++ jointServe [signalOf 1 .term] ++ jointServe []

example : (jointRun neededProg (jointBoth ++ [.proc 0 (.procExit 0 1)] ++ neededAfter)).map
    (fun y => (y.failed, y.svc.ctx.queue, y.svc.shutting, (y.act 1).signals, (y.act 1).sigkill)) =
      some (false, [], true, [⟨.int, 0, 0, true⟩, ⟨.term, 0, 1, true⟩], .waiting 2) := by decide +kernel

end Verif
