import Verif.Lemmas.Joint

/-! # Each process action of the joint system behaves as the model of a single one says -/

namespace Verif

theorem handled_step {P : Prog} {O : Oracle} {s s' : Svc} {l : Label} (hl : ∀ fuel, l ≠ .process fuel) (h : s.step P O l = some s') :
    s'.handled = s.handled := by
  have hreq : ∀ (r : String) (b : Bool) (x : Svc), (x.request r b).handled = x.handled := by
    intro r b x; unfold Svc.request Svc.setFlags Svc.emitShutdown; split <;> rfl
  cases l with
  | process fuel => exact absurd rfl (hl fuel)
  | start w =>
    simp only [Svc.step] at h
    split at h
    · simp only [Option.some.injEq] at h; subst h; unfold Svc.start; split <;> rfl
    · cases h
  | check =>
    simp only [Svc.step] at h
    split at h
    · simp only [Option.some.injEq] at h; subst h; unfold Svc.check
      simp only
      split
      · rw [hreq]; rfl
      · split <;> rfl
    · cases h
  | wake =>
    simp only [Svc.step] at h
    split at h
    · unfold Svc.wake at h
      simp only at h
      split at h
      · cases h
      · split at h
        · simp only [Option.some.injEq] at h; subst h; rfl
        · split at h
          · simp only [Option.some.injEq] at h; subst h; exact hreq _ _ _
          · simp only [Option.some.injEq] at h; subst h; rfl
    · cases h
  | cancel => simp only [Svc.step] at h; split at h <;> simp at h; subst h; rfl
  | sigint =>
    simp only [Svc.step] at h
    split at h
    · simp only [Option.some.injEq] at h; subst h
      split
      · rfl
      · exact hreq _ _ _
    · cases h
  | shutdownLoop =>
    simp only [Svc.step] at h
    split at h
    · simp only [Option.some.injEq] at h; subst h
      split
      · unfold Svc.setFlags; split <;> rfl
      · rfl
    · cases h
  | shutdownSync =>
    simp only [Svc.step] at h
    split at h
    · simp only [Option.some.injEq] at h; subst h
      split
      · exact hreq _ _ _
      · rfl
    · cases h
  | awaitShutdown =>
    simp only [Svc.step] at h
    split at h
    · cases h
    · simp only [Option.some.injEq] at h; subst h; rfl
  | threadShutdown =>
    simp only [Svc.step] at h
    split at h
    · simp only [Option.some.injEq] at h; subst h
      split
      · split <;> rfl
      · rfl
    · cases h
  | threadEmit => simp only [Svc.step] at h; split at h <;> simp at h; subst h; rfl
  | threadFlags => simp only [Svc.step] at h; split at h <;> simp at h; subst h; rfl
  | finish => simp only [Svc.step] at h; split at h <;> simp at h; subst h; rfl
  | emit e => simp only [Svc.step] at h; split at h <;> simp at h; subst h; rfl
  | futureDone f r => simp only [Svc.step] at h; split at h <;> simp at h; subst h; rfl
  | callback i =>
    simp only [Svc.step] at h
    split at h
    · cases h
    · split at h
      · simp only [Option.some.injEq] at h; subst h; rfl
      · cases h
  | loopException => simp only [Svc.step] at h; split at h <;> simp at h; subst h; rfl

/-- A step of the service other than the handling of an event adds events to the end of the queue. -/
theorem queue_step {P : Prog} {O : Oracle} {s s' : Svc} {l : Label} (hl : ∀ fuel, l ≠ .process fuel) (h : s.step P O l = some s') :
    ∃ new, s'.ctx.emitted = s.ctx.emitted ++ new ∧ s'.ctx.queue = s.ctx.queue ++ new := by
  obtain ⟨q, t, h1, h2, h3⟩ := (step_mono h).hist
  rw [handled_step hl h] at h2
  have : t = [] := by simpa using h2
  subst this
  exact ⟨q, h1, h3⟩

theorem emitAll_eq (es : List Event) : ∀ c : Ctx, emitAll c es = { c with queue := c.queue ++ es, emitted := c.emitted ++ es } := by
  induction es with
  | nil => intro c; simp [emitAll]
  | cons e es ih =>
    intro c
    have : emitAll c (e :: es) = emitAll (c.emit e) es := rfl
    rw [this, ih]
    simp [Ctx.emit]

theorem set_ctx (P : Prog) (O : Oracle) (y : Sys) (i : Nat) (a : ProcAct) : (y.set P O i a).svc.ctx = y.svc.ctx := by
  unfold Sys.set
  simp only
  split
  · split
    · rfl
    · rename_i f _ _
      cases h : y.svc.step P O (.futureDone f .ok) with
      | none => rfl
      | some s' =>
        simp only [Option.getD_some]
        simp only [Svc.step] at h
        split at h
        · cases h
        · simp only [Option.some.injEq] at h; subst h; rfl
  · rfl

namespace ProcAct

theorem executed_step {c : ProcCfg} {a a' : ProcAct} {l : ProcLabel} (hx : a.executed = true) (h : a.step c l = some a') : a'.executed = true := by
  cases l with
  | execute => simp only [step, Option.some.injEq] at h; subst h; simp [execute, hx]
  | begin ok => simp only [step] at h; split at h <;> simp at h; subst h; exact hx
  | spawn => simp only [step] at h; split at h <;> simp at h; subst h; exact hx
  | spawnFail => simp only [step] at h; split at h <;> simp at h; subst h; exact hx
  | attach => simp only [step] at h; split at h <;> simp at h; subst h; exact hx
  | procExit n code => simp only [step] at h; split at h <;> simp at h; subst h; exact hx
  | observe =>
    simp only [step] at h
    split at h
    · split at h
      · simp only [Option.some.injEq] at h; subst h
        unfold ProcAct.observe
        simp only
        split <;> exact hx
      · cases h
    · cases h
  | delayOver =>
    simp only [step] at h
    split at h
    · simp only [Option.some.injEq] at h; subst h
      split <;> exact hx
    · cases h
  | timerBegin s => simp only [step] at h; split at h <;> simp at h; subst h; cases s <;> exact hx
  | timerFire s =>
    simp only [step] at h
    split at h
    · split at h
      · simp only [Option.some.injEq] at h; subst h; cases s <;> exact hx
      · cases h
    · cases h
  | tick => simp only [step, Option.some.injEq] at h; subst h; exact hx
  | setShut => simp only [step, Option.some.injEq] at h; subst h; exact hx
  | emit e => simp only [step] at h; split at h <;> simp at h; subst h; exact hx
  | ask b =>
    simp only [step, Option.some.injEq] at h; subst h
    rw [(shutdownProcess_frame b a).rest]; exact hx
  | process =>
    rw [(process_frame h).rest]; exact hx

/-- Outside the handling of events an action emits events of its own kinds only. -/
theorem step_own {c : ProcCfg} {a a' : ProcAct} {l : ProcLabel} (hq : a.queue = []) (hl : l ≠ .process) (he : ∀ e, l ≠ .emit e) (h : a.step c l = some a') :
    ∀ e ∈ a'.queue, foreign e = false := by
  cases l with
  | process => exact absurd rfl hl
  | emit e => exact absurd rfl (he e)
  | execute =>
    simp only [step, Option.some.injEq] at h; subst h
    have : a.execute.queue = [] := by unfold execute; simp only; repeat' split
                                      all_goals exact hq
    simp [this]
  | begin ok => simp only [step] at h; split at h <;> simp at h; subst h; simp [hq]
  | spawn => simp only [step] at h; split at h <;> simp at h; subst h; simp [hq]
  | spawnFail => simp only [step] at h; split at h <;> simp at h; subst h; simp [hq, cleanup]
  | attach => simp only [step] at h; split at h <;> simp at h; subst h; simp [hq, foreign]
  | procExit n code => simp only [step] at h; split at h <;> simp at h; subst h; simp [hq]
  | observe =>
    simp only [step] at h
    split at h
    · split at h
      · simp only [Option.some.injEq] at h; subst h
        unfold ProcAct.observe
        simp only
        split <;> simp [hq, foreign, cleanup]
      · cases h
    · cases h
  | delayOver =>
    simp only [step] at h
    split at h
    · simp only [Option.some.injEq] at h; subst h
      split <;> simp [hq, cleanup]
    · cases h
  | timerBegin s => simp only [step] at h; split at h <;> simp at h; subst h; cases s <;> simp [setTimer, hq]
  | timerFire s =>
    simp only [step] at h
    split at h
    · split at h
      · simp only [Option.some.injEq] at h; subst h; simp [hq, foreign]
      · cases h
    · cases h
  | tick => simp only [step, Option.some.injEq] at h; subst h; simp [hq]
  | setShut => simp only [step, Option.some.injEq] at h; subst h; simp [hq]
  | ask b =>
    simp only [step, Option.some.injEq] at h; subst h
    unfold shutdownProcess
    repeat' split
    all_goals simp [hq, foreign]

/-- An action that was not executed. -/
structure Unexecuted (a : ProcAct) : Prop where
  eq : a = { now := a.now, ctxShut := a.ctxShut, queue := a.queue }
  foreign : ∀ e ∈ a.queue, foreign e = true

theorem Unexecuted.step {c : ProcCfg} {a a' : ProcAct} {l : ProcLabel} (h : Unexecuted a) (hs : a.step c l = some a') (hx : a'.executed = false) :
    Unexecuted a' := by
  obtain ⟨he, hf⟩ := h
  have e1 : a.executed = false := by rw [he]
  have e2 : a.task = .absent := by rw [he]
  have e3 : a.shut = .unset := by rw [he]
  have e4 : a.comp = .unset := by rw [he]
  have e5 : a.deferred = [] := by rw [he]
  have e6 : a.procs = [] := by rw [he]
  have e7 : ∀ s, a.timerOf s = .absent := by intro s; rw [he]; cases s <;> rfl
  cases l with
  | execute =>
    simp only [ProcAct.step, Option.some.injEq] at hs; subst hs
    unfold execute at hx
    rw [if_neg (by simp [e1])] at hx
    simp only at hx
    split at hx <;> simp at hx
  | begin ok => simp [ProcAct.step, e2] at hs
  | spawn => simp [ProcAct.step, e2] at hs
  | spawnFail => simp [ProcAct.step, e2] at hs
  | attach => simp [ProcAct.step, e2] at hs
  | procExit n code => simp [ProcAct.step, e6] at hs
  | observe => simp [ProcAct.step, e2] at hs
  | delayOver => simp [ProcAct.step, e2] at hs
  | timerBegin s => simp [ProcAct.step, e7] at hs
  | timerFire s => simp [ProcAct.step, e7] at hs
  | tick =>
    simp only [ProcAct.step, Option.some.injEq] at hs; subst hs
    exact ⟨by rw [he], hf⟩
  | setShut =>
    simp only [ProcAct.step, Option.some.injEq] at hs; subst hs
    exact ⟨by rw [he], hf⟩
  | emit e =>
    simp only [ProcAct.step] at hs
    split at hs
    · rename_i hfe
      simp only [Option.some.injEq] at hs; subst hs
      refine ⟨by rw [he], ?_⟩
      intro x hx
      rcases List.mem_append.mp hx with y | y
      · exact hf x y
      · rw [List.mem_singleton.mp y]; exact hfe
    · cases hs
  | ask b =>
    simp only [ProcAct.step, Option.some.injEq] at hs; subst hs
    have : a.shutdownProcess b = a := by unfold shutdownProcess; simp [e3]
    rw [this]; exact ⟨he, hf⟩
  | process =>
    simp only [ProcAct.step] at hs
    unfold ProcAct.process at hs
    split at hs
    · cases hs
    · rename_i e q hq
      simp only [Option.some.injEq] at hs
      have hfe := hf e (by rw [hq]; exact List.mem_cons_self)
      have hpop : Unexecuted { a with queue := q } := ⟨by rw [he], fun x hx => hf x (by rw [hq]; exact List.mem_cons_of_mem _ hx)⟩
      subst hs
      cases e with
      | shutdownProcess m => simp only [e4, ne_eq, not_true_eq_false, decide_false, Bool.false_and, Bool.false_eq_true, if_false]; rw [e4] at hpop; exact hpop
      | signal s m o => simp only [e4, ne_eq, not_true_eq_false, decide_false, Bool.false_and, Bool.false_eq_true, if_false]; rw [e4] at hpop; exact hpop
      | shutdown sig =>
        simp only [e4, ne_eq, not_true_eq_false, if_false]
        exact ⟨by rw [he], hpop.foreign⟩
      | started n => cases hfe
      | otherStarted => simp only [e5, List.foldl_nil]; rw [← e5]; exact hpop
      | exited n code => cases hfe
      | timer s => cases hfe

theorem unexecuted_reach {c : ProcCfg} {ls : List ProcLabel} {a : ProcAct} (h : ProcAct.Reaches c ls a) (hx : a.executed = false) : Unexecuted a := by
  refine runSteps_induct (R := fun a => a.executed = false → Unexecuted a) ?_ ls _ _ (fun _ => ⟨rfl, by simp⟩) h hx
  intro a l a' ih hs hx'
  refine Unexecuted.step (ih ?_) hs hx'
  cases he : a.executed with
  | false => rfl
  | true => rw [executed_step he hs] at hx'; cases hx'

end ProcAct

/-- Which labels of the model of a single action correspond to a step. -/
def Matches (K : Codes) (i : Nat) (l : JointLabel) (new : List Event) (l' : ProcLabel) : Prop :=
  l' = .process ∨ l' = .setShut ∨ (∃ ev ∈ new, ∃ e, K.see i ev = some e ∧ l' = .emit e) ∨ l = .proc i l'

/-- The step corresponds to a run of the model of a single action. -/
def Simulates (cfg : Nat → ProcCfg) (K : Codes) (i : Nat) (y : Sys) (l : JointLabel) (y' : Sys) : Prop :=
  ∃ new ls, y'.svc.ctx.emitted = y.svc.ctx.emitted ++ new ∧ runSteps (ProcAct.step (cfg i)) (y.view K i) ls = some (y'.view K i) ∧
    (∀ l' ∈ ls, Matches K i l new l') ∧ (y'.act i).queue = []

theorem mark_run (c : ProcCfg) (a : ProcAct) (b : Bool) :
    ∃ ls, runSteps (ProcAct.step c) a ls = some { a with ctxShut := a.ctxShut || b } ∧ ∀ l ∈ ls, l = ProcLabel.setShut := by
  cases b with
  | false => exact ⟨[], by simp [runSteps], by simp⟩
  | true => exact ⟨[.setShut], by simp [runSteps, ProcAct.step], by simp⟩

theorem foreign_of_others {K : Codes} {ids : List Nat} {i : Nat} (hi : i ∈ ids) {es : List Event} (h : es.all (K.others ids) = true) :
    ∀ x ∈ es.filterMap (K.see i), ProcAct.foreign x = true := by
  intro x hx
  obtain ⟨ev, h1, h2⟩ := List.mem_filterMap.mp hx
  have := (List.all_eq_true.mp h) ev h1
  have := (List.all_eq_true.mp this) i hi
  rw [h2] at this
  simpa using this

theorem sim_svc {P : Prog} {O : Oracle} {ids : List Nat} {cfg : Nat → ProcCfg} {K : Codes} {y y' : Sys} {i : Nat} {l : Label} {jl : JointLabel} (hi : i ∈ ids)
    (hq : (y.act i).queue = []) (hl : ∀ fuel, l ≠ .process fuel) (hs : y.stepSvc P O ids K l = some y') : Simulates cfg K i y jl y' := by
  unfold Sys.stepSvc at hs
  cases h : y.svc.step P O l with
  | none => rw [h] at hs; cases hs
  | some s' =>
    rw [h] at hs
    simp only [Option.bind_some] at hs
    split at hs
    · rename_i hc
      simp only [Option.some.injEq] at hs
      obtain ⟨new, h1, h2⟩ := queue_step hl h
      rw [h1, List.drop_left] at hc
      have hf := foreign_of_others hi hc
      obtain ⟨ls, h3, h4⟩ := mark_run (cfg i) { (y.view K i) with queue := (y.view K i).queue ++ new.filterMap (K.see i) } s'.ctx.isShutdown
      refine ⟨new, (new.filterMap (K.see i)).map .emit ++ ls, by rw [← hs]; exact h1, ?_, ?_, by rw [← hs]; exact hq⟩
      · rw [runSteps_append, ProcAct.emits_run _ _ _ hf]
        simp only [Option.bind_some]
        rw [h3, ← hs]
        simp only [Sys.view, Sys.mark, h2, List.filterMap_append]
      · intro l' hl'
        rcases List.mem_append.mp hl' with x | x
        · obtain ⟨e, he, rfl⟩ := List.mem_map.mp x
          obtain ⟨ev, a1, a2⟩ := List.mem_filterMap.mp he
          exact .inr (.inr (.inl ⟨ev, a1, e, a2, rfl⟩))
        · exact .inr (.inl (h4 _ x))
    · cases hs

theorem sim_proc {P : Prog} {O : Oracle} {ids : List Nat} {cfg : Nat → ProcCfg} {K : Codes} (hK : K.Lawful) {y y' : Sys} {i j : Nat} {l : ProcLabel}
    (hq : ∀ i, (y.act i).queue = []) (hl : l ≠ .process) (he : ∀ e, l ≠ .emit e) (hs : y.stepProc P O ids cfg K j l = some y') :
    Simulates cfg K i y (.proc j l) y' := by
  unfold Sys.stepProc at hs
  split at hs
  · cases h : (y.act j).step (cfg j) l with
    | none => rw [h] at hs; cases hs
    | some a =>
      rw [h] at hs
      simp only [Option.bind_some] at hs
      split at hs
      · cases hs
      · simp only [Option.some.injEq] at hs
        have how := ProcAct.step_own (hq j) hl he h
        have hctx := set_ctx P O y j { a with queue := [] }
        have hem : y'.svc.ctx.emitted = y.svc.ctx.emitted ++ a.queue.map (K.enc j) := by
          rw [← hs]; simp only [emitAll_eq, hctx]
        have hqu : y'.svc.ctx.queue = y.svc.ctx.queue ++ a.queue.map (K.enc j) := by
          rw [← hs]; simp only [emitAll_eq, hctx]
        by_cases e : i = j
        · subst e
          have hact : y'.act i = { a with queue := [] } := by rw [← hs]; simp [Sys.set]
          refine ⟨_, [l], hem, ?_, ?_, by rw [hact]⟩
          · have hv : y.view K i = (y.act i).pre (y.svc.ctx.queue.filterMap (K.see i)) := by
              simp [Sys.view, ProcAct.pre, hq i]
            simp only [runSteps]
            rw [hv, ProcAct.step_pre _ _ _ _ hl, h]
            simp only [Option.map_some, Sys.view, hact, hqu, List.filterMap_append, ProcAct.pre]
            have : (a.queue.map (K.enc i)).filterMap (K.see i) = a.queue := by
              rw [List.filterMap_map]
              have e2 : ∀ x ∈ a.queue, (K.see i ∘ K.enc i) x = some x := fun x hx => hK.own i x (how x hx)
              generalize a.queue = q at e2
              induction q with
              | nil => rfl
              | cons x q ih =>
                rw [List.filterMap_cons_some (e2 x List.mem_cons_self), ih fun z hz => e2 z (List.mem_cons_of_mem _ hz)]
            rw [this]
          · intro l' hl'
            have := List.mem_singleton.mp hl'
            subst this
            exact .inr (.inr (.inr rfl))
        · have hact : y'.act i = y.act i := by rw [← hs]; simp [Sys.set, e]
          have hf : ∀ x ∈ (a.queue.map (K.enc j)).filterMap (K.see i), ProcAct.foreign x = true := by
            intro x hx
            obtain ⟨ev, h1, h2⟩ := List.mem_filterMap.mp hx
            obtain ⟨pe, h3, rfl⟩ := List.mem_map.mp h1
            by_cases hst : ∃ n, pe = .started n
            · obtain ⟨n, rfl⟩ := hst
              rw [hK.start j i n e] at h2
              cases h2; rfl
            · rw [hK.others j i pe e (how pe h3) (fun n hn => hst ⟨n, hn⟩)] at h2
              cases h2
          refine ⟨_, ((a.queue.map (K.enc j)).filterMap (K.see i)).map .emit, hem, ?_, ?_, by rw [hact]; exact hq i⟩
          · rw [ProcAct.emits_run _ _ _ hf]
            simp [Sys.view, hact, hqu]
          · intro l' hl'
            obtain ⟨x, hx, rfl⟩ := List.mem_map.mp hl'
            obtain ⟨ev, a1, a2⟩ := List.mem_filterMap.mp hx
            exact .inr (.inr (.inl ⟨ev, a1, x, a2, rfl⟩))
  · cases hs

/-- What is known about the handling of an event. -/
theorem stepHandle_inv {P : Prog} {O : Oracle} {ids : List Nat} {cfg : Nat → ProcCfg} {K : Codes} {y y' : Sys} {fuel : Nat} {told : List Nat} {q : List Event}
    (hs : y.stepHandle P O ids cfg K fuel told q = some y') :
    ∃ e rest s' ok, y.svc.ctx.queue = e :: rest ∧ y.svc.step P O (.process fuel) = some s' ∧ (ok = true → ∀ i ∈ ids, i ∈ told) ∧
      (∀ i ∈ executedIn ids y.svc s', Sys.executes ids y.act s' i = true) ∧
      (∀ i ∈ ids, (q.filterMap (K.see i)).filter (fun x => !ProcAct.foreign x) = (y.served ids cfg K s' told e i).2) ∧
      y'.svc.ctx.queue = rest ++ q ∧ y'.svc.ctx.emitted = y.svc.ctx.emitted ++ q ∧ y'.failed = (y.failed || !ok) ∧
      y'.act = fun i => { (y.served ids cfg K s' told e i).1 with ctxShut := (y.served ids cfg K s' told e i).1.ctxShut || s'.ctx.isShutdown } := by
  unfold Sys.stepHandle at hs
  split at hs
  · cases hs
  · rename_i e rest hq
    cases h : y.svc.step P O (.process fuel) with
    | none => rw [h] at hs; cases hs
    | some s' =>
      rw [h] at hs
      simp only [Option.bind_some] at hs
      split at hs
      · rename_i hc
        simp only [Option.some.injEq] at hs
        simp only [Bool.and_eq_true] at hc
        obtain ⟨⟨⟨h1, h2⟩, h3⟩, h4⟩ := hc
        refine ⟨e, rest, s', _, hq, rfl, ?_, ?_, ?_, by rw [← hs]; rfl, by rw [← hs]; rfl, by rw [← hs]; rfl, by rw [← hs]; rfl⟩
        · intro hok i hi
          simp only [Bool.or_eq_true] at h1
          rcases h1 with x | x
          · rw [hok] at x; cases x
          · simpa using (List.all_eq_true.mp x) i hi
        · intro i hi; exact (List.all_eq_true.mp h2) i hi
        · intro i hi; simpa using (List.all_eq_true.mp h4) i hi
      · cases hs

theorem sim_handle {P : Prog} {O : Oracle} {ids : List Nat} {cfg : Nat → ProcCfg} {K : Codes} {y y' : Sys} {i : Nat} {fuel : Nat} {told : List Nat}
    {q : List Event} (hi : i ∈ ids) (hq : (y.act i).queue = []) (hx : (y.act i).executed = true ∨ (y'.act i).executed = false)
    (hs : y.stepHandle P O ids cfg K fuel told q = some y')
    (hf : y'.failed = false) : Simulates cfg K i y (.handle fuel told q) y' := by
  obtain ⟨e, rest, s', ok, h1, h2, h3, h4, h5, h6, h7, h8, h9⟩ := stepHandle_inv hs
  have hok : ok = true := by
    rw [h8] at hf
    cases ok
    · simp at hf
    · rfl
  have hin : i ∉ executedIn ids y.svc s' := by
    intro hh
    rcases hx with hx | hx
    · have := h4 i hh
      unfold Sys.executes at this
      split at this
      · simp [hx] at this
      · cases this
    · rw [h9] at hx
      simp only [Sys.served, if_pos hh, ProcAct.execute] at hx
      split at hx
      · rename_i h; simp [h] at hx
      · split at hx <;> simp at hx
  have hser : y.served ids cfg K s' told e i = (y.act i).handle (cfg i) (K.see i e) := by
    unfold Sys.served
    rw [if_neg hin, if_pos ⟨hi, h3 hok i hi⟩]
  have h5 := h5 i hi
  rw [hser] at h5
  have ha : y'.act i = { ((y.act i).handle (cfg i) (K.see i e)).1 with ctxShut := ((y.act i).handle (cfg i) (K.see i e)).1.ctxShut || s'.ctx.isShutdown } := by
    rw [h9]; simp only [hser]
  have hq' : (y'.act i).queue = [] := by
    rw [ha]; exact ProcAct.handle_queue _ _ _ hq
  cases hsee : K.see i e with
  | none =>
    rw [hsee] at h5 ha
    simp only [ProcAct.handle] at h5 ha
    have hfo : ∀ x ∈ q.filterMap (K.see i), ProcAct.foreign x = true := by
      intro x hx
      have := (List.filter_eq_nil_iff.mp h5) x hx
      simpa using this
    obtain ⟨ls, a1, a2⟩ := mark_run (cfg i) { (y.view K i) with queue := (y.view K i).queue ++ q.filterMap (K.see i) } s'.ctx.isShutdown
    refine ⟨q, (q.filterMap (K.see i)).map .emit ++ ls, h7, ?_, ?_, hq'⟩
    · rw [runSteps_append, ProcAct.emits_run _ _ _ hfo]
      simp only [Option.bind_some]
      rw [a1]
      simp only [Sys.view, h1, h6, ha, List.filterMap_cons_none hsee, List.filterMap_append]
    · intro l' hl'
      rcases List.mem_append.mp hl' with x | x
      · obtain ⟨z, hz, rfl⟩ := List.mem_map.mp x
        obtain ⟨ev, b1, b2⟩ := List.mem_filterMap.mp hz
        exact .inr (.inr (.inl ⟨ev, b1, z, b2, rfl⟩))
      · exact .inr (.inl (a2 _ x))
  | some pe =>
    rw [hsee] at h5 ha
    obtain ⟨ls1, b1, b2⟩ := ProcAct.handle_run (cfg i) (y.act i) pe (rest.filterMap (K.see i)) _ h5
    obtain ⟨ls, a1, a2⟩ := mark_run (cfg i)
      { ((y.act i).handle (cfg i) (some pe)).1 with queue := rest.filterMap (K.see i) ++ q.filterMap (K.see i) } s'.ctx.isShutdown
    refine ⟨q, ls1 ++ ls, h7, ?_, ?_, hq'⟩
    · have hv : y.view K i = { y.act i with queue := pe :: rest.filterMap (K.see i) } := by
        simp only [Sys.view, h1, List.filterMap_cons_some hsee]
      rw [hv, runSteps_append, b1]
      simp only [Option.bind_some]
      rw [a1]
      simp only [Sys.view, h6, ha, List.filterMap_append]
    · intro l' hl'
      rcases List.mem_append.mp hl' with x | x
      · rcases b2 _ x with z | ⟨z, hz, _, rfl⟩
        · exact .inl z
        · obtain ⟨ev, c1, c2⟩ := List.mem_filterMap.mp hz
          exact .inr (.inr (.inl ⟨ev, c1, z, c2, rfl⟩))
      · exact .inr (.inl (a2 _ x))

/-- The queue of the service is the only one. -/
theorem joint_queue {P : Prog} {O : Oracle} {ids : List Nat} {cfg : Nat → ProcCfg} {K : Codes} {y y' : Sys} {l : JointLabel}
    (hq : ∀ i, (y.act i).queue = []) (hs : y.stepJoint P O ids cfg K l = some y') : ∀ i, (y'.act i).queue = [] := by
  have hsvc : ∀ l, y.stepSvc P O ids K l = some y' → ∀ i, (y'.act i).queue = [] := by
    intro l h i
    unfold Sys.stepSvc at h
    cases h1 : y.svc.step P O l with
    | none => rw [h1] at h; cases h
    | some s' =>
      rw [h1] at h
      simp only [Option.bind_some] at h
      split at h
      · simp only [Option.some.injEq] at h; subst h; exact hq i
      · cases h
  have hproc : ∀ j l, y.stepProc P O ids cfg K j l = some y' → ∀ i, (y'.act i).queue = [] := by
    intro j l h i
    unfold Sys.stepProc at h
    split at h
    · cases h1 : (y.act j).step (cfg j) l with
      | none => rw [h1] at h; cases h
      | some a =>
        rw [h1] at h
        simp only [Option.bind_some] at h
        split at h
        · cases h
        · simp only [Option.some.injEq] at h; subst h
          simp only [Sys.set]
          split
          · rfl
          · exact hq i
    · cases h
  cases l with
  | svc l =>
    cases l <;> simp only [Sys.stepJoint] at hs <;> first | cases hs | (split at hs; cases hs; exact hsvc _ hs) | exact hsvc _ hs
  | handle fuel told q =>
    intro i
    obtain ⟨e, rest, s', ok, _, _, _, _, _, _, _, _, h9⟩ := stepHandle_inv hs
    rw [h9]
    simp only [Sys.served]
    split
    · unfold ProcAct.execute
      simp only
      repeat' split
      all_goals exact hq i
    · split
      · exact ProcAct.handle_queue _ _ _ (hq i)
      · exact hq i
  | proc j l =>
    cases l <;> simp only [Sys.stepJoint] at hs <;> first | cases hs | exact hproc _ _ hs

/-- Every step of the joint system corresponds to a run of the model of a single action, unless that action is executed in it. -/
theorem joint_sim {P : Prog} {O : Oracle} {ids : List Nat} {cfg : Nat → ProcCfg} {K : Codes} (hK : K.Lawful) {y y' : Sys} {l : JointLabel} {i : Nat} (hi : i ∈ ids)
    (hq : ∀ i, (y.act i).queue = []) (hx : (y.act i).executed = true ∨ (y'.act i).executed = false) (hs : y.stepJoint P O ids cfg K l = some y')
    (hf : y'.failed = false) : Simulates cfg K i y l y' := by
  cases l with
  | svc l =>
    cases l <;> simp only [Sys.stepJoint] at hs <;>
      first | cases hs | (split at hs; cases hs; exact sim_svc hi (hq i) (by simp) hs) | exact sim_svc hi (hq i) (by simp) hs
  | handle fuel told q => exact sim_handle hi (hq i) hx hs hf
  | proc j l =>
    cases l <;> simp only [Sys.stepJoint] at hs <;> first | cases hs | exact sim_proc hK hq (by simp) (by simp) hs

theorem joint_failed {P : Prog} {O : Oracle} {ids : List Nat} {cfg : Nat → ProcCfg} {K : Codes} {y y' : Sys} {l : JointLabel}
    (hs : y.stepJoint P O ids cfg K l = some y') (hf : y'.failed = false) : y.failed = false := by
  have hsvc : ∀ l, y.stepSvc P O ids K l = some y' → y.failed = false := by
    intro l h
    unfold Sys.stepSvc at h
    cases h1 : y.svc.step P O l with
    | none => rw [h1] at h; cases h
    | some s' =>
      rw [h1] at h
      simp only [Option.bind_some] at h
      split at h
      · simp only [Option.some.injEq] at h; subst h; exact hf
      · cases h
  have hproc : ∀ j l, y.stepProc P O ids cfg K j l = some y' → y.failed = false := by
    intro j l h
    unfold Sys.stepProc at h
    split at h
    · cases h1 : (y.act j).step (cfg j) l with
      | none => rw [h1] at h; cases h
      | some a =>
        rw [h1] at h
        simp only [Option.bind_some] at h
        split at h
        · cases h
        · simp only [Option.some.injEq] at h; subst h; exact hf
    · cases h
  cases l with
  | svc l =>
    cases l <;> simp only [Sys.stepJoint] at hs <;> first | cases hs | (split at hs; cases hs; exact hsvc _ hs) | exact hsvc _ hs
  | handle fuel told q =>
    obtain ⟨e, rest, s', ok, _, _, _, _, _, _, _, h8, _⟩ := stepHandle_inv hs
    rw [h8] at hf
    cases h : y.failed
    · rfl
    · rw [h] at hf; cases hf
  | proc j l =>
    cases l <;> simp only [Sys.stepJoint] at hs <;> first | cases hs | exact hproc _ _ hs

/-- Executing an action. -/
theorem joint_execute {P : Prog} {O : Oracle} {ids : List Nat} {cfg : Nat → ProcCfg} {K : Codes} {y y' : Sys} {i : Nat} {fuel : Nat} {told : List Nat}
    {q : List Event} (hi : i ∈ ids) (hu : (y.view K i).Unexecuted) (hx' : (y'.act i).executed = true)
    (hs : y.stepHandle P O ids cfg K fuel told q = some y') : ∃ ls, ProcAct.Reaches (cfg i) ls (y'.view K i) := by
  obtain ⟨e, rest, s', ok, h1, h2, h3, h4, h5, h6, h7, h8, h9⟩ := stepHandle_inv hs
  have hx : (y.act i).executed = false := by
    have := congrArg ProcAct.executed hu.eq
    exact this
  have hin : i ∈ executedIn ids y.svc s' := by
    refine Classical.byContradiction fun hn => ?_
    rw [h9] at hx'
    simp only [Sys.served, if_neg hn] at hx'
    split at hx'
    · have : ((y.act i).handle (cfg i) (K.see i e)).1.executed = (y.act i).executed := by
        cases K.see i e with
        | none => rfl
        | some pe =>
          simp only [ProcAct.handle]
          cases hp : ProcAct.process (cfg i) { y.act i with queue := [pe] } with
          | none => rfl
          | some a' => simp only; rw [(ProcAct.process_frame hp).rest]
      rw [this, hx] at hx'; cases hx'
    · rw [hx] at hx'; cases hx'
  have hcs : (y.act i).ctxShut = false := by
    have := h4 i hin
    unfold Sys.executes at this
    split at this
    · simp only [Bool.and_eq_true, Bool.not_eq_true'] at this
      exact this.1.2
    · cases this
  have h5 := h5 i hi
  simp only [Sys.served, if_pos hin] at h5
  have hfo : ∀ x ∈ (rest ++ q).filterMap (K.see i), ProcAct.foreign x = true := by
    intro x hx
    rw [List.filterMap_append] at hx
    rcases List.mem_append.mp hx with z | z
    · refine hu.foreign x ?_
      simp only [Sys.view, h1]
      rw [← List.singleton_append, List.filterMap_append]
      exact List.mem_append_right _ z
    · have := (List.filter_eq_nil_iff.mp h5) x z
      simpa using this
  have hact : y.act i = { now := (y.act i).now, queue := (y.act i).queue } := by
    have := congrArg (fun a : ProcAct => { a with queue := (y.act i).queue }) hu.eq
    simp only [Sys.view] at this
    have key : ∀ a : ProcAct, a.ctxShut = false → ({ a with ctxShut := false } : ProcAct) = a := by
      intro a h; cases a; simp_all
    rw [← key _ hcs]
    simpa [hcs] using this
  have ha : (y'.view K i) =
      { executed := true, comp := .pending, shut := .pending, task := .scheduled, now := (y.act i).now, ctxShut := s'.ctx.isShutdown,
        queue := (rest ++ q).filterMap (K.see i) } := by
    simp only [Sys.view, h6, h9, Sys.served, if_pos hin]
    rw [hact]
    simp [ProcAct.execute]
  obtain ⟨ls, a1, _⟩ := mark_run (cfg i)
      { executed := true, comp := .pending, shut := .pending, task := .scheduled, now := (y.act i).now, queue := (rest ++ q).filterMap (K.see i) }
      s'.ctx.isShutdown
  refine ⟨List.replicate (y.act i).now .tick ++ (((rest ++ q).filterMap (K.see i)).map .emit ++ (.execute :: ls)), ?_⟩
  unfold ProcAct.Reaches
  rw [runSteps_append, ProcAct.ticks_run]
  simp only [Option.bind_some]
  rw [runSteps_append, ProcAct.emits_run _ _ _ hfo]
  simp only [Option.bind_some, runSteps, ProcAct.step]
  rw [ha]
  simpa [ProcAct.execute] using a1

/-- **Each process action of the joint system behaves as the model of a single action says.** -/
theorem joint_reach {P : Prog} {O : Oracle} {env : Dict String} {ids : List Nat} {cfg : Nat → ProcCfg} {K : Codes} (hK : K.Lawful) {ls : List JointLabel} {y : Sys}
    (h : Sys.ReachesJoint P O env ids cfg K ls y) :
    (∀ i, (y.act i).queue = []) ∧ (y.failed = false → ∀ i ∈ ids, ∃ ls', ProcAct.Reaches (cfg i) ls' (y.view K i)) := by
  refine runSteps_induct (R := fun y => (∀ i, (y.act i).queue = []) ∧ (y.failed = false → ∀ i ∈ ids, ∃ ls', ProcAct.Reaches (cfg i) ls' (y.view K i)))
    ?_ ls _ _ ⟨fun _ => rfl, fun _ i _ => ⟨[], by unfold ProcAct.Reaches; rfl⟩⟩ h
  rintro y l y' ⟨hq, ih⟩ hs
  refine ⟨joint_queue hq hs, fun hf i hi => ?_⟩
  obtain ⟨ls0, h0⟩ := ih (joint_failed hs hf) i hi
  by_cases hx : (y.act i).executed = true ∨ (y'.act i).executed = false
  · obtain ⟨_, ls1, _, h1, _⟩ := joint_sim hK hi hq hx hs hf
    exact ⟨ls0 ++ ls1, by unfold ProcAct.Reaches at h0 ⊢; rw [runSteps_append, h0]; exact h1⟩
  · have hx1 : (y.act i).executed = false := by
      cases hh : (y.act i).executed
      · rfl
      · exact absurd (.inl hh) hx
    have hx2 : (y'.act i).executed = true := by
      cases hh : (y'.act i).executed
      · exact absurd (.inr hh) hx
      · rfl
    have hu := ProcAct.unexecuted_reach h0 hx1
    cases l with
    | handle fuel told q => exact joint_execute hi hu hx2 hs
    | svc l =>
      exfalso
      have hsvc : ∀ l, y.stepSvc P O ids K l = some y' → (y'.act i).executed = (y.act i).executed := by
        intro l h
        unfold Sys.stepSvc at h
        cases h1 : y.svc.step P O l with
        | none => rw [h1] at h; cases h
        | some s' =>
          rw [h1] at h
          simp only [Option.bind_some] at h
          split at h
          · simp only [Option.some.injEq] at h; subst h; rfl
          · cases h
      have : (y'.act i).executed = (y.act i).executed := by
        cases l <;> simp only [Sys.stepJoint] at hs <;> first | cases hs | (split at hs; cases hs; exact hsvc _ hs) | exact hsvc _ hs
      rw [this, hx1] at hx2; cases hx2
    | proc j l =>
      have : Simulates cfg K i y (.proc j l) y' := by
        cases l <;> simp only [Sys.stepJoint] at hs <;> first | cases hs | exact sim_proc hK hq (by simp) (by simp) hs
      obtain ⟨_, ls1, _, h1, _⟩ := this
      exact ⟨ls0 ++ ls1, by unfold ProcAct.Reaches at h0 ⊢; rw [runSteps_append, h0]; exact h1⟩

/-- A run of the joint system corresponds to a run of the model of each action that was executed before. -/
theorem joint_run {P : Prog} {O : Oracle} {ids : List Nat} {cfg : Nat → ProcCfg} {K : Codes} (hK : K.Lawful) {i : Nat} (hi : i ∈ ids) {ls : List JointLabel} :
    ∀ {y y' : Sys}, (∀ i, (y.act i).queue = []) → (y.act i).executed = true → runSteps (Sys.stepJoint P O ids cfg K) y ls = some y' → y'.failed = false →
      ∃ new ls', y'.svc.ctx.emitted = y.svc.ctx.emitted ++ new ∧ runSteps (ProcAct.step (cfg i)) (y.view K i) ls' = some (y'.view K i) ∧
        ∀ l' ∈ ls', l' = .process ∨ l' = .setShut ∨ (∃ ev ∈ new, ∃ e, K.see i ev = some e ∧ l' = .emit e) ∨ .proc i l' ∈ ls := by
  induction ls with
  | nil =>
    intro y y' _ _ h _
    simp only [runSteps, Option.some.injEq] at h
    subst h
    exact ⟨[], [], by simp, by simp [runSteps], by simp⟩
  | cons l ls ih =>
    intro y y' hq hx h hf
    simp only [runSteps] at h
    cases hs : y.stepJoint P O ids cfg K l with
    | none => rw [hs] at h; cases h
    | some y1 =>
      rw [hs] at h
      have hf1 : y1.failed = false := by
        refine Classical.byContradiction fun hc => ?_
        have : y'.failed = true := runSteps_induct (R := fun y : Sys => y.failed = true)
          (fun s l s' a b => by
            cases hh : s'.failed
            · rw [joint_failed b hh] at a; cases a
            · rfl) ls y1 y' (by simpa using hc) h
        rw [hf] at this; cases this
      obtain ⟨n1, l1, a1, a2, a3, _⟩ := joint_sim hK hi hq (.inl hx) hs hf1
      have hx1 : (y1.act i).executed = true := by
        have : (y1.view K i).executed = true := runSteps_induct (R := fun a : ProcAct => a.executed = true)
          (step := ProcAct.step (cfg i)) (fun s l s' a b => ProcAct.executed_step a b) l1 _ _ (show (y.view K i).executed = true from hx) a2
        exact this
      obtain ⟨n2, l2, b1, b2, b3⟩ := ih (joint_queue hq hs) hx1 h hf
      refine ⟨n1 ++ n2, l1 ++ l2, by rw [b1, a1, List.append_assoc], by rw [runSteps_append, a2]; exact b2, ?_⟩
      intro l' hl'
      rcases List.mem_append.mp hl' with z | z
      · rcases a3 l' z with w | w | ⟨ev, w1, e, w2⟩ | w
        · exact .inl w
        · exact .inr (.inl w)
        · exact .inr (.inr (.inl ⟨ev, List.mem_append_left _ w1, e, w2⟩))
        · exact .inr (.inr (.inr (by rw [w]; exact List.mem_cons_self)))
      · rcases b3 l' z with w | w | ⟨ev, w1, e, w2⟩ | w
        · exact .inl w
        · exact .inr (.inl w)
        · exact .inr (.inr (.inl ⟨ev, List.mem_append_right _ w1, e, w2⟩))
        · exact .inr (.inr (.inr (List.mem_cons_of_mem _ w)))

end Verif
