import Verif.Spec.SystemEvents
import Verif.Props.System
import Verif.Props.Events
import Verif.Props.ShutdownEvent

/-!
# Property C105: everybody hears of every process before run returns
-/

namespace Verif

variable {P : Prog} {O : Oracle} {env : Dict String} {ids : List Nat} {cfg : Nat → ProcCfg} {enc : Nat → ProcEv → Event}

/-! ## Steps -/

/-- What a step does to the service. -/
theorem sys_svc {y y' : Sys} {l : SysLabel} (h : y.step P O ids cfg l = some y') :
    (y'.svc = y.svc ∧ y'.failed = y.failed) ∨
      ∃ k, y.svc.step P O k = some y'.svc ∧ ((∃ f r, k = .futureDone f r ∧ y'.failed = y.failed) ∨ y'.failed = (y.failed || y'.svc.evFailed)) := by
  cases l with
  | svc k =>
    have gen : (y.svc.step P O k).bind (y.serve ids) = some y' → ∃ k, y.svc.step P O k = some y'.svc ∧ y'.failed = (y.failed || y'.svc.evFailed) := by
      intro hb
      cases h1 : y.svc.step P O k with
      | none => rw [h1] at hb; cases hb
      | some s' =>
        rw [h1] at hb
        simp only [Option.bind_some, Sys.serve] at hb
        split at hb
        · simp only [Option.some.injEq] at hb; subst hb; exact ⟨k, h1, rfl⟩
        · cases hb
    right
    cases k with
    | futureDone f r =>
      simp only [Sys.step] at h
      split at h
      · cases h
      · obtain ⟨k, h1, h2⟩ := gen h; exact ⟨k, h1, .inr h2⟩
    | _ => obtain ⟨k, h1, h2⟩ := gen h; exact ⟨k, h1, .inr h2⟩
  | proc i k =>
    by_cases hl : k = .execute
    · subst hl; simp [Sys.step] at h
    · have : (if i ∈ ids then ((y.act i).step (cfg i) k).map (y.set P O i) else none) = some y' := by
        cases k <;> first | exact absurd rfl hl | exact h
      split at this
      · cases ha : (y.act i).step (cfg i) k with
        | none => rw [ha] at this; cases this
        | some a =>
          rw [ha] at this
          simp only [Option.map_some, Option.some.injEq] at this
          subst this
          simp only [Sys.set]
          split
          · split
            · exact .inl ⟨rfl, trivial⟩
            · rename_i f fs hf
              cases hst : y.svc.step P O (.futureDone f .ok) with
              | none => exact .inl ⟨rfl, trivial⟩
              | some s' => exact .inr ⟨_, hst, .inl ⟨_, _, rfl, trivial⟩⟩
          · exact .inl ⟨rfl, trivial⟩
      · cases this

/-- What a step does to the logs. -/
theorem sys_log {y y' : Sys} {l : SysLabel} (h : y.step P O ids cfg l = some y') (j : Nat) :
    (y'.act j).log = (y.act j).log ∨ ∃ k new, l = .proc j k ∧ (y'.act j).log = (y.act j).log ++ new := by
  cases l with
  | svc k =>
    left
    have gen : (y.svc.step P O k).bind (y.serve ids) = some y' → (y'.act j).log = (y.act j).log := by
      intro hb
      cases h1 : y.svc.step P O k with
      | none => rw [h1] at hb; cases hb
      | some s' =>
        rw [h1] at hb
        simp only [Option.bind_some, Sys.serve] at hb
        split at hb
        · simp only [Option.some.injEq] at hb; subst hb
          show (if j ∈ executedIn ids y.svc s' then (y.act j).execute else y.act j).log = _
          split
          · unfold ProcAct.execute; simp only; repeat' split
            all_goals rfl
          · rfl
        · cases hb
    cases k with
    | futureDone f r =>
      simp only [Sys.step] at h
      split at h
      · cases h
      · exact gen h
    | _ => exact gen h
  | proc i k =>
    by_cases hl : k = .execute
    · subst hl; simp [Sys.step] at h
    · have : (if i ∈ ids then ((y.act i).step (cfg i) k).map (y.set P O i) else none) = some y' := by
        cases k <;> first | exact absurd rfl hl | exact h
      split at this
      · cases ha : (y.act i).step (cfg i) k with
        | none => rw [ha] at this; cases this
        | some a =>
          rw [ha] at this
          simp only [Option.map_some, Option.some.injEq] at this
          subst this
          by_cases hji : j = i
          · subst hji
            obtain ⟨new, h1, _⟩ := life_step ha
            exact .inr ⟨k, new, rfl, by simp only [Sys.set, if_pos]; exact h1⟩
          · exact .inl (by simp only [Sys.set, if_neg hji])
      · cases this

/-- Announcing is a sequence of steps that changes no process action. -/
theorem announce_run {i : Nat} : ∀ (es : List ProcEv) (y y' : Sys), Sys.announce P O ids cfg enc i es y = some y' →
    runSteps (Sys.step P O ids cfg) y (es.map fun e => .svc (.emit (enc i e))) = some y' ∧ (∀ j, (y'.act j).log = (y.act j).log) ∧
      y'.svc.ctx.emitted = y.svc.ctx.emitted ++ es.map (enc i)
  | [], y, y', h => by
    simp only [Sys.announce, Option.some.injEq] at h; subst h; exact ⟨rfl, fun _ => rfl, by simp⟩
  | e :: es, y, y', h => by
    simp only [Sys.announce] at h
    cases h1 : y.step P O ids cfg (.svc (.emit (enc i e))) with
    | none => rw [h1] at h; cases h
    | some y1 =>
      rw [h1] at h
      obtain ⟨a1, a2, a3⟩ := announce_run es y1 y' h
      refine ⟨?_, fun j => ?_, ?_⟩
      · simp only [List.map_cons, runSteps, h1]; exact a1
      · rw [a2 j]
        rcases sys_log h1 j with e | ⟨_, _, e, _⟩
        · exact e
        · cases e
      · have : y1.svc.ctx.emitted = y.svc.ctx.emitted ++ [enc i e] := by
          simp only [Sys.step] at h1
          cases h2 : y.svc.step P O (.emit (enc i e)) with
          | none => rw [h2] at h1; cases h1
          | some s' =>
            rw [h2] at h1
            simp only [Option.bind_some, Sys.serve] at h1
            split at h1
            · simp only [Option.some.injEq] at h1; subst h1
              exact C20_emit_is_last P O _ _ _ h2
            · cases h1
        rw [a3, this]; simp

/-- A step with announcements is a sequence of steps. -/
theorem stepEv_run {y y' : Sys} {l : SysLabel} (h : y.stepEv P O ids cfg enc l = some y') :
    ∃ ls, runSteps (Sys.step P O ids cfg) y (l :: ls) = some y' := by
  cases l with
  | svc k => exact ⟨[], by simp only [Sys.stepEv] at h; simp [runSteps, h]⟩
  | proc i k =>
    simp only [Sys.stepEv] at h
    cases h1 : y.step P O ids cfg (.proc i k) with
    | none => rw [h1] at h; cases h
    | some y1 =>
      rw [h1] at h
      exact ⟨_, by simp only [runSteps, h1]; exact (announce_run _ _ _ h).1⟩

theorem runEv_run {y y' : Sys} {ls : List SysLabel} (h : runSteps (Sys.stepEv P O ids cfg enc) y ls = some y') :
    ∃ ls', runSteps (Sys.step P O ids cfg) y ls' = some y' := by
  refine runSteps_induct (R := fun z => ∃ ls', runSteps (Sys.step P O ids cfg) y ls' = some z) ?_ ls y y' ⟨[], rfl⟩ h
  rintro s l s' ⟨ls', h'⟩ hs
  obtain ⟨m, hm⟩ := stepEv_run hs
  exact ⟨ls' ++ (l :: m), by rw [runSteps_append, h']; exact hm⟩

/-- Emitted events stay. -/
theorem sys_emitted {y y' : Sys} {l : SysLabel} (h : y.step P O ids cfg l = some y') : ∃ t, y'.svc.ctx.emitted = y.svc.ctx.emitted ++ t := by
  rcases sys_svc h with ⟨e, _⟩ | ⟨k, hk, _⟩
  · exact ⟨[], by rw [e]; simp⟩
  · obtain ⟨⟨q, t, h1, _, _⟩, _⟩ := step_mono hk
    exact ⟨q, h1⟩

/-- Every start and exit is among the emitted events from position `k` on, in the order in which they happened. -/
theorem logged_emitted {y y' : Sys} {ls : List SysLabel} {k : Nat} {i : Nat} (h : runSteps (Sys.stepEv P O ids cfg enc) y ls = some y')
    (h0 : ((y.act i).log.map (enc i)).Sublist (y.svc.ctx.emitted.drop k)) (hk : k ≤ y.svc.ctx.emitted.length) :
    ((y'.act i).log.map (enc i)).Sublist (y'.svc.ctx.emitted.drop k) := by
  have key := runSteps_induct (step := Sys.stepEv P O ids cfg enc)
    (R := fun z => ((z.act i).log.map (enc i)).Sublist (z.svc.ctx.emitted.drop k) ∧ k ≤ z.svc.ctx.emitted.length) ?_ ls y y' ⟨h0, hk⟩ h
  · exact key.1
  rintro z l z' ⟨hz, hkz⟩ hs
  have grow : ∀ (w w' : Sys) (m : SysLabel), w.step P O ids cfg m = some w' → k ≤ w.svc.ctx.emitted.length →
      (∃ t, w'.svc.ctx.emitted.drop k = w.svc.ctx.emitted.drop k ++ t) ∧ k ≤ w'.svc.ctx.emitted.length := by
    intro w w' m hm hkw
    obtain ⟨t, ht⟩ := sys_emitted hm
    exact ⟨⟨t, by rw [ht, List.drop_append_of_le_length hkw]⟩, by rw [ht, List.length_append]; omega⟩
  cases l with
  | svc m =>
    simp only [Sys.stepEv] at hs
    obtain ⟨⟨t, ht⟩, hk'⟩ := grow _ _ _ hs hkz
    refine ⟨?_, hk'⟩
    rcases sys_log hs i with e | ⟨_, _, e, _⟩
    · rw [e, ht]; exact hz.trans (List.sublist_append_left _ _)
    · cases e
  | proc j m =>
    simp only [Sys.stepEv] at hs
    cases h1 : z.step P O ids cfg (.proc j m) with
    | none => rw [h1] at hs; cases hs
    | some w =>
      rw [h1] at hs
      simp only [Option.bind_some] at hs
      obtain ⟨⟨t, ht⟩, hk'⟩ := grow _ _ _ h1 hkz
      obtain ⟨_, b2, b3⟩ := announce_run _ _ _ hs
      refine ⟨?_, by rw [b3, List.length_append]; omega⟩
      rw [b2 i, b3, List.drop_append_of_le_length hk', ht, List.append_assoc]
      rcases sys_log h1 i with e | ⟨_, new, e, e2⟩
      · rw [e]; exact hz.trans (List.sublist_append_left _ _)
      · cases e
        rw [e2, List.map_append, List.drop_left]
        exact hz.append (List.sublist_append_right _ _)

/-! ## C105 -/

theorem lifecycles_from {k : Nat} {l : List ProcEv} (h : Lifecycles k l) (n : Nat) (hn : .started n ∈ l) : k ≤ n := by
  induction h with
  | nil => cases hn
  | running k => simp at hn; omega
  | exited k code rest _ ih =>
    simp only [List.mem_cons, ProcEv.started.injEq, reduceCtorEq, false_or] at hn
    rcases hn with e | e
    · omega
    · have := ih e; omega

/-- The log of an action all of whose processes have ended. -/
theorem lifecycles_closed {k : Nat} {l : List ProcEv} (h : Lifecycles k l) (hc : ∀ n, .started n ∈ l → ∃ code, .exited n code ∈ l) :
    ∃ codes, l = lifeEvents k codes := by
  induction h with
  | nil => exact ⟨[], rfl⟩
  | running k =>
    obtain ⟨code, h⟩ := hc k (by simp)
    simp at h
  | exited k code rest hr ih =>
    obtain ⟨codes, e⟩ := ih fun n hn => by
      obtain ⟨c, h⟩ := hc n (by simp [hn])
      simp only [List.mem_cons, reduceCtorEq, ProcEv.exited.injEq, false_or] at h
      rcases h with ⟨e, _⟩ | h
      · have := lifecycles_from hr n hn; omega
      · exact ⟨c, h⟩
    exact ⟨code :: codes, by rw [e, lifeEvents]⟩

theorem mem_lifeEvents_exited {k n : Nat} {code : Int} {codes : List Int} (h : .exited n code ∈ lifeEvents k codes) :
    k ≤ n ∧ codes[n - k]? = some code := by
  induction codes generalizing k with
  | nil => cases h
  | cons c codes ih =>
    simp only [lifeEvents, List.mem_cons, reduceCtorEq, ProcEv.exited.injEq, false_or] at h
    rcases h with ⟨e1, e2⟩ | h
    · subst e1; subst e2; simp
    · obtain ⟨h1, h2⟩ := ih h
      refine ⟨by omega, ?_⟩
      rw [show n - k = (n - (k + 1)) + 1 by omega]
      simpa using h2

theorem lifeEvents_exited {k : Nat} {codes : List Int} {n : Nat} {code : Int} (h : codes[n]? = some code) : .exited (k + n) code ∈ lifeEvents k codes := by
  induction codes generalizing k n with
  | nil => simp at h
  | cons c codes ih =>
    cases n with
    | zero => simp at h; subst h; simp [lifeEvents]
    | succ n =>
      have := ih (k := k + 1) (n := n) (by simpa using h)
      rw [show k + 1 + n = k + (n + 1) by omega] at this
      simp [lifeEvents, this]

/-- What an action over has told: all about each of its processes. -/
theorem over_log {c : ProcCfg} {ls : List ProcLabel} {a : ProcAct} (h : ProcAct.Reaches c ls a) (ho : a.AllEnded) :
    ∃ codes : List Int, a.procs = codes.map some ∧ a.log = lifeEvents 0 codes := by
  obtain ⟨codes, hcodes⟩ := lifecycles_closed (C32_alternate c ls a h) fun n hn => by
    obtain ⟨code, _, h2⟩ := ho n (C32_reported_start c ls a h n hn)
    exact ⟨code, h2⟩
  refine ⟨codes, ?_, hcodes⟩
  apply List.ext_getElem?
  intro n
  rw [List.getElem?_map]
  by_cases hn : n < a.started
  · obtain ⟨code, h1, h2⟩ := ho n hn
    rw [hcodes] at h2
    have := (mem_lifeEvents_exited h2).2
    simp only [Nat.sub_zero] at this
    rw [h1, this]; rfl
  · rw [List.getElem?_eq_none (by simpa [ProcAct.started] using hn)]
    cases hc : codes[n]? with
    | none => rfl
    | some code =>
      have h1 := lifeEvents_exited (k := 0) hc
      rw [Nat.zero_add, ← hcodes] at h1
      have h2 := C32_reported_code c ls a h n code h1
      have := (List.getElem?_eq_some_iff.mp h2).1
      exact absurd this hn

/-- C105: when `run` returns 0, every start and every exit of every process has been handled by the service, in the order in which they happened;
nothing is reported after `run` has returned. -/
theorem C105_handled (P : Prog) (O : Oracle) (env : Dict String) (ids : List Nat) (cfg : Nat → ProcCfg) (enc : Nat → ProcEv → Event) (ls : List SysLabel)
    (y y' : Sys) (h : Sys.ReachesEv P O env ids cfg enc ls y) (hf : y.stepEv P O ids cfg enc (.svc .finish) = some y') (hz : y'.svc.result = some false) :
    y'.svc.ctx.queue = [] ∧ ∀ i, ((y'.act i).log.map (enc i)).Sublist y'.svc.handled := by
  obtain ⟨ls', hr⟩ := runEv_run h
  have hinv := SysInv.reach (ids := ids) (cfg := cfg) hr
  obtain ⟨ls0, hr0⟩ := hinv.svc
  simp only [Sys.stepEv] at hf
  obtain ⟨ls1, hr1⟩ := (hinv.step hf).svc
  have hs : y.svc.step P O .finish = some y'.svc := by
    simp only [Sys.step] at hf
    cases h4 : y.svc.step P O .finish with
    | none => rw [h4] at hf; cases hf
    | some s' =>
      rw [h4] at hf
      simp only [Option.bind_some, Sys.serve] at hf
      split at hf
      · simp only [Option.some.injEq] at hf; rw [← hf]
      · cases hf
  have hq := (C27_zero_only_when_idle P O env ls0 y.svc y'.svc hr0 hs hz).2.1
  refine ⟨hq, fun i => ?_⟩
  have hl : runSteps (Sys.stepEv P O ids cfg enc) { svc := Svc.init env } (ls ++ [.svc .finish]) = some y' := by
    rw [runSteps_append, h]; simp [runSteps, Sys.stepEv, hf]
  have := logged_emitted (k := 0) (i := i) hl (by simp) (by simp)
  rw [List.drop_zero, ← C20_fifo P O env ls1 y'.svc hr1, hq, List.append_nil] at this
  exact this

/-- C105: when `run` returns 0, and the processing of no event has ever raised: for every process action there is a list of exit codes, of its processes one
after the other, such that the service has handled the start and the exit with this code of the first, then those of the second, and so on. -/
theorem C105_whole_story (P : Prog) (O : Oracle) (env : Dict String) (ids : List Nat) (cfg : Nat → ProcCfg) (enc : Nat → ProcEv → Event)
    (ls : List SysLabel) (y y' : Sys) (h : Sys.ReachesEv P O env ids cfg enc ls y) (hf : y.stepEv P O ids cfg enc (.svc .finish) = some y')
    (hz : y'.svc.result = some false) (hok : y'.failed = false) :
    ∀ i ∈ ids, ∃ codes : List Int, (y'.act i).procs = codes.map some ∧ ((lifeEvents 0 codes).map (enc i)).Sublist y'.svc.handled := by
  intro i hi
  obtain ⟨ls', hr⟩ := runEv_run h
  have hinv := SysInv.reach (ids := ids) (cfg := cfg) hr
  have hf' := hf
  simp only [Sys.stepEv] at hf
  obtain ⟨la, hla⟩ := (hinv.step hf).act i
  have ho := C104_nothing_left_partial P O env ids cfg ls' y y' hr hf hz hok i hi
  obtain ⟨codes, h1, h2⟩ := over_log hla ho.1
  exact ⟨codes, h1, h2 ▸ (C105_handled P O env ids cfg enc ls y y' h hf' hz).2 i⟩

theorem process_task {s s' : Svc} {fuel : Nat} (h : s.step P O (.process fuel) = some s') (he : s'.evFailed = false) : s'.task = .done true := by
  simp only [Svc.step] at h
  split at h
  · obtain ⟨e', q', p, r, hq', hp, rfl⟩ := process_inv h
    cases r with
    | error err => simp at he
    | ok u => rfl
  · cases h

/-- A handler that stays is called for every event handled from now on. -/
theorem called_step {y y' : Sys} {l : SysLabel} {k n : Nat} (h : y.step P O ids cfg l = some y') (hn : n ≤ y.svc.handled.length)
    (hk : k ∈ y.svc.ctx.handlers) (hf : y'.failed = false)
    (hc : (((y.svc.handled.drop n).filter (P.withService.matchesEv k)).map (·, k)).Sublist y.svc.calls) :
    (((y'.svc.handled.drop n).filter (P.withService.matchesEv k)).map (·, k)).Sublist y'.svc.calls := by
  rcases sys_svc h with ⟨e, _⟩ | ⟨m, hm, hfl⟩
  · rw [e]; exact hc
  · obtain ⟨t, ht⟩ := (step_mono hm).calls
    rcases C20_one_at_a_time P O _ _ m hm with e | ⟨fuel, ev, rfl, hq, e, _⟩
    · rw [e, ht]; exact hc.trans (List.sublist_append_left _ _)
    · rcases hfl with ⟨_, _, e', _⟩ | hfl
      · cases e'
      · rw [hf] at hfl
        have he : y'.svc.evFailed = false := by
          cases hx : y'.svc.evFailed with
          | false => rfl
          | true => rw [hx] at hfl; simp at hfl
        obtain ⟨q, hq⟩ : ∃ q, y.svc.ctx.queue = ev :: q := by
          cases hqq : y.svc.ctx.queue with
          | nil => rw [hqq] at hq; cases hq
          | cons a q => rw [hqq] at hq; simp at hq; exact ⟨q, by rw [hq]⟩
        rw [C21_handlers_at_dequeue P O fuel _ _ ev q hq hm (process_task hm he), e, List.drop_append_of_le_length hn, List.filter_append,
          List.map_append]
        refine hc.append ?_
        by_cases hmt : P.withService.matchesEv k ev = true
        · have hkm : k ∈ y.svc.ctx.handlers.filter (P.withService.matchesEv · ev) := List.mem_filter.mpr ⟨hk, hmt⟩
          simp only [List.filter_cons, hmt, if_true, List.filter_nil, List.map_cons, List.map_nil, List.singleton_sublist]
          exact List.mem_map.mpr ⟨k, hkm, rfl⟩
        · simp [hmt]

/-- The same for a sequence of steps. -/
theorem called_run {ls : List SysLabel} {y y' : Sys} {k n : Nat} (h : runSteps (Sys.step P O ids cfg) y ls = some y') (hn : n ≤ y.svc.handled.length)
    (hk : k ∈ y.svc.ctx.handlers) (hf : y'.failed = false) (hu : y'.svc.ctx.unregistered.count k = y.svc.ctx.unregistered.count k)
    (hc : (((y.svc.handled.drop n).filter (P.withService.matchesEv k)).map (·, k)).Sublist y.svc.calls) :
    (((y'.svc.handled.drop n).filter (P.withService.matchesEv k)).map (·, k)).Sublist y'.svc.calls := by
  have mono : ∀ (z z' : Sys) (l : SysLabel), z.step P O ids cfg l = some z' → SMono P z.svc z'.svc ∧ (z'.failed = false → z.failed = false) := by
    intro z z' l hs
    rcases sys_svc hs with ⟨e, e2⟩ | ⟨m, hm, hfl⟩
    · exact ⟨by rw [e]; exact SMono.refl P _, fun hx => by rw [← e2]; exact hx⟩
    · refine ⟨step_mono hm, fun hx => ?_⟩
      rcases hfl with ⟨_, _, _, e⟩ | e
      · rw [← e]; exact hx
      · rw [hx] at e
        cases hz : z.failed with
        | false => rfl
        | true => rw [hz] at e; simp at e
  induction ls generalizing y with
  | nil => simp only [runSteps, Option.some.injEq] at h; subst h; exact hc
  | cons l ls ih =>
    obtain ⟨y1, h1, h2⟩ := runSteps_cons h
    obtain ⟨m1, _⟩ := mono _ _ _ h1
    have hmono := runSteps_induct (R := fun z => SMono P y1.svc z.svc) (fun z m z' hz hs => hz.trans (mono _ _ _ hs).1) ls y1 y' (SMono.refl P _) h2
    have hfail : y1.failed = false := by
      have : ∀ (ls : List SysLabel) (z : Sys), runSteps (Sys.step P O ids cfg) z ls = some y' → z.failed = false := by
        intro ls
        induction ls with
        | nil => intro z hz; simp only [runSteps, Option.some.injEq] at hz; subst hz; exact hf
        | cons l ls ih =>
          intro z hz
          obtain ⟨z1, g1, g2⟩ := runSteps_cons hz
          exact (mono _ _ _ g1).2 (ih z1 g2)
      exact this ls y1 h2
    have c1 := m1.kept k
    have c2 := hmono.kept k
    have hu1 : y1.svc.ctx.unregistered.count k = y.svc.ctx.unregistered.count k := by
      have := c1.1; have := c2.1; omega
    have hk1 : k ∈ y1.svc.ctx.handlers := by
      have h3 : 0 < y.svc.ctx.handlers.count k := List.count_pos_iff.2 hk
      have h4 := c1.2.1
      exact List.count_pos_iff.1 (by omega)
    obtain ⟨q, t, e1, e2, e3⟩ := m1.hist
    exact ih h2 (by rw [e2, List.length_append]; omega) hk1 (by rw [hu, hu1]) (called_step h1 hn hk hfail hc)

/-- C105: a handler that is registered before the action `i` starts its first process, and is not removed, is called for every start and every exit of
a process of this action that it matches, in the order in which they happen, before `run` returns 0. -/
theorem C105_handler_called (P : Prog) (O : Oracle) (env : Dict String) (ids : List Nat) (cfg : Nat → ProcCfg) (enc : Nat → ProcEv → Event)
    (before after : List SysLabel) (y1 y y' : Sys) (k i : Nat) (h1 : Sys.ReachesEv P O env ids cfg enc before y1) (hk : k ∈ y1.svc.ctx.handlers)
    (hi : (y1.act i).log = []) (h2 : runSteps (Sys.stepEv P O ids cfg enc) y1 after = some y)
    (hf : y.stepEv P O ids cfg enc (.svc .finish) = some y') (hz : y'.svc.result = some false) (hok : y'.failed = false)
    (hu : y'.svc.ctx.unregistered.count k = y1.svc.ctx.unregistered.count k) :
    ((((y'.act i).log.map (enc i)).filter (P.withService.matchesEv k)).map (·, k)).Sublist y'.svc.calls := by
  have h : Sys.ReachesEv P O env ids cfg enc (before ++ after) y := by
    unfold Sys.ReachesEv at *; rw [runSteps_append, h1]; exact h2
  obtain ⟨hq, _⟩ := C105_handled P O env ids cfg enc _ y y' h hf hz
  have h3 : runSteps (Sys.stepEv P O ids cfg enc) y1 (after ++ [.svc .finish]) = some y' := by
    rw [runSteps_append, h2]; simp [runSteps, hf]
  obtain ⟨ls1, hr1⟩ := runEv_run h1
  obtain ⟨ls3, hr3⟩ := runEv_run h3
  obtain ⟨la, hla⟩ := (SysInv.reach (ids := ids) (cfg := cfg) hr1).svc
  have hr : Sys.Reaches P O env ids cfg (ls1 ++ ls3) y' := by unfold Sys.Reaches; rw [runSteps_append, hr1]; exact hr3
  obtain ⟨lb, hlb⟩ := (SysInv.reach hr).svc
  have f1 := C20_fifo P O env la y1.svc hla
  have f2 := C20_fifo P O env lb y'.svc hlb
  rw [hq, List.append_nil] at f2
  have hle : y1.svc.handled.length ≤ y1.svc.ctx.emitted.length := by rw [← f1, List.length_append]; omega
  have hsub := logged_emitted (k := y1.svc.handled.length) (i := i) h3 (by simp [hi]) hle
  rw [← f2] at hsub
  exact ((hsub.filter _).map _).trans (called_run hr3 (Nat.le_refl _) hk hok hu (by simp))

/-! ## A launch that hears -/

/-- Start and exit of the processes of each action as event objects. -/
def sampleEnc (i : Nat) : ProcEv → Event
  | .started n => .user (100 * i + 10 * n)
  | .exited n code => .user (100 * i + 10 * n + 1 + code.toNat)
  | _ => .user 0

/-- A handler (2) for exits of process action 5, then the process actions 5 and 6. -/
def hearProg : Prog :=
  { svcProg with
    once := fun _ => false
    matchesEv := fun h e => h == 2 && (e == .user 501 || e == .user 511)
    callback := fun _ _ _ => {}
    description := fun _ => [.act (.user 4) none (.registerHandler 2 none), .act (.user 5) none (.custom 1 [] []), .act (.user 6) none (.custom 1 [] [])] }

/-- Its runs; the process of action 5 is respawned once. -/
def hearRun (ls : List SysLabel) : Option Sys :=
  runSteps (Sys.stepEv hearProg sampleOracle [5, 6] (fun i => { respawn := i == 5, maxRetries := 1 }) sampleEnc) { svc := Svc.init [] } ls

/-- Until the process of action 5 is started again; it exits as soon as it is. -/
def hearLabels : List SysLabel :=
  bothRun ++ [.proc 5 (.procExit 0 0), .proc 5 .observe, .proc 5 (.begin true), .proc 5 .spawn, .proc 5 .attach, .proc 5 (.procExit 1 0), .proc 5 .observe,
    .proc 6 (.procExit 0 7), .proc 6 .observe]

/-- The service handles one event. -/
def serveOne : List SysLabel := [.svc (.process 9), .svc .wake, .svc .check]

/-- The handler is registered before the first process starts, and every start and exit is handled before `run` returns 0. -/
example : (hearRun (bothRun.take 6)).map (fun y => (y.svc.ctx.handlers, (y.act 5).log)) = some ([2, 1, 0], []) ∧
    (hearRun (hearLabels ++ serveOne ++ serveOne ++ serveOne ++ serveOne ++ serveOne ++ serveOne ++ [.svc .check] ++ serveOne ++ [.svc .finish])).map
      (fun y => (y.svc.result, y.failed, y.svc.ctx.unregistered)) = some (some false, false, []) := by decide +kernel

example : (hearRun (hearLabels ++ serveOne ++ serveOne ++ serveOne ++ serveOne ++ serveOne ++ serveOne ++ [.svc .check] ++ serveOne ++ [.svc .finish])).map
      (fun y => (y.svc.handled, y.svc.calls)) =
      some ([.includeDesc 0, .user 500, .user 600, .user 501, .user 510, .user 511, .user 608, .shutdown "idle" false],
        [(.includeDesc 0, 0), (.user 501, 2), (.user 511, 2), (.shutdown "idle" false, 1)]) := by decide +kernel

/-- A cancelled run, which returns 1, leaves reports unhandled. -/
theorem C105_cancelled_unheard :
    (hearRun (bothRun ++ [.proc 5 (.procExit 0 0), .proc 5 .observe, .svc .cancel, .svc .finish])).map
      (fun y => (y.svc.result, y.svc.ctx.queue, y.svc.calls)) =
      some (some true, [.user 500, .user 600, .user 501], [(.includeDesc 0, 0)]) := by decide +kernel

end Verif
