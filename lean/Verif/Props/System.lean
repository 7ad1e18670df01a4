import Verif.Spec.System
import Verif.Lemmas.Futures
import Verif.Props.Service
import Verif.Props.ExecuteLocal

/-!
# Property C104: what is left when run returns
-/

namespace Verif

variable {P : Prog} {O : Oracle} {env : Dict String} {ids : List Nat} {cfg : Nat → ProcCfg}

/-- Not executed. -/
structure ProcAct.Fresh (a : ProcAct) : Prop where
  comp : a.comp = .unset
  task : a.task = .absent
  procs : a.procs = []

/-- What the futures of the service say about the process actions. -/
structure SysInv (P : Prog) (O : Oracle) (env : Dict String) (ids : List Nat) (cfg : Nat → ProcCfg) (y : Sys) : Prop where
  svc : ∃ ls, (Svc.init env).Reaches P O ls y.svc
  act : ∀ i, ∃ ls, ProcAct.Reaches (cfg i) ls (y.act i)
  link : ∀ i ∈ ids, (y.svc.ctx.futuresOf (.user i) = [] ∧ (y.act i).Fresh) ∨
    ∃ f, y.svc.ctx.futuresOf (.user i) = [f] ∧ (y.act i).comp ≠ .unset ∧ (y.svc.isDone f = true ↔ (y.act i).comp = .done) ∧
      (y.failed = false → (.user i, f) ∈ y.svc.collected)
  apart : ∀ i ∈ ids, ∀ j ∈ ids, ∀ f, f ∈ y.svc.ctx.futuresOf (.user i) → f ∈ y.svc.ctx.futuresOf (.user j) → i = j

theorem Svc.reaches_snoc {s0 s s' : Svc} {ls : List Label} {l : Label} (h : s0.Reaches P O ls s) (hs : s.step P O l = some s') :
    s0.Reaches P O (ls ++ [l]) s' := by
  unfold Svc.Reaches at h ⊢
  rw [steps_append, h]
  simp [Svc.steps, hs]

theorem ProcAct.reaches_snoc {c : ProcCfg} {a a' : ProcAct} {ls : List ProcLabel} {l : ProcLabel} (h : ProcAct.Reaches c ls a)
    (hs : a.step c l = some a') : ProcAct.Reaches c (ls ++ [l]) a' := by
  unfold ProcAct.Reaches at h ⊢
  rw [runSteps_append, h]
  simp [runSteps, hs]

/-- Nothing is executed: the shutdown procedure and events do not start anything. -/
theorem fresh_shutdownProcess (b : Bool) (a : ProcAct) :
    (a.shutdownProcess b).comp = a.comp ∧ (a.shutdownProcess b).task = a.task ∧ (a.shutdownProcess b).procs = a.procs := by
  unfold ProcAct.shutdownProcess
  repeat' split
  all_goals exact ⟨rfl, rfl, rfl⟩

theorem fresh_deferred (l : List Bool) (a : ProcAct) :
    (l.foldl (fun a b => a.shutdownProcess b) a).comp = a.comp ∧ (l.foldl (fun a b => a.shutdownProcess b) a).task = a.task ∧
      (l.foldl (fun a b => a.shutdownProcess b) a).procs = a.procs := by
  induction l generalizing a with
  | nil => exact ⟨rfl, rfl, rfl⟩
  | cons b l ih =>
    obtain ⟨h1, h2, h3⟩ := ih (a.shutdownProcess b)
    obtain ⟨g1, g2, g3⟩ := fresh_shutdownProcess b a
    exact ⟨h1.trans g1, h2.trans g2, h3.trans g3⟩

theorem process_keeps {c : ProcCfg} {a a' : ProcAct} (h : a.process c = some a') :
    a'.comp = a.comp ∧ a'.task = a.task ∧ a'.procs = a.procs := by
  unfold ProcAct.process at h
  split at h
  · cases h
  · simp only [Option.some.injEq] at h
    rw [← h]
    repeat' split
    all_goals first
      | exact ⟨rfl, rfl, rfl⟩
      | exact fresh_shutdownProcess _ _
      | exact fresh_deferred _ _
      | (unfold ProcAct.onSignal; repeat' split
         all_goals exact ⟨rfl, rfl, rfl⟩)

/-- Without `execute` nothing starts. -/
theorem ProcAct.Fresh.step {c : ProcCfg} {a a' : ProcAct} {l : ProcLabel} (hf : a.Fresh) (hl : l ≠ .execute) (h : a.step c l = some a') :
    a'.Fresh := by
  obtain ⟨h1, h2, h3⟩ := hf
  cases l with
  | execute => exact absurd rfl hl
  | process =>
    obtain ⟨g1, g2, g3⟩ := process_keeps h
    exact ⟨g1.trans h1, g2.trans h2, g3.trans h3⟩
  | ask b =>
    simp only [ProcAct.step, Option.some.injEq] at h
    subst h
    obtain ⟨g1, g2, g3⟩ := fresh_shutdownProcess b a
    exact ⟨g1.trans h1, g2.trans h2, g3.trans h3⟩
  | procExit n code => simp [ProcAct.step, h3] at h
  | timerBegin s =>
    simp only [ProcAct.step] at h
    split at h
    · simp only [Option.some.injEq] at h; subst h
      cases s <;> exact ⟨h1, h2, h3⟩
    · cases h
  | timerFire s =>
    simp only [ProcAct.step] at h
    repeat' split at h
    all_goals first | (cases h; done) | skip
    simp only [Option.some.injEq] at h; subst h
    cases s <;> exact ⟨h1, h2, h3⟩
  | tick => simp only [ProcAct.step, Option.some.injEq] at h; subst h; exact ⟨h1, h2, h3⟩
  | setShut => simp only [ProcAct.step, Option.some.injEq] at h; subst h; exact ⟨h1, h2, h3⟩
  | emit e =>
    simp only [ProcAct.step] at h
    split at h
    · simp only [Option.some.injEq] at h; subst h; exact ⟨h1, h2, h3⟩
    · cases h
  | _ => simp [ProcAct.step, h2] at h

/-- A future that exists stays. -/
theorem comp_stays {c : ProcCfg} {a a' : ProcAct} {l : ProcLabel} (h : a.step c l = some a')
    (hl : l ≠ .execute) : a'.comp = a.comp ∨ a'.comp = .done := by
  cases l with
  | execute => exact absurd rfl hl
  | process => exact .inl (process_keeps h).1
  | ask b => simp only [ProcAct.step, Option.some.injEq] at h; subst h; exact .inl (fresh_shutdownProcess b a).1
  | timerBegin s =>
    simp only [ProcAct.step] at h
    split at h
    · simp only [Option.some.injEq] at h; subst h
      cases s <;> exact .inl rfl
    · cases h
  | timerFire s =>
    simp only [ProcAct.step] at h
    repeat' split at h
    all_goals first | (cases h; done) | skip
    simp only [Option.some.injEq] at h; subst h
    cases s <;> exact .inl rfl
  | observe =>
    simp only [ProcAct.step] at h
    repeat' split at h
    all_goals first | (cases h; done) | skip
    simp only [Option.some.injEq] at h; subst h
    unfold ProcAct.observe
    simp only
    split
    · exact .inl rfl
    · exact .inr rfl
  | delayOver =>
    simp only [ProcAct.step] at h
    split at h
    · simp only [Option.some.injEq] at h; subst h
      split
      · exact .inr rfl
      · exact .inl rfl
    · cases h
  | _ =>
    simp only [ProcAct.step] at h
    repeat' split at h
    all_goals first
      | (cases h; done)
      | (simp only [Option.some.injEq] at h; subst h; first | exact .inl rfl | exact .inr rfl)

theorem done_stays {c : ProcCfg} {a a' : ProcAct} {l : ProcLabel} (h : a.step c l = some a') (hc : a.comp = .done)
    (hl : l ≠ .execute) : a'.comp = .done := by
  rcases comp_stays h hl with e | e
  · rw [e, hc]
  · exact e

theorem execute_comp {a : ProcAct} (h1 : a.executed = false) (h2 : a.ctxShut = false) : a.execute.comp = .pending := by
  simp [ProcAct.execute, h1, h2]

/-- A step of the service. -/
theorem SysInv.serve {y y' : Sys} {s' : Svc} {l : Label} (h : SysInv P O env ids cfg y) (hs : y.svc.step P O l = some s')
    (hl : ∀ f r, l = .futureDone f r → ∀ i ∈ ids, f ∉ y.svc.ctx.futuresOf (.user i)) (hy : y.serve ids s' = some y') :
    SysInv P O env ids cfg y' := by
  unfold Sys.serve at hy
  split at hy
  · rename_i hall
    simp only [Option.some.injEq] at hy
    subst hy
    rw [List.all_eq_true] at hall
    obtain ⟨ls, hls⟩ := h.svc
    have hm := step_mono hs
    have hin : ∀ i ∈ ids, i ∉ executedIn ids y.svc s' → s'.ctx.futuresOf (.user i) = y.svc.ctx.futuresOf (.user i) := by
      intro i hi hn
      simp only [executedIn, List.mem_filter, bne_iff_ne, ne_eq, not_and, Classical.not_not] at hn
      exact hn hi
    have hnew : ∀ i, i ∈ executedIn ids y.svc s' → ∃ f, s'.ctx.futuresOf (.user i) = [f] ∧ s'.isDone f = false ∧
        (y.act i).executed = false ∧ (y.act i).ctxShut = false ∧
        ∀ j ∈ ids, f ∈ s'.ctx.futuresOf (.user j) → j = i := by
      intro i hi
      have := hall i hi
      unfold Sys.executes at this
      split at this
      · rename_i f hf
        simp only [Bool.and_eq_true, Bool.not_eq_true', List.all_eq_true, Bool.or_eq_true, beq_iff_eq] at this
        refine ⟨f, hf, this.1.1.1, this.1.1.2, this.1.2, fun j hj hm => ?_⟩
        rcases this.2 j hj with e | e
        · exact e
        · simp at e; exact absurd hm e
      · cases this
    refine ⟨⟨_, Svc.reaches_snoc hls hs⟩, fun i => ?_, fun i hi => ?_, fun i hi j hj f hfi hfj => ?_⟩
    · obtain ⟨ls, hr⟩ := h.act i
      show ∃ ls, ProcAct.Reaches (cfg i) ls (if i ∈ executedIn ids y.svc s' then _ else _)
      split
      · exact ⟨_, ProcAct.reaches_snoc hr (l := .execute) rfl⟩
      · exact ⟨ls, hr⟩
    · by_cases hx : i ∈ executedIn ids y.svc s'
      · right
        obtain ⟨f, hf, hd, he, hsd, _⟩ := hnew i hx
        refine ⟨f, hf, ?_, ?_, fun hok => ?_⟩
        · show (if i ∈ executedIn ids y.svc s' then _ else _ : ProcAct).comp ≠ _
          rw [if_pos hx, execute_comp he hsd]; simp
        · show _ ↔ (if i ∈ executedIn ids y.svc s' then _ else _ : ProcAct).comp = _
          rw [if_pos hx, execute_comp he hsd]
          simp [hd]
        · have hok' : s'.evFailed = false := by
            have : (y.failed || s'.evFailed) = false := hok
            simp at this; exact this.2
          obtain ⟨t, h1, h2⟩ := step_collects hs hok'
          show _ ∈ s'.collected
          rw [h1]
          rcases h2.only _ _ hf with e | ⟨_, e⟩
          · simp only [executedIn, List.mem_filter, bne_iff_ne, ne_eq] at hx
            exact absurd (hf.trans e.symm) hx.2
          · exact List.mem_append.mpr (.inr e)
      · have hsame := hin i hi hx
        rcases h.link i hi with ⟨h1, h2⟩ | ⟨f, h1, h2, h3, h4⟩
        · exact .inl ⟨hsame.trans h1, by
            show ProcAct.Fresh (if i ∈ executedIn ids y.svc s' then _ else _)
            rw [if_neg hx]; exact h2⟩
        · refine .inr ⟨f, hsame.trans h1, ?_, ?_, fun hok => ?_⟩
          · show (if i ∈ executedIn ids y.svc s' then _ else _ : ProcAct).comp ≠ _
            rw [if_neg hx]; exact h2
          · show s'.isDone f = true ↔ (if i ∈ executedIn ids y.svc s' then _ else _ : ProcAct).comp = _
            rw [if_neg hx, ← h3]
            constructor
            · intro hd
              cases hq : y.svc.isDone f with
              | true => rfl
              | false =>
                exfalso
                -- only this step could have completed it
                have hfin : s'.fin = y.svc.fin ∨ ∃ g r, l = .futureDone g r ∧ s'.fin = (g, r) :: y.svc.fin := by
                  cases l with
                  | futureDone g r =>
                    simp only [Svc.step] at hs
                    split at hs
                    · cases hs
                    · simp only [Option.some.injEq] at hs; subst hs
                      exact .inr ⟨g, r, rfl, rfl⟩
                  | _ => exact .inl (fin_same hs (by simp))
                rcases hfin with e | ⟨g, r, rfl, e⟩
                · simp only [Svc.isDone, e] at hd hq
                  rw [hq] at hd; cases hd
                · have hg : f ≠ g := by
                    intro e; subst e
                    exact hl f r rfl i hi (by rw [h1]; simp)
                  have hg' : (f == g) = false := by simp [hg]
                  simp only [Svc.isDone, e, List.lookup, hg'] at hd hq
                  rw [hq] at hd; cases hd
            · exact fun hd => isDone_mono hm hd
          · have hok2 : y.failed = false ∧ s'.evFailed = false := by
              have : (y.failed || s'.evFailed) = false := hok
              simpa using this
            obtain ⟨t, h5, _⟩ := step_collects hs hok2.2
            show _ ∈ s'.collected
            rw [h5]
            exact List.mem_append.mpr (.inl (h4 hok2.1))
    · have hfi : f ∈ s'.ctx.futuresOf (.user i) := hfi
      have hfj : f ∈ s'.ctx.futuresOf (.user j) := hfj
      by_cases hxi : i ∈ executedIn ids y.svc s'
      · obtain ⟨g, hg, _, _, _, hu⟩ := hnew i hxi
        rw [hg] at hfi
        simp at hfi; subst hfi
        exact (hu j hj hfj).symm
      · by_cases hxj : j ∈ executedIn ids y.svc s'
        · obtain ⟨g, hg, _, _, _, hu⟩ := hnew j hxj
          rw [hg] at hfj
          simp at hfj; subst hfj
          exact hu i hi hfi
        · rw [hin i hi hxi] at hfi
          rw [hin j hj hxj] at hfj
          exact h.apart i hi j hj f hfi hfj
  · cases hy

/-- A step of a process action. -/
theorem SysInv.proc {y : Sys} {i : Nat} {l : ProcLabel} {a : ProcAct} (h : SysInv P O env ids cfg y) (hi : i ∈ ids) (hl : l ≠ .execute)
    (ha : (y.act i).step (cfg i) l = some a) : SysInv P O env ids cfg (y.set P O i a) := by
  obtain ⟨ls, hls⟩ := h.act i
  -- the service afterwards
  have key : ∀ s', (s' = y.svc ∨ ∃ f, f ∈ y.svc.ctx.futuresOf (.user i) ∧ y.svc.step P O (.futureDone f .ok) = some s') →
      (∀ f, y.svc.ctx.futuresOf (.user i) = [f] → (s'.isDone f = true ↔ a.comp = .done)) →
      SysInv P O env ids cfg { y with svc := s', act := fun j => if j = i then a else y.act j } := by
    intro s' hs' hdone
    have hctx : s'.ctx = y.svc.ctx ∧ s'.collected = y.svc.collected := by
      rcases hs' with rfl | ⟨f, _, hf⟩
      · exact ⟨rfl, rfl⟩
      · simp only [Svc.step] at hf
        split at hf
        · cases hf
        · simp only [Option.some.injEq] at hf; subst hf; exact ⟨rfl, rfl⟩
    have hother : ∀ j ∈ ids, j ≠ i → ∀ g, g ∈ y.svc.ctx.futuresOf (.user j) → s'.isDone g = y.svc.isDone g := by
      intro j hj hji g hg
      rcases hs' with rfl | ⟨f, hf, hst⟩
      · rfl
      · have hne : g ≠ f := by
          intro e; subst e
          exact hji (h.apart j hj i hi g hg hf)
        simp only [Svc.step] at hst
        split at hst
        · cases hst
        · simp only [Option.some.injEq] at hst; subst hst
          have : (g == f) = false := by simp [hne]
          simp only [Svc.isDone, List.lookup, this]
    refine ⟨?_, fun j => ?_, fun j hj => ?_, ?_⟩
    · obtain ⟨ls, hr⟩ := h.svc
      rcases hs' with rfl | ⟨f, _, hf⟩
      · exact ⟨ls, hr⟩
      · exact ⟨_, Svc.reaches_snoc hr hf⟩
    · show ∃ ls, ProcAct.Reaches (cfg j) ls (if j = i then a else y.act j)
      by_cases hji : j = i
      · subst hji; rw [if_pos rfl]; exact ⟨_, ProcAct.reaches_snoc hls ha⟩
      · rw [if_neg hji]; exact h.act j
    · show (s'.ctx.futuresOf _ = _ ∧ ProcAct.Fresh (if j = i then a else y.act j)) ∨ ∃ f, s'.ctx.futuresOf _ = _ ∧
        (if j = i then a else y.act j : ProcAct).comp ≠ _ ∧ (s'.isDone f = true ↔ (if j = i then a else y.act j : ProcAct).comp = _) ∧
        (_ → _ ∈ s'.collected)
      rw [hctx.1, hctx.2]
      by_cases hji : j = i
      · subst hji
        rw [if_pos rfl]
        rcases h.link j hj with ⟨h1, h2⟩ | ⟨f, h1, h2, h3, h4⟩
        · exact .inl ⟨h1, h2.step hl ha⟩
        · refine .inr ⟨f, h1, ?_, hdone f h1, h4⟩
          rcases comp_stays ha hl with e | e
          · rw [e]; exact h2
          · rw [e]; simp
      · rw [if_neg hji]
        rcases h.link j hj with h1 | ⟨f, h1, h2, h3, h4⟩
        · exact .inl h1
        · exact .inr ⟨f, h1, h2, by rw [hother j hj hji f (by rw [h1]; simp)]; exact h3, h4⟩
    · show ∀ i ∈ ids, ∀ j ∈ ids, ∀ f, f ∈ s'.ctx.futuresOf _ → f ∈ s'.ctx.futuresOf _ → i = j
      rw [hctx.1]; exact h.apart
  unfold Sys.set
  refine key _ ?_ ?_
  · split
    · split
      · exact .inl rfl
      · rename_i f fs hf
        cases hst : y.svc.step P O (.futureDone f .ok) with
        | none => exact .inl rfl
        | some s' => exact .inr ⟨f, by rw [hf]; simp, hst⟩
    · exact .inl rfl
  · intro f hf
    rcases h.link i hi with ⟨h1, _⟩ | ⟨g, h1, h2, h3, h4⟩
    · rw [h1] at hf; cases hf
    · rw [hf] at h1
      obtain rfl : f = g := by simpa using h1
      by_cases hc : a.comp = .done
      · by_cases hb : (y.act i).comp = .done
        · simp only [hc, hb, ne_eq, not_true_eq_false, decide_false, Bool.and_false, Bool.false_eq_true, if_false]
          simp [h3.mpr hb]
        · have hnd : y.svc.isDone f = false := by
            cases hq : y.svc.isDone f with
            | false => rfl
            | true => exact absurd (h3.mp hq) hb
          simp only [hc, hb, ne_eq, not_false_eq_true, decide_true, Bool.and_true, if_true, hf]
          simp only [Svc.step, hnd, Bool.false_eq_true, if_false, Option.getD_some, iff_true]
          simp [Svc.isDone, List.lookup]
      · have hb : (y.act i).comp ≠ .done := fun hb => hc (done_stays ha hb hl)
        have hnd : ¬ y.svc.isDone f = true := fun hq => hb (h3.mp hq)
        simp [hc, hnd]

theorem SysInv.step {y y' : Sys} {l : SysLabel} (h : SysInv P O env ids cfg y) (hs : y.step P O ids cfg l = some y') :
    SysInv P O env ids cfg y' := by
  cases l with
  | svc l =>
    have gen : (∀ f r, l = .futureDone f r → ∀ i ∈ ids, f ∉ y.svc.ctx.futuresOf (.user i)) →
        (y.svc.step P O l).bind (y.serve ids) = some y' → SysInv P O env ids cfg y' := by
      intro hl hb
      cases h1 : y.svc.step P O l with
      | none => rw [h1] at hb; cases hb
      | some s' => rw [h1] at hb; exact h.serve h1 hl hb
    cases l with
    | futureDone f r =>
      simp only [Sys.step] at hs
      split at hs
      · cases hs
      · rename_i hn
        refine gen ?_ hs
        intro g q e i hi hm
        cases e
        apply hn
        rw [List.any_eq_true]
        exact ⟨i, hi, by simp [hm]⟩
    | _ => exact gen (by simp) hs
  | proc i l =>
    by_cases hl : l = .execute
    · subst hl; simp [Sys.step] at hs
    · have : (if i ∈ ids then ((y.act i).step (cfg i) l).map (y.set P O i) else none) = some y' := by
        cases l <;> first | exact absurd rfl hl | exact hs
      split at this
      · rename_i hi
        cases ha : (y.act i).step (cfg i) l with
        | none => rw [ha] at this; cases this
        | some a =>
          rw [ha] at this
          simp only [Option.map_some, Option.some.injEq] at this
          subst this
          exact h.proc hi hl ha
      · cases this

theorem SysInv.reach {ls : List SysLabel} {y : Sys} (h : Sys.Reaches P O env ids cfg ls y) : SysInv P O env ids cfg y := by
  refine runSteps_induct (fun _ _ _ hi hs => hi.step hs) ls _ _ ?_ h
  refine ⟨⟨[], rfl⟩, fun i => ⟨[], rfl⟩, fun i _ => .inl ⟨rfl, rfl, rfl, rfl⟩, fun i _ j _ f hf => ?_⟩
  cases hf

/-! ## C104 -/

theorem ProcAct.Fresh.over {c : ProcCfg} {a : ProcAct} (h : a.Fresh) : a.Over c := by
  have h0 : a.started = 0 := by simp [ProcAct.started, h.procs]
  refine ⟨fun n hn => by omega, fun ls a' hls hr => ?_⟩
  have : a'.Fresh := runSteps_induct' (C := fun l => l ≠ .execute) (fun s l s' hl hf hs => ProcAct.Fresh.step hf hl hs) ls a a'
    (fun l hl e => hls (e ▸ hl)) h hr
  simp [ProcAct.started, this.procs, h.procs]

theorem ProcAct.over_of_done {c : ProcCfg} {ls : List ProcLabel} {a : ProcAct} (h : ProcAct.Reaches c ls a) (hd : a.comp = .done) : a.Over c := by
  refine ⟨fun n hn => ?_, fun ls' a' _ hr => (C36_nothing_after c ls a h hd ls' a' hr).2.1⟩
  obtain ⟨code, h1, h2⟩ := C36_after_last_exit c ls a h hd n hn
  exact ⟨code, h2, h1⟩

/-- C104: every action executed in events that were processed without an exception is waited for: its future is among those collected. -/
theorem C104_waited (P : Prog) (O : Oracle) (env : Dict String) (ids : List Nat) (cfg : Nat → ProcCfg) (ls : List SysLabel) (y : Sys)
    (h : Sys.Reaches P O env ids cfg ls y) (hok : y.failed = false) :
    ∀ i ∈ ids, (y.act i).comp ≠ .unset → ∃ f, y.svc.ctx.futuresOf (.user i) = [f] ∧ (.user i, f) ∈ y.svc.collected ∧
      (y.svc.isDone f = true ↔ (y.act i).comp = .done) := by
  intro i hi hc
  rcases (SysInv.reach h).link i hi with ⟨_, h2⟩ | ⟨f, h1, _, h3, h4⟩
  · exact absurd h2.comp hc
  · exact ⟨f, h1, h4 hok, h3⟩

/-- C104: when `run` returns 0, and the processing of no event has ever raised, every process of every process action has ended and its end was
reported, and none of the actions starts another process. -/
theorem C104_nothing_left_partial (P : Prog) (O : Oracle) (env : Dict String) (ids : List Nat) (cfg : Nat → ProcCfg) (ls : List SysLabel) (y y' : Sys)
    (h : Sys.Reaches P O env ids cfg ls y) (hf : y.step P O ids cfg (.svc .finish) = some y') (hz : y'.svc.result = some false)
    (hok : y'.failed = false) : ∀ i ∈ ids, (y'.act i).Over (cfg i) := by
  intro i hi
  have hinv := SysInv.reach h
  have hinv' := hinv.step hf
  obtain ⟨ls0, hr⟩ := hinv.svc
  simp only [Sys.step] at hf
  cases h1 : y.svc.step P O .finish with
  | none => rw [h1] at hf; cases hf
  | some s' =>
    rw [h1] at hf
    simp only [Option.bind_some, Sys.serve] at hf
    split at hf
    · simp only [Option.some.injEq] at hf
      have hsv : y'.svc = s' := by rw [← hf]
      obtain ⟨_, _, hcol, _⟩ := C27_zero_only_when_idle P O env ls0 y.svc s' hr h1 (by rw [← hsv]; exact hz)
      rcases hinv'.link i hi with ⟨_, h2⟩ | ⟨f, _, _, h3, h4⟩
      · exact h2.over
      · have hm := hcol _ (hsv ▸ h4 hok)
        obtain ⟨la, hla⟩ := hinv'.act i
        exact ProcAct.over_of_done hla (h3.mp (by rw [hsv]; exact hm))
    · cases hf

theorem off_stays {P : Prog} {O : Oracle} {s s' : Svc} {l : Label} (h : s.step P O l = some s') (hl : ∀ w, l ≠ .start w) (hp : s.pc = .off) :
    s'.pc = .off ∧ s'.evFailed = s.evFailed := by
  have hreq : ∀ (s : Svc) r b, (s.request r b).pc = s.pc ∧ (s.request r b).evFailed = s.evFailed := by
    intro s r b; unfold Svc.request; split <;> exact ⟨rfl, rfl⟩
  cases l with
  | start w => exact absurd rfl (hl w)
  | shutdownSync =>
    simp only [Svc.step] at h
    split at h
    · simp only [Option.some.injEq] at h; subst h
      split
      · exact ⟨(hreq s _ _).1.trans hp, (hreq s _ _).2⟩
      · exact ⟨hp, rfl⟩
    · cases h
  | shutdownLoop | threadShutdown | threadFlags | threadEmit | awaitShutdown | emit | futureDone | callback =>
    simp only [Svc.step] at h
    repeat' split at h
    all_goals first | (cases h; done) | skip
    all_goals (simp only [Option.some.injEq] at h; subst h)
    all_goals repeat' split
    all_goals exact ⟨hp, rfl⟩
  | _ => simp [Svc.step, hp, Pc.isWaiting] at h

theorem evFailed_mono {P : Prog} {O : Oracle} {s s' : Svc} {l : Label} (h : s.step P O l = some s') (hl : ∀ w, l ≠ .start w)
    (he : s.evFailed = true) : s'.evFailed = true := by
  have hreq : ∀ (s : Svc) r b, (s.request r b).evFailed = s.evFailed := by
    intro s r b; unfold Svc.request; split <;> rfl
  cases l with
  | start w => exact absurd rfl (hl w)
  | process f =>
    simp only [Svc.step] at h
    split at h
    · obtain ⟨e, q, p, r, hq, hp, rfl⟩ := process_inv h
      show (s.evFailed || _) = true
      rw [he]; rfl
    · cases h
  | check =>
    simp only [Svc.step] at h
    split at h
    · simp only [Option.some.injEq] at h; subst h
      unfold Svc.check
      simp only
      split
      · rw [hreq]; exact he
      · split <;> exact he
    · cases h
  | wake =>
    simp only [Svc.step] at h
    split at h
    · unfold Svc.wake at h
      simp only at h
      split at h
      · cases h
      · split at h
        · simp only [Option.some.injEq] at h; subst h; exact he
        · split at h
          · simp only [Option.some.injEq] at h; subst h; exact (hreq s _ _).trans he
          · simp only [Option.some.injEq] at h; subst h; exact he
    · cases h
  | sigint =>
    simp only [Svc.step] at h
    split at h
    · simp only [Option.some.injEq] at h; subst h
      split
      · exact he
      · exact (hreq s _ _).trans he
    · cases h
  | shutdownSync =>
    simp only [Svc.step] at h
    split at h
    · simp only [Option.some.injEq] at h; subst h
      split
      · exact (hreq s _ _).trans he
      · exact he
    · cases h
  | _ =>
    simp only [Svc.step] at h
    repeat' split at h
    all_goals first | (cases h; done) | skip
    all_goals (simp only [Option.some.injEq] at h; subst h)
    all_goals repeat' split
    all_goals exact he

/-- What a step of the whole does to the service, if it is no start. -/
theorem sys_step_svc {y y' : Sys} {l : SysLabel} (h : y.step P O ids cfg l = some y') (hl : l.isStart = false) :
    ((y.svc.pc = .off ∧ y.svc.evFailed = false) → (y'.svc.pc = .off ∧ y'.svc.evFailed = false)) ∧
      (y.failed = y.svc.evFailed → y'.failed = y'.svc.evFailed) := by
  have one : ∀ {s s' : Svc} {l : Label}, s.step P O l = some s' → (∀ w, l ≠ .start w) →
      ((s.pc = .off ∧ s.evFailed = false) → (s'.pc = .off ∧ s'.evFailed = false)) ∧ (s.evFailed = true → s'.evFailed = true) := by
    intro s s' l hs hw
    refine ⟨fun ⟨h1, h2⟩ => ?_, evFailed_mono hs hw⟩
    obtain ⟨a, b⟩ := off_stays hs hw h1
    exact ⟨a, b.trans h2⟩
  cases l with
  | svc l =>
    have hw : ∀ w, l ≠ .start w := by intro w e; subst e; simp [SysLabel.isStart] at hl
    have : ∃ s', y.svc.step P O l = some s' ∧ y.serve ids s' = some y' := by
      have gen : (y.svc.step P O l).bind (y.serve ids) = some y' → ∃ s', y.svc.step P O l = some s' ∧ y.serve ids s' = some y' := by
        intro hb
        cases h1 : y.svc.step P O l with
        | none => rw [h1] at hb; cases hb
        | some s' => rw [h1] at hb; exact ⟨s', rfl, hb⟩
      cases l with
      | futureDone f r =>
        simp only [Sys.step] at h
        split at h
        · cases h
        · exact gen h
      | _ => exact gen h
    obtain ⟨s', h1, h2⟩ := this
    unfold Sys.serve at h2
    split at h2
    · simp only [Option.some.injEq] at h2; subst h2
      obtain ⟨a, b⟩ := one h1 hw
      refine ⟨a, fun e => ?_⟩
      show (y.failed || s'.evFailed) = s'.evFailed
      rw [e]
      cases he : y.svc.evFailed with
      | false => rfl
      | true => simp [b he]
    · cases h2
  | proc i l =>
    by_cases hx : l = .execute
    · subst hx; simp [Sys.step] at h
    · have : (if i ∈ ids then ((y.act i).step (cfg i) l).map (y.set P O i) else none) = some y' := by
        cases l <;> first | exact absurd rfl hx | exact h
      split at this
      · cases ha : (y.act i).step (cfg i) l with
        | none => rw [ha] at this; cases this
        | some a =>
          rw [ha] at this
          simp only [Option.map_some, Option.some.injEq] at this
          subst this
          have : (y.set P O i a).svc = y.svc ∨ ∃ f, y.svc.step P O (.futureDone f .ok) = some (y.set P O i a).svc := by
            unfold Sys.set
            simp only
            split
            · split
              · exact .inl rfl
              · rename_i f fs hf
                cases hst : y.svc.step P O (.futureDone f .ok) with
                | none => exact .inl rfl
                | some s' => exact .inr ⟨f, by simp [hst]⟩
            · exact .inl rfl
          rcases this with e | ⟨f, e⟩
          · rw [e]; exact ⟨id, id⟩
          · obtain ⟨a1, _⟩ := one e (by simp)
            refine ⟨a1, fun e2 => ?_⟩
            show y.failed = _
            rw [e2]
            simp only [Svc.step] at e
            split at e
            · cases e
            · simp only [Option.some.injEq] at e
              rw [← e]
      · cases this

theorem sys_steps_svc {ls : List SysLabel} {y y' : Sys} (h : runSteps (Sys.step P O ids cfg) y ls = some y')
    (hl : ∀ l ∈ ls, l.isStart = false) :
    ((y.svc.pc = .off ∧ y.svc.evFailed = false) → (y'.svc.pc = .off ∧ y'.svc.evFailed = false)) ∧
      (y.failed = y.svc.evFailed → y'.failed = y'.svc.evFailed) := by
  constructor
  · intro h0
    exact runSteps_induct' (R := fun y => y.svc.pc = .off ∧ y.svc.evFailed = false) (C := fun l => l.isStart = false)
      (fun s l s' hc hr hs => (sys_step_svc hs hc).1 hr) ls y y' hl h0 h
  · intro h0
    exact runSteps_induct' (R := fun y => y.failed = y.svc.evFailed) (C := fun l => l.isStart = false)
      (fun s l s' hc hr hs => (sys_step_svc hs hc).2 hr) ls y y' hl h0 h

/-- C104: a service that is run once and returns 0 leaves no process behind, whatever the launch does. -/
theorem C104_single_run (P : Prog) (O : Oracle) (env : Dict String) (ids : List Nat) (cfg : Nat → ProcCfg) (before after : List SysLabel) (w : Bool)
    (y y' : Sys) (hb : ∀ l ∈ before, l.isStart = false) (ha : ∀ l ∈ after, l.isStart = false)
    (h : Sys.Reaches P O env ids cfg (before ++ .svc (.start w) :: after) y) (hf : y.step P O ids cfg (.svc .finish) = some y')
    (hz : y'.svc.result = some false) : ∀ i ∈ ids, (y'.act i).Over (cfg i) := by
  refine C104_nothing_left_partial P O env ids cfg _ y y' h hf hz ?_
  have hr := h
  unfold Sys.Reaches at hr
  rw [runSteps_append] at hr
  cases h1 : runSteps (Sys.step P O ids cfg) { svc := Svc.init env } before with
  | none => rw [h1] at hr; cases hr
  | some y1 =>
    rw [h1] at hr
    obtain ⟨y2, h2, h3⟩ := runSteps_cons hr
    obtain ⟨a1, a2⟩ := sys_steps_svc h1 hb
    obtain ⟨b1, b2⟩ := a1 ⟨rfl, rfl⟩
    have c1 : y1.failed = false := (a2 rfl).trans b2
    have h2' : y2.failed = y2.svc.evFailed := by
      simp only [Sys.step] at h2
      cases h4 : y1.svc.step P O (.start w) with
      | none => rw [h4] at h2; cases h2
      | some s' =>
        rw [h4] at h2
        simp only [Option.bind_some, Sys.serve] at h2
        split at h2
        · simp only [Option.some.injEq] at h2
          rw [← h2]; simp [c1]
        · cases h2
    have h5 : y.failed = y.svc.evFailed := (sys_steps_svc h3 ha).2 h2'
    have h6 : y'.failed = y'.svc.evFailed := (sys_step_svc hf rfl).2 h5
    rw [h6]
    obtain ⟨ls0, hr0⟩ := (SysInv.reach h).svc
    have : y.svc.step P O .finish = some y'.svc := by
      simp only [Sys.step] at hf
      cases h4 : y.svc.step P O .finish with
      | none => rw [h4] at hf; cases hf
      | some s' =>
        rw [h4] at hf
        simp only [Option.bind_some, Sys.serve] at hf
        split at hf
        · simp only [Option.some.injEq] at hf; rw [← hf]
        · cases hf
    cases he : y'.svc.evFailed with
    | false => rfl
    | true =>
      have he' : y.svc.evFailed = true := by
        simp only [Svc.step] at this
        split at this
        · simp only [Option.some.injEq] at this; rw [← this] at he; exact he
        · cases this
      have := C28_failure_returns_one P O env ls0 y.svc y'.svc hr0 this (.inl he')
      rw [hz] at this; cases this

/-- Two processes: the actions 5 and 6 of `asyncProg`. -/
def twoProcs (ls : List SysLabel) : Option Sys := runSteps (Sys.step asyncProg sampleOracle [5, 6] fun _ => {}) { svc := Svc.init [] } ls

/-- Until both processes run. -/
def bothRun : List SysLabel :=
  [.svc (.emit (.includeDesc 0)), .svc (.start true), .svc .check, .svc (.process 9), .svc .wake, .svc .check,
    .proc 5 (.begin true), .proc 5 .spawn, .proc 5 .attach, .proc 6 (.begin true), .proc 6 .spawn, .proc 6 .attach]

/-- Both processes run; the first ends and the service waits for the other one; the other one ends and the run returns 0. -/
example : (twoProcs bothRun).map (fun y => (decide (y.act 5).Runs, decide (y.act 6).Runs)) = some (true, true) ∧
    (twoProcs (bothRun ++ [.proc 5 (.procExit 0 0), .proc 5 .observe, .svc .wake, .svc .check])).map
      (fun y => (y.svc.pc, decide (y.act 5).Runs, decide (y.act 6).Runs)) = some (.waiting [1], false, true) ∧
    (twoProcs (bothRun ++ [.proc 5 (.procExit 0 0), .proc 5 .observe, .svc .wake, .svc .check, .proc 6 (.procExit 0 1), .proc 6 .observe,
        .svc .wake, .svc .check, .svc .check, .svc (.process 9), .svc .wake, .svc .check, .svc .finish])).map
      (fun y => (y.svc.result, y.failed, (y.act 6).procs)) = some (some false, false, [some 1]) := by decide +kernel

/-- C104 is violated: SIGTERM ends the run while the processes are running. -/
theorem C104_cancelled_violated :
    (twoProcs (bothRun ++ [.svc .cancel, .svc .finish])).map (fun y => (y.svc.result, decide (y.act 5).Runs, decide (y.act 6).Runs)) =
      some (some true, true, true) := by decide +kernel

/-- C104 is violated: a process started by a visit that raises afterwards is not waited for: the run ends (with 1) while it is running. -/
theorem C104_raised_violated :
    (runSteps (Sys.step lostProg sampleOracle [5] fun _ => {}) { svc := Svc.init [] }
      [.svc (.emit (.includeDesc 0)), .svc (.start true), .svc .check, .svc (.process 9), .proc 5 (.begin true), .proc 5 .spawn, .proc 5 .attach,
        .svc .wake, .svc .check, .svc (.process 9), .svc .wake, .svc .check, .svc .finish]).map
      (fun y => (y.svc.result, y.failed, decide (y.act 5).Runs)) = some (some true, true, true) := by decide +kernel

/-- C104 is violated: a second run of the service returns 0 although a process that the first run lost is still running. -/
theorem C104_second_run_violated :
    (runSteps (Sys.step lostProg sampleOracle [5] fun _ => {}) { svc := Svc.init [] }
      [.svc (.emit (.includeDesc 0)), .svc (.start true), .svc .check, .svc (.process 9), .proc 5 (.begin true), .proc 5 .spawn, .proc 5 .attach,
        .svc .wake, .svc .check, .svc (.process 9), .svc .wake, .svc .check, .svc .finish,
        .svc (.start true), .svc .check, .svc .check, .svc (.process 9), .svc .wake, .svc .check, .svc .finish]).map
      (fun y => (y.svc.result, decide (y.act 5).Runs)) = some (some false, true) := by decide +kernel

end Verif
