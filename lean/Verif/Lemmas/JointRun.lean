import Verif.Lemmas.Ending
import Verif.Lemmas.JointSim
import Verif.Props.System

/-! # The run loop and the futures of the service, with its processes and one queue -/

namespace Verif

variable {P : Prog} {O : Oracle} {env : Dict String} {ids : List Nat} {cfg : Nat → ProcCfg} {K : Codes}

/-- What a process action that has ended does to the service. -/
theorem set_svc (y : Sys) (i : Nat) (a : ProcAct) :
    (y.set P O i a).svc = y.svc ∨ ∃ f, f ∈ y.svc.ctx.futuresOf (.user i) ∧ y.svc.step P O (.futureDone f .ok) = some (y.set P O i a).svc := by
  unfold Sys.set
  simp only
  split
  · split
    · exact .inl rfl
    · rename_i f fs hf
      cases hst : y.svc.step P O (.futureDone f .ok) with
      | none => exact .inl rfl
      | some s' => exact .inr ⟨f, by rw [hf]; simp, by simpa using hst⟩
  · exact .inl rfl

/-- Events are added, but not after the loop. -/
theorem RunInv.emits {T : Prop} {s : Svc} (h : RunInv T s) (es : List Event) (he : s.pc = .ending → es = []) :
    RunInv T { s with ctx := emitAll s.ctx es } := by
  rw [emitAll_eq]
  refine h.quiet (P := asyncProg) ?_ rfl rfl rfl rfl rfl rfl rfl rfl rfl rfl ?_ ?_
  · exact ⟨⟨es, [], rfl, by simp, rfl⟩, fun _ _ => Nat.le_refl _, fun _ _ h => h, ⟨[], by simp⟩, Kept.same rfl rfl rfl⟩
  · intro h1 h2 h3
    exact ⟨h2, by simp [he h1, h3]⟩
  · intro h1
    simp only [List.append_eq_nil_iff] at h1
    exact ⟨h1.1, .inl fun h => ⟨h, rfl⟩⟩

theorem stepProc_inv {y y' : Sys} {i : Nat} {l : ProcLabel} (hs : y.stepProc P O ids cfg K i l = some y') :
    i ∈ ids ∧ ∃ a, (y.act i).step (cfg i) l = some a ∧ (y.svc.pc = .ending → a.queue = []) ∧
      y'.svc = { (y.set P O i { a with queue := [] }).svc with ctx := emitAll (y.set P O i { a with queue := [] }).svc.ctx (a.queue.map (K.enc i)) } ∧
      y'.act = (y.set P O i { a with queue := [] }).act ∧ y'.failed = y.failed := by
  unfold Sys.stepProc at hs
  split at hs
  · rename_i hi
    cases h1 : (y.act i).step (cfg i) l with
    | none => rw [h1] at hs; cases hs
    | some a =>
      rw [h1] at hs
      simp only [Option.bind_some] at hs
      split at hs
      · cases hs
      · rename_i hc
        simp only [Option.some.injEq] at hs
        refine ⟨hi, a, rfl, fun hp => ?_, by rw [← hs], by rw [← hs], by rw [← hs]; rfl⟩
        simpa [hp] using hc
  · cases hs

theorem stepSvc_inv {y y' : Sys} {l : Label} (hs : y.stepSvc P O ids K l = some y') :
    ∃ s', y.svc.step P O l = some s' ∧ y'.svc = s' ∧ y'.failed = y.failed ∧
      y'.act = fun i => { y.act i with ctxShut := (y.act i).ctxShut || s'.ctx.isShutdown } := by
  unfold Sys.stepSvc at hs
  cases h1 : y.svc.step P O l with
  | none => rw [h1] at hs; cases hs
  | some s' =>
    rw [h1] at hs
    simp only [Option.bind_some] at hs
    split at hs
    · simp only [Option.some.injEq] at hs
      exact ⟨s', rfl, by rw [← hs]; rfl, by rw [← hs]; rfl, by rw [← hs]; rfl⟩
    · cases hs

/-- The kinds of steps. -/
theorem stepJoint_cases {y y' : Sys} {l : JointLabel} (hs : y.stepJoint P O ids cfg K l = some y') :
    (∃ l', l = .svc l' ∧ (∀ fuel, l' ≠ .process fuel) ∧ (∀ f r, l' = .futureDone f r → ∀ i ∈ ids, f ∉ y.svc.ctx.futuresOf (.user i)) ∧
        y.stepSvc P O ids K l' = some y') ∨
      (∃ fuel told q, l = .handle fuel told q ∧ y.stepHandle P O ids cfg K fuel told q = some y') ∨
      ∃ i l', l = .proc i l' ∧ l' ≠ .execute ∧ l' ≠ .process ∧ (∀ e, l' ≠ .emit e) ∧ y.stepProc P O ids cfg K i l' = some y' := by
  cases l with
  | svc l =>
    left
    cases l with
    | process fuel => simp [Sys.stepJoint] at hs
    | futureDone f r =>
      simp only [Sys.stepJoint] at hs
      split at hs
      · cases hs
      · rename_i hn
        refine ⟨_, rfl, by simp, ?_, hs⟩
        intro g q e i hi hm
        cases e
        apply hn
        rw [List.any_eq_true]
        exact ⟨i, hi, by simp [hm]⟩
    | _ => exact ⟨_, rfl, by simp, by simp, hs⟩
  | handle fuel told q => exact .inr (.inl ⟨_, _, _, rfl, hs⟩)
  | proc i l =>
    right; right
    cases l <;> simp only [Sys.stepJoint] at hs <;> first | cases hs | exact ⟨_, _, rfl, by simp, by simp, by simp, hs⟩

/-- More about the handling of an event. -/
theorem stepHandle_state {y y' : Sys} {fuel : Nat} {told : List Nat} {q : List Event} (hs : y.stepHandle P O ids cfg K fuel told q = some y') :
    ∃ e rest s' ok, y.svc.ctx.queue = e :: rest ∧ y.svc.step P O (.process fuel) = some s' ∧ (s'.task = .done false → ok = false) ∧ y'.failed = (y.failed || !ok) ∧
      (ok = true → ∀ i ∈ ids, i ∈ told) ∧
      (∀ i ∈ executedIn ids y.svc s', Sys.executes ids y.act s' i = true) ∧
      y'.svc = { s' with ctx := { s'.ctx with queue := rest ++ q, emitted := y.svc.ctx.emitted ++ q }, task := .done ok, evFailed := s'.evFailed || !ok } ∧
      y'.act = fun i => { (y.served ids cfg K s' told e i).1 with ctxShut := (y.served ids cfg K s' told e i).1.ctxShut || s'.ctx.isShutdown } := by
  unfold Sys.stepHandle at hs
  split at hs
  · cases hs
  · rename_i e rest hq
    cases h : y.svc.step P O (.process fuel) with
    | none => rw [h] at hs; cases hs
    | some s' =>
      rw [h] at hs
      simp only [Option.bind_some] at hs
      split at hs
      · rename_i hc
        simp only [Option.some.injEq] at hs
        simp only [Bool.and_eq_true] at hc
        refine ⟨e, rest, s', _, hq, rfl, ?_, by rw [← hs]; rfl, ?_, List.all_eq_true.mp hc.1.1.2, by rw [← hs]; rfl, by rw [← hs]; rfl⟩
        · intro ht; rw [ht]; rfl
        · intro hok i hi
          have h1 := hc.1.1.1
          rw [Bool.or_eq_true] at h1
          rcases h1 with h1 | h1
          · rw [hok] at h1; cases h1
          · simpa using List.all_eq_true.mp h1 i hi
      · cases hs

/-- `process` leaves a run waiting. -/
theorem process_waits {s s' : Svc} {fuel : Nat} (h : s.step P O (.process fuel) = some s') : s'.pc.isWaiting = true ∧ s'.pc = s.pc := by
  simp only [Svc.step] at h
  split at h
  · rename_i hc
    obtain ⟨e, q, p, r, hq, hp, rfl⟩ := process_inv h
    simp only [Bool.and_eq_true] at hc
    exact ⟨hc.1, rfl⟩
  · cases h

theorem RunInv.joint {T : Prop} {y y' : Sys} {l : JointLabel} (h : RunInv T y.svc) (hT : T ∨ l ≠ .svc .threadFlags)
    (hs : y.stepJoint P O ids cfg K l = some y') : RunInv T y'.svc := by
  rcases stepJoint_cases hs with ⟨l', rfl, _, _, h1⟩ | ⟨fuel, told, q, rfl, h1⟩ | ⟨i, l', rfl, _, _, _, h1⟩
  · obtain ⟨s', e1, e2, _⟩ := stepSvc_inv h1
    rw [e2]
    exact h.step (hT.imp id fun x hx => x (by rw [hx])) e1
  · obtain ⟨e, rest, s', ok, _, e1, e3, _, _, _, e4, _⟩ := stepHandle_state h1
    have g := h.step (.inr (by simp)) e1
    obtain ⟨w, _⟩ := process_waits e1
    rw [e4]
    refine ⟨fun hp => ?_, g.coll, fun hev => ?_, g.lf, fun hr => ?_, fun ht => ?_, fun fs _ ht => (by cases ht), fun _ _ ht => (by cases ht)⟩
    · have hp : s'.pc = .ending := hp
      rw [hp] at w; cases w
    · have hev : (s'.evFailed || !ok) = true := hev
      cases ok with
      | false => exact .inr ⟨rfl, w⟩
      | true =>
        rcases g.ev (by simpa using hev) with x | ⟨x, _⟩
        · exact .inl x
        · cases e3 x
    · rcases g.rc hr with x | x
      · exact .inl (by show (s'.evFailed || !ok) = true; rw [x]; rfl)
      · exact .inr x
    · have ht : Task.done ok = .done false := ht
      cases ht
      show (s'.evFailed || !false) = true
      simp
  · obtain ⟨_, a, _, e2, e3, _⟩ := stepProc_inv h1
    rw [e3]
    have hpc : (y.set P O i { a with queue := [] }).svc.pc = y.svc.pc := by
      rcases set_svc (P := P) (O := O) y i { a with queue := [] } with x | ⟨f, _, x⟩
      · rw [x]
      · simp only [Svc.step] at x
        split at x
        · cases x
        · simp only [Option.some.injEq] at x; rw [← x]
    refine RunInv.emits ?_ (a.queue.map (K.enc i)) fun hp => by rw [e2 (hpc.symm.trans hp)]; rfl
    rcases set_svc (P := P) (O := O) y i { a with queue := [] } with x | ⟨f, _, x⟩
    · rw [x]; exact h
    · exact h.step (.inr (by simp)) x

theorem RunInv.reachJoint {ls : List JointLabel} {y : Sys} (h : Sys.ReachesJoint P O env ids cfg K ls y) : RunInv (.svc .threadFlags ∈ ls) y.svc := by
  refine runSteps_induct' (R := fun y : Sys => RunInv (.svc .threadFlags ∈ ls) y.svc) (C := fun l => .svc .threadFlags ∈ ls ∨ l ≠ .svc .threadFlags)
    (fun s l s' hl hi hs => hi.joint hl hs) ls _ _ (fun l hl => ?_) ?_ h
  · by_cases hx : l = .svc .threadFlags
    · exact .inl (hx ▸ hl)
    · exact .inr hx
  · exact ⟨fun hq => (by cases hq), fun p hp => (by cases hp), fun hq => (by cases hq),
      fun hq => (by rcases hq with hq | hq <;> cases hq), fun hq => (by cases hq), fun hq => (by cases hq),
      fun fs hq => (by cases hq), fun hq => (by cases hq)⟩

/-! ## The futures -/

/-- What the futures of the service say about the process actions. -/
structure JointInv (ids : List Nat) (y : Sys) : Prop where
  link : ∀ i ∈ ids, (y.svc.ctx.futuresOf (.user i) = [] ∧ (y.act i).Fresh) ∨
    ∃ f, y.svc.ctx.futuresOf (.user i) = [f] ∧ (y.act i).comp ≠ .unset ∧ (y.svc.isDone f = true ↔ (y.act i).comp = .done)
  apart : ∀ i ∈ ids, ∀ j ∈ ids, ∀ f, f ∈ y.svc.ctx.futuresOf (.user i) → f ∈ y.svc.ctx.futuresOf (.user j) → i = j

/-- A process action that handles an event. -/
theorem handle_keeps (c : ProcCfg) (a : ProcAct) (e : Option ProcEv) :
    (a.handle c e).1.comp = a.comp ∧ (a.handle c e).1.task = a.task ∧ (a.handle c e).1.procs = a.procs := by
  unfold ProcAct.handle
  split
  · exact ⟨rfl, rfl, rfl⟩
  · split
    · exact ⟨rfl, rfl, rfl⟩
    · rename_i a' h
      obtain ⟨h1, h2, h3⟩ := process_keeps h
      exact ⟨h1, h2, h3⟩

theorem served_keeps {y : Sys} {s' : Svc} {told : List Nat} {e : Event} {i : Nat} (h : i ∉ executedIn ids y.svc s') :
    (y.served ids cfg K s' told e i).1.comp = (y.act i).comp ∧ (y.served ids cfg K s' told e i).1.task = (y.act i).task ∧
      (y.served ids cfg K s' told e i).1.procs = (y.act i).procs := by
  unfold Sys.served
  rw [if_neg h]
  split
  · exact handle_keeps _ _ _
  · exact ⟨rfl, rfl, rfl⟩

theorem ProcAct.Fresh.of {a a' : ProcAct} (h : a.Fresh) (h1 : a'.comp = a.comp) (h2 : a'.task = a.task) (h3 : a'.procs = a.procs) : a'.Fresh :=
  ⟨h1.trans h.comp, h2.trans h.task, h3.trans h.procs⟩

/-- The future of process action `i` is not touched by a step that does not complete it. -/
theorem isDone_same {s s' : Svc} {l : Label} (hs : s.step P O l = some s') {f : Nat} (hl : ∀ r, l ≠ .futureDone f r) : s'.isDone f = s.isDone f := by
  have hfin : s'.fin = s.fin ∨ ∃ g r, l = .futureDone g r ∧ s'.fin = (g, r) :: s.fin := by
    cases l with
    | futureDone g r =>
      simp only [Svc.step] at hs
      split at hs
      · cases hs
      · simp only [Option.some.injEq] at hs; subst hs
        exact .inr ⟨g, r, rfl, rfl⟩
    | _ => exact .inl (fin_same hs (by simp))
  rcases hfin with e | ⟨g, r, rfl, e⟩
  · simp only [Svc.isDone, e]
  · have hg : f ≠ g := fun e => hl r (by rw [e])
    have hg' : (f == g) = false := by simp [hg]
    simp only [Svc.isDone, e, List.lookup, hg']

/-- Nothing is executed. -/
theorem JointInv.keep {y y' : Sys} (h : JointInv ids y) (h1 : ∀ i ∈ ids, y'.svc.ctx.futuresOf (.user i) = y.svc.ctx.futuresOf (.user i))
    (h2 : ∀ i ∈ ids, ∀ f, y.svc.ctx.futuresOf (.user i) = [f] → ((y'.svc.isDone f = true ↔ (y'.act i).comp = .done) ∧ (y'.act i).comp ≠ .unset))
    (h3 : ∀ i ∈ ids, (y.act i).Fresh → (y'.act i).Fresh) : JointInv ids y' := by
  refine ⟨fun i hi => ?_, fun i hi j hj f hfi hfj => ?_⟩
  · rw [h1 i hi]
    rcases h.link i hi with ⟨e1, e2⟩ | ⟨f, e1, e2, e3⟩
    · exact .inl ⟨e1, h3 i hi e2⟩
    · exact .inr ⟨f, e1, (h2 i hi f e1).2, (h2 i hi f e1).1⟩
  · rw [h1 i hi] at hfi
    rw [h1 j hj] at hfj
    exact h.apart i hi j hj f hfi hfj

theorem JointInv.step {y y' : Sys} {l : JointLabel} (h : JointInv ids y) (hs : y.stepJoint P O ids cfg K l = some y') : JointInv ids y' := by
  have hold : ∀ i ∈ ids, ∀ f, y.svc.ctx.futuresOf (.user i) = [f] → ((y.svc.isDone f = true ↔ (y.act i).comp = .done) ∧ (y.act i).comp ≠ .unset) := by
    intro i hi f hf
    rcases h.link i hi with ⟨e1, _⟩ | ⟨g, e1, e2, e3⟩
    · rw [e1] at hf; cases hf
    · rw [hf] at e1
      obtain rfl : f = g := by simpa using e1
      exact ⟨e3, e2⟩
  rcases stepJoint_cases hs with ⟨l', rfl, g1, g2, h1⟩ | ⟨fuel, told, q, rfl, h1⟩ | ⟨i, l', rfl, g1, g2, g3, h1⟩
  · obtain ⟨s', e1, rfl, _, e2⟩ := stepSvc_inv h1
    have hfut := (step_futures g1 e1).1
    refine h.keep (fun i _ => by simp [Ctx.futuresOf, hfut]) (fun i hi f hf => ?_) (fun i _ hfr => ?_)
    · rw [e2, isDone_same e1 (f := f) (fun r hr => g2 f r hr i hi (by rw [hf]; simp))]
      exact hold i hi f hf
    · rw [e2]; exact hfr.of rfl rfl rfl
  · obtain ⟨e, rest, s', ok, _, e1, _, _, _, hall, e4, e5⟩ := stepHandle_state h1
    have hctx : ∀ i, y'.svc.ctx.futuresOf (.user i) = s'.ctx.futuresOf (.user i) := fun i => by rw [e4]; rfl
    have hdn : ∀ f, y'.svc.isDone f = s'.isDone f := fun f => by rw [e4]; rfl
    have hin : ∀ i ∈ ids, i ∉ executedIn ids y.svc s' → s'.ctx.futuresOf (.user i) = y.svc.ctx.futuresOf (.user i) := by
      intro i hi hn
      simp only [executedIn, List.mem_filter, bne_iff_ne, ne_eq, not_and, Classical.not_not] at hn
      exact hn hi
    have hnew : ∀ i, i ∈ executedIn ids y.svc s' → ∃ f, s'.ctx.futuresOf (.user i) = [f] ∧ s'.isDone f = false ∧
        (y.act i).executed = false ∧ (y.act i).ctxShut = false ∧ ∀ j ∈ ids, f ∈ s'.ctx.futuresOf (.user j) → j = i := by
      intro i hi
      have := hall i hi
      unfold Sys.executes at this
      split at this
      · rename_i f hf
        simp only [Bool.and_eq_true, Bool.not_eq_true', List.all_eq_true, Bool.or_eq_true, beq_iff_eq] at this
        refine ⟨f, hf, this.1.1.1, this.1.1.2, this.1.2, fun j hj hm => ?_⟩
        rcases this.2 j hj with e | e
        · exact e
        · simp at e; exact absurd hm e
      · cases this
    refine ⟨fun i hi => ?_, fun i hi j hj f hfi hfj => ?_⟩
    · by_cases hx : i ∈ executedIn ids y.svc s'
      · right
        obtain ⟨f, hf, hd, he, hsd, _⟩ := hnew i hx
        have hcomp : (y'.act i).comp = .pending := by
          rw [e5]
          show ((y.served ids cfg K s' told e i).1).comp = _
          unfold Sys.served
          rw [if_pos hx]; exact execute_comp he hsd
        exact ⟨f, (hctx i).trans hf, by rw [hcomp]; simp, by rw [hcomp, hdn]; simp [hd]⟩
      · obtain ⟨k1, k2, k3⟩ := served_keeps (cfg := cfg) (K := K) (told := told) (e := e) hx
        have c1 : (y'.act i).comp = (y.act i).comp := by rw [e5]; exact k1
        have c2 : (y'.act i).task = (y.act i).task := by rw [e5]; exact k2
        have c3 : (y'.act i).procs = (y.act i).procs := by rw [e5]; exact k3
        rcases h.link i hi with ⟨a1, a2⟩ | ⟨f, a1, a2, a3⟩
        · exact .inl ⟨(hctx i).trans ((hin i hi hx).trans a1), a2.of c1 c2 c3⟩
        · refine .inr ⟨f, (hctx i).trans ((hin i hi hx).trans a1), by rw [c1]; exact a2, ?_⟩
          rw [hdn, c1, isDone_same e1 (by simp)]; exact a3
    · rw [hctx] at hfi hfj
      by_cases hxi : i ∈ executedIn ids y.svc s'
      · obtain ⟨g, hg, _, _, _, hu⟩ := hnew i hxi
        rw [hg] at hfi
        simp at hfi; subst hfi
        exact (hu j hj hfj).symm
      · by_cases hxj : j ∈ executedIn ids y.svc s'
        · obtain ⟨g, hg, _, _, _, hu⟩ := hnew j hxj
          rw [hg] at hfj
          simp at hfj; subst hfj
          exact hu i hi hfi
        · rw [hin i hi hxi] at hfi
          rw [hin j hj hxj] at hfj
          exact h.apart i hi j hj f hfi hfj
  · obtain ⟨hi, a, ha, _, e3, e4, _⟩ := stepProc_inv h1
    have hctx : ∀ j, y'.svc.ctx.futuresOf (.user j) = y.svc.ctx.futuresOf (.user j) := by
      intro j
      rw [e3, emitAll_eq]
      show (y.set P O i { a with queue := [] }).svc.ctx.futuresOf _ = _
      rw [set_ctx]
    have hdn : ∀ f, y'.svc.isDone f = (y.set P O i { a with queue := [] }).svc.isDone f := fun f => by rw [e3]; rfl
    have hact : ∀ j, y'.act j = if j = i then { a with queue := [] } else y.act j := fun j => by rw [e4]; rfl
    have hself : (y'.act i).comp = a.comp := by rw [hact, if_pos rfl]
    refine h.keep (fun j _ => hctx j) (fun j hj f hf => ?_) (fun j hj hfr => ?_)
    · by_cases hji : j = i
      · subst hji
        obtain ⟨b1, b2⟩ := hold j hj f hf
        rw [hself, hdn]
        refine ⟨?_, ?_⟩
        · unfold Sys.set
          by_cases hc : a.comp = .done
          · by_cases hb : (y.act j).comp = .done
            · simp [hc, hb, b1]
            · have hnd : y.svc.isDone f = false := by
                cases hq : y.svc.isDone f with
                | false => rfl
                | true => exact absurd (b1.mp hq) hb
              simp only [hc, hb, ne_eq, not_false_eq_true, decide_true, Bool.and_true, if_true, hf]
              simp only [Svc.step, hnd, Bool.false_eq_true, if_false, Option.getD_some, iff_true]
              simp [Svc.isDone, List.lookup]
          · have hb : (y.act j).comp ≠ .done := fun hb => hc (done_stays ha hb g1)
            have hnd : ¬ y.svc.isDone f = true := fun hq => hb (b1.mp hq)
            simp [hc, hnd]
        · rcases comp_stays ha g1 with e | e
          · rw [e]; exact b2
          · rw [e]; simp
      · rw [hact, if_neg hji, hdn]
        rcases set_svc (P := P) (O := O) y i { a with queue := [] } with x | ⟨g, hg, x⟩
        · rw [x]; exact hold j hj f hf
        · have hne : f ≠ g := by
            intro e; subst e
            exact hji (h.apart j hj i hi f (by rw [hf]; simp) hg)
          rw [isDone_same x (fun r hr => hne (by cases hr; rfl))]
          exact hold j hj f hf
    · rw [hact]
      split
      · rename_i hji
        subst hji
        exact (hfr.step g1 ha).of rfl rfl rfl
      · exact hfr

theorem JointInv.reach {ls : List JointLabel} {y : Sys} (h : Sys.ReachesJoint P O env ids cfg K ls y) : JointInv ids y := by
  refine runSteps_induct (R := fun y => JointInv ids y) (fun _ _ _ hi hs => hi.step hs) ls _ _ ?_ h
  exact ⟨fun i _ => .inl ⟨rfl, rfl, rfl, rfl⟩, fun i _ j _ f hf => by cases hf⟩

/-! ## The flags -/

/-- A process action knows that the context is shut down. -/
theorem ctxShut_step {c : ProcCfg} {a a' : ProcAct} {l : ProcLabel} (h : a.ctxShut = true) (hs : a.step c l = some a') : a'.ctxShut = true := by
  have hsp : ∀ (b : Bool) (x : ProcAct), (x.shutdownProcess b).ctxShut = x.ctxShut := by
    intro b x; unfold ProcAct.shutdownProcess; repeat' split
    all_goals rfl
  have hfold : ∀ (bs : List Bool) (x : ProcAct), (bs.foldl (fun a b => a.shutdownProcess b) x).ctxShut = x.ctxShut := by
    intro bs
    induction bs with
    | nil => intro x; rfl
    | cons b bs ih => intro x; rw [List.foldl_cons, ih, hsp]
  cases l with
  | execute =>
    simp only [ProcAct.step, Option.some.injEq] at hs; subst hs
    unfold ProcAct.execute
    simp only
    repeat' split
    all_goals first | exact h | rfl
  | ask b => simp only [ProcAct.step, Option.some.injEq] at hs; subst hs; rw [hsp]; exact h
  | process =>
    simp only [ProcAct.step] at hs
    unfold ProcAct.process at hs
    split at hs
    · cases hs
    · simp only [Option.some.injEq] at hs
      rw [← hs]
      repeat' split
      all_goals first
        | exact h
        | rfl
        | exact (hsp _ _).trans h
        | exact hsp _ _
        | (rw [hfold]; exact h)
        | (unfold ProcAct.onSignal; repeat' split
           all_goals exact h)
  | timerBegin s =>
    simp only [ProcAct.step] at hs
    split at hs
    · simp only [Option.some.injEq] at hs; subst hs; cases s <;> exact h
    · cases hs
  | timerFire s =>
    simp only [ProcAct.step] at hs
    repeat' split at hs
    all_goals first | (cases hs; done) | skip
    simp only [Option.some.injEq] at hs; subst hs; cases s <;> exact h
  | observe =>
    simp only [ProcAct.step] at hs
    repeat' split at hs
    all_goals first | (cases hs; done) | skip
    simp only [Option.some.injEq] at hs; subst hs
    unfold ProcAct.observe ProcAct.cleanup
    simp only
    split <;> exact h
  | delayOver =>
    simp only [ProcAct.step] at hs
    split at hs
    · simp only [Option.some.injEq] at hs; subst hs
      split <;> exact h
    · cases hs
  | _ =>
    simp only [ProcAct.step] at hs
    repeat' split at hs
    all_goals first
      | (cases hs; done)
      | (simp only [Option.some.injEq] at hs; subst hs; first | exact h | rfl)

/-- The actions see the flag of the context. -/
theorem ctxShut_joint {y y' : Sys} {l : JointLabel} (h : y.svc.ctx.isShutdown = true → ∀ i, (y.act i).ctxShut = true)
    (hs : y.stepJoint P O ids cfg K l = some y') : y'.svc.ctx.isShutdown = true → ∀ i, (y'.act i).ctxShut = true := by
  rcases stepJoint_cases hs with ⟨l', rfl, g1, g2, h1⟩ | ⟨fuel, told, q, rfl, h1⟩ | ⟨i, l', rfl, g1, g2, g3, h1⟩
  · obtain ⟨s', e1, rfl, _, e2⟩ := stepSvc_inv h1
    intro hd i
    rw [e2]
    simp [hd]
  · obtain ⟨e, rest, s', ok, _, e1, _, _, _, _, e4, e5⟩ := stepHandle_state h1
    intro hd i
    rw [e4] at hd
    have hd : s'.ctx.isShutdown = true := hd
    rw [e5]
    simp [hd]
  · obtain ⟨hi, a, ha, _, e3, e4, _⟩ := stepProc_inv h1
    intro hd j
    have hd : y.svc.ctx.isShutdown = true := by
      rw [e3, emitAll_eq] at hd
      have hd : (y.set P O i { a with queue := [] }).svc.ctx.isShutdown = true := hd
      rw [set_ctx] at hd
      exact hd
    rw [e4]
    show (if j = i then _ else _ : ProcAct).ctxShut = true
    split
    · exact ctxShut_step (a' := a) (h hd i) ha
    · exact h hd j

theorem ctxShut_reach {ls : List JointLabel} {y : Sys} (h : Sys.ReachesJoint P O env ids cfg K ls y) :
    y.svc.ctx.isShutdown = true → ∀ i, (y.act i).ctxShut = true :=
  runSteps_induct (R := fun y : Sys => y.svc.ctx.isShutdown = true → ∀ i, (y.act i).ctxShut = true) (fun _ _ _ hi hs => ctxShut_joint hi hs) ls _ _
    (fun hd => by simp [Svc.init, Ctx.registerHandler] at hd) h

/-- An action that has no future when the context is shut down gets none. -/
theorem quiet_joint {y y' : Sys} {l : JointLabel} {i : Nat} (h : (y.act i).ctxShut = true ∧ (y.act i).comp ≠ .pending)
    (hs : y.stepJoint P O ids cfg K l = some y') : (y'.act i).ctxShut = true ∧ (y'.act i).comp ≠ .pending := by
  rcases stepJoint_cases hs with ⟨l', rfl, g1, g2, h1⟩ | ⟨fuel, told, q, rfl, h1⟩ | ⟨j, l', rfl, g1, g2, g3, h1⟩
  · obtain ⟨s', e1, rfl, _, e2⟩ := stepSvc_inv h1
    rw [e2]
    exact ⟨by simp [h.1], h.2⟩
  · obtain ⟨e, rest, s', ok, _, e1, _, _, _, hall, e4, e5⟩ := stepHandle_state h1
    have hx : i ∉ executedIn ids y.svc s' := by
      intro hx
      have := hall i hx
      unfold Sys.executes at this
      split at this
      · rw [h.1] at this; simp at this
      · cases this
    obtain ⟨k1, _, _⟩ := served_keeps (cfg := cfg) (K := K) (told := told) (e := e) hx
    have hsv : (y.served ids cfg K s' told e i).1.ctxShut = true := by
      unfold Sys.served
      rw [if_neg hx]
      split
      · unfold ProcAct.handle
        cases hse : K.see i e with
        | none => exact h.1
        | some x =>
          simp only
          cases hp : ProcAct.process (cfg i) { y.act i with queue := [x] } with
          | none => exact h.1
          | some a' => exact ctxShut_step (c := cfg i) (l := .process) (a := { y.act i with queue := [x] }) (a' := a') h.1 hp
      · exact h.1
    rw [e5]
    exact ⟨by simp [hsv], by show (y.served ids cfg K s' told e i).1.comp ≠ _; rw [k1]; exact h.2⟩
  · obtain ⟨hj, a, ha, _, e3, e4, _⟩ := stepProc_inv h1
    rw [e4]
    show (if i = j then _ else _ : ProcAct).ctxShut = true ∧ (if i = j then _ else _ : ProcAct).comp ≠ _
    by_cases hij : i = j
    · subst hij
      rw [if_pos rfl]
      refine ⟨ctxShut_step (a' := a) h.1 ha, ?_⟩
      show a.comp ≠ _
      rcases comp_stays ha g1 with e | e
      · rw [e]; exact h.2
      · rw [e]; simp
    · rw [if_neg hij]; exact h

/-- While a run that is shutting down has not returned, it stays so. -/
theorem shutting_step {s s' : Svc} {l : Label} (hl : ∀ w, l ≠ .start w) (hok : ∀ fuel, l = .process fuel → s'.task = .done true)
    (h : s.shutting = true ∨ s.pc = .off) (hs : s.step P O l = some s') : s'.shutting = true ∨ s'.pc = .off := by
  rcases h with h | h
  · have hreq : ∀ (s : Svc) r b, (s.request r b).shutting = true := fun s r b => rfl
    cases l with
    | start w => exact absurd rfl (hl w)
    | process fuel =>
      have ht := hok fuel rfl
      simp only [Svc.step] at hs
      split at hs
      · obtain ⟨e, q, p, r, hq, hp, rfl⟩ := process_inv hs
        obtain ⟨_, _, hk⟩ := handleAll_facts _ hp
        cases r with
        | error err => simp at ht
        | ok u =>
          obtain ⟨_, _, _, h4, _⟩ := hk rfl
          left
          show p.shutting = true
          rw [h4]; simp [h]
      · cases hs
    | check =>
      simp only [Svc.step] at hs
      split at hs
      · simp only [Option.some.injEq] at hs; subst hs
        left
        unfold Svc.check
        simp only
        repeat' split
        all_goals first | exact h | rfl
      · cases hs
    | wake =>
      simp only [Svc.step] at hs
      split at hs
      · unfold Svc.wake at hs
        simp only at hs
        repeat' split at hs
        all_goals first
          | (cases hs; done)
          | (simp only [Option.some.injEq] at hs; subst hs; left; first | exact h | rfl)
      · cases hs
    | finish =>
      simp only [Svc.step] at hs
      split at hs
      · simp only [Option.some.injEq] at hs; subst hs; exact .inr rfl
      · cases hs
    | callback i =>
      simp only [Svc.step] at hs
      repeat' split at hs
      all_goals first
        | (cases hs; done)
        | (simp only [Option.some.injEq] at hs; subst hs; exact .inl h)
    | _ =>
      left
      simp only [Svc.step] at hs
      split at hs
      all_goals first
        | (cases hs; done)
        | (simp only [Option.some.injEq] at hs; subst hs
           repeat' split
           all_goals first | exact h | rfl)
  · exact .inr (off_stays hs hl h).1

theorem shutting_joint {y y' : Sys} {l : JointLabel} (hl : ∀ w, l ≠ .svc (.start w)) (hf : y'.failed = false)
    (h : y.svc.shutting = true ∨ y.svc.pc = .off) (hs : y.stepJoint P O ids cfg K l = some y') : y'.svc.shutting = true ∨ y'.svc.pc = .off := by
  rcases stepJoint_cases hs with ⟨l', rfl, g1, g2, h1⟩ | ⟨fuel, told, q, rfl, h1⟩ | ⟨i, l', rfl, g1, g2, g3, h1⟩
  · obtain ⟨s', e1, rfl, _, _⟩ := stepSvc_inv h1
    exact shutting_step (fun w hw => hl w (by rw [hw])) (fun fuel hw => absurd hw (g1 fuel)) h e1
  · obtain ⟨e, rest, s', ok, _, e1, e2, e3, _, _, e4, _⟩ := stepHandle_state h1
    have hok : ok = true := by
      rw [e3] at hf
      cases ok with
      | true => rfl
      | false => simp at hf
    have ht : s'.task = .done true := by
      have : ∃ b, s'.task = .done b := by
        simp only [Svc.step] at e1
        split at e1
        · obtain ⟨e, q, p, r, hq, hp, rfl⟩ := process_inv e1
          exact ⟨_, rfl⟩
        · cases e1
      obtain ⟨b, hb⟩ := this
      cases b with
      | true => exact hb
      | false => rw [e2 hb] at hok; cases hok
    have := shutting_step (l := .process fuel) (by simp) (fun _ _ => ht) h e1
    rw [e4]
    exact this
  · obtain ⟨_, a, _, _, e3, _⟩ := stepProc_inv h1
    rw [e3]
    show (y.set P O i { a with queue := [] }).svc.shutting = true ∨ (y.set P O i { a with queue := [] }).svc.pc = .off
    rcases set_svc (P := P) (O := O) y i { a with queue := [] } with x | ⟨f, _, x⟩
    · rw [x]; exact h
    · exact shutting_step (by simp) (by simp) h x

/-- The steps with which a run returns, in the whole. -/
theorem returns_joint (hK : K.Lawful) : ∀ {ls : List Label} {y : Sys} {s' : Svc}, ls ⊆ [.wake, .check, .finish] → y.svc.Reaches P O ls s' →
    ∃ y', runSteps (Sys.stepJoint P O ids cfg K) y (ls.map .svc) = some y' ∧ y'.svc = s'
  | [], y, s', _, h => by
    unfold Svc.Reaches at h
    simp only [Svc.steps, Option.some.injEq] at h
    exact ⟨y, rfl, h⟩
  | l :: ls, y, s', hl, h => by
    unfold Svc.Reaches at h
    simp only [Svc.steps] at h
    cases h1 : y.svc.step P O l with
    | none => rw [h1] at h; cases h
    | some s1 =>
      rw [h1] at h
      have hmem : l = .wake ∨ l = .check ∨ l = .finish := by simpa using hl (List.mem_cons_self ..)
      have hem : ∃ new, s1.ctx.emitted = y.svc.ctx.emitted ++ new ∧ ∀ e ∈ new, ∃ r b, e = .shutdown r b := by
        rcases hmem with rfl | rfl | rfl
        · simp only [Svc.step] at h1
          split at h1
          · unfold Svc.wake at h1
            simp only at h1
            split at h1
            · cases h1
            · split at h1
              · simp only [Option.some.injEq] at h1; subst h1; exact ⟨[], by simp, by simp⟩
              · split at h1
                · simp only [Option.some.injEq] at h1; subst h1
                  simp only [Svc.request, Svc.setFlags]
                  split
                  · exact ⟨[], by simp, by simp⟩
                  · exact ⟨[.shutdown "Caught exception in launch" false], by simp [Svc.emitShutdown, Ctx.emit], by simp⟩
                · simp only [Option.some.injEq] at h1; subst h1; exact ⟨[], by simp, by simp⟩
          · cases h1
        · simp only [Svc.step] at h1
          split at h1
          · simp only [Option.some.injEq] at h1; subst h1
            unfold Svc.check
            simp only
            split
            · simp only [Svc.request, Svc.setFlags]
              split
              · exact ⟨[], by simp [Svc.prune], by simp⟩
              · exact ⟨[.shutdown "idle" false], by simp [Svc.emitShutdown, Ctx.emit, Svc.prune], by simp⟩
            · split
              · exact ⟨[], by simp [Svc.prune], by simp⟩
              · exact ⟨[], by simp [Svc.prune], by simp⟩
          · cases h1
        · simp only [Svc.step] at h1
          split at h1
          · simp only [Option.some.injEq] at h1; subst h1; exact ⟨[], by simp, by simp⟩
          · cases h1
      have hst : y.stepSvc P O ids K l = some ({ y with svc := s1 } : Sys).mark := by
        unfold Sys.stepSvc
        rw [h1]
        simp only [Option.bind_some]
        rw [if_pos]
        obtain ⟨new, e1, e2⟩ := hem
        rw [e1, List.drop_left, List.all_eq_true]
        intro e he
        obtain ⟨r, b, rfl⟩ := e2 e he
        unfold Codes.others
        rw [List.all_eq_true]
        intro i _
        rw [hK.shutdown]; rfl
      have hjoint : y.stepJoint P O ids cfg K (.svc l) = some ({ y with svc := s1 } : Sys).mark := by
        rcases hmem with rfl | rfl | rfl <;> exact hst
      obtain ⟨y', h2, h3⟩ := returns_joint hK (ls := ls) (y := ({ y with svc := s1 } : Sys).mark) (s' := s')
        (fun x hx => hl (List.mem_cons_of_mem _ hx)) h
      exact ⟨y', by simp only [List.map_cons, runSteps, hjoint]; exact h2, h3⟩

end Verif
