import Verif.Model.System
import Verif.Lemmas.Order
import Verif.Lemmas.Run
import Verif.Lemmas.Ending

/-! # Lemmas about futures: what is created is collected -/

namespace Verif

/-- From `c` to `c'` futures were only added, and the only future of an action is an old one or one of `fs`. -/
structure Collects (c c' : Ctx) (fs : List Fut) : Prop where
  suffix : ∀ a, c.futuresOf a <:+ c'.futuresOf a
  only : ∀ a f, c'.futuresOf a = [f] → c.futuresOf a = [f] ∨ (c.futuresOf a = [] ∧ (a, f) ∈ fs)

theorem Collects.same {c c' : Ctx} (h : c'.futures = c.futures) : Collects c c' [] := by
  have e : ∀ a, c'.futuresOf a = c.futuresOf a := fun a => by simp [Ctx.futuresOf, h]
  exact ⟨fun a => by rw [e]; exact List.suffix_refl _, fun a f hf => .inl (by rw [← e]; exact hf)⟩

theorem Collects.trans {c1 c2 c3 : Ctx} {fs gs : List Fut} (h1 : Collects c1 c2 fs) (h2 : Collects c2 c3 gs) :
    Collects c1 c3 (fs ++ gs) := by
  refine ⟨fun a => (h1.suffix a).trans (h2.suffix a), fun a f hf => ?_⟩
  rcases h2.only a f hf with h | ⟨h, hm⟩
  · rcases h1.only a f h with h' | ⟨h', hm'⟩
    · exact .inl h'
    · exact .inr ⟨h', List.mem_append.mpr (.inl hm')⟩
  · right
    have := h1.suffix a
    rw [h] at this
    exact ⟨List.suffix_nil.mp this, List.mem_append.mpr (.inr hm)⟩

theorem Collects.nil_trans {c1 c2 c3 : Ctx} {gs : List Fut} (h1 : Collects c1 c2 []) (h2 : Collects c2 c3 gs) :
    Collects c1 c3 gs := h1.trans h2

theorem futuresOf_append (l : List Fut) (c c' : Ctx) (h : c'.futures = l ++ c.futures) (a : ActId) :
    c'.futuresOf a = l.filterMap (fun p => if p.1 = a then some p.2 else none) ++ c.futuresOf a := by
  simp [Ctx.futuresOf, h, List.filterMap_append]

theorem lookup_of_futuresOf (l : List Fut) (a : ActId) (f : Nat) (fs : List Nat)
    (h : l.filterMap (fun p => if p.1 = a then some p.2 else none) = f :: fs) : l.lookup a = some f := by
  induction l with
  | nil => simp at h
  | cons p l ih =>
    obtain ⟨b, g⟩ := p
    by_cases hb : b = a
    · subst hb; simp at h; simp [List.lookup, h.1]
    · have hb' : (a == b) = false := by simp [Ne.symm hb]
      simp [hb] at h
      simp only [List.lookup, hb']
      exact ih h

theorem enter_collects {P : Prog} {O : Oracle} {n : Nat} {e : Entity} {c c' : Ctx} {r : Res (List Entity)}
    (h : enter P O n e c = some (c', r)) : Collects c c' (ownFuture e c') := by
  have same0 : ∀ {c c' : Ctx} {fs}, c'.futures = c.futures → Collects c c' fs := by
    intro c c' fs h
    have := Collects.same h
    exact ⟨this.suffix, fun a f hf => (this.only a f hf).imp id fun ⟨_, hm⟩ => by cases hm⟩
  cases e with
  | desc es => simp [enter] at h; exact same0 (by rw [← h.1])
  | act id cond kind =>
    simp only [enter] at h
    have hf := condEval_frames O P.preds cond c
    cases hc : condEval O P.preds cond c with
    | mk c1 r1 =>
      rw [hc] at h hf
      have ht : c1.futures = c.futures := by have h1 : c1 = _ := hf.rest; rw [h1]
      cases r1 with
      | error e => simp at h; exact same0 (by rw [← h.1]; exact ht)
      | ok b =>
        cases b with
        | false => simp at h; exact same0 (by rw [← h.1]; exact ht)
        | true =>
          simp only at h
          cases hx : execute P O n id kind { c1 with trace := c1.trace ++ [id] } with
          | none => rw [hx] at h; simp at h
          | some x =>
            obtain ⟨c2, r2⟩ := x
            rw [hx] at h; simp at h
            obtain ⟨l, hl, hm⟩ := (execute_core hx).futures
            have hc' : c'.futures = l ++ c.futures := by rw [← h.1, announce_futures, hl]; simp [ht]
            have hall := futuresOf_append l c c' hc'
            refine ⟨fun a => by rw [hall]; exact List.suffix_append _ _, fun a f hf => ?_⟩
            by_cases ha : a = id
            · subst ha
              have hlk := lookup_of_futuresOf _ a f [] hf
              have hmem : (a, f) ∈ ownFuture (.act a cond kind) c' := by simp [ownFuture, hlk]
              cases hq : c.futuresOf a with
              | nil => exact .inr ⟨rfl, hmem⟩
              | cons g gs =>
                left
                rw [hall, hq] at hf
                rcases List.append_eq_singleton_iff.mp hf with ⟨_, h0⟩ | ⟨_, h0⟩
                · exact h0
                · cases h0
            · left
              have h0 : l.filterMap (fun p => if p.1 = a then some p.2 else none) = [] := by
                apply List.filterMap_eq_nil_iff.mpr
                intro p hp
                rw [hm p hp]; simp [Ne.symm ha]
              rw [hall, h0] at hf
              exact hf

theorem visitList_collects {v : Entity → Ctx → Outcome (List Fut)}
    (hv : ∀ e c c' fs, v e c = some (c', .ok fs) → Collects c c' fs) :
    ∀ (es : List Entity) (c c' : Ctx) (fs : List Fut), visitList v es c = some (c', .ok fs) → Collects c c' fs
  | [], c, c', fs, h => by
    simp [visitList] at h
    rw [← h.1, h.2]; exact Collects.same rfl
  | e :: es, c, c', fs, h => by
    obtain ⟨c1, gs, hs, h1, h2, rfl⟩ := visitList_cons_ok h
    exact (hv _ _ _ _ h1).trans (visitList_collects hv es _ _ _ h2)

/-- The only future that visiting gives an action is collected. -/
theorem visit_collects {P : Prog} {O : Oracle} : ∀ (n : Nat) (e : Entity) (c c' : Ctx) (fs : List Fut),
    visit P O n e c = some (c', .ok fs) → Collects c c' fs
  | 0, _, _, _, _, h => by simp [visit] at h
  | n + 1, e, c, c', fs, h => by
    obtain ⟨c1, subs, gs, h1, h2, rfl⟩ := visit_ok h
    exact (enter_collects h1).trans (visitList_collects (visit_collects n) _ _ _ _ h2)

theorem visitEach_collects {P : Prog} {O : Oracle} {fuel : Nat} : ∀ (es : List Entity) {s s' : Proc},
    visitEach P O fuel es s = some (s', .ok ()) → ∃ t, s'.pairs = s.pairs ++ t ∧ Collects s.ctx s'.ctx t
  | [], s, s', h => by
    simp [visitEach] at h
    rw [← h]; exact ⟨[], by simp, Collects.same rfl⟩
  | e :: es, s, s', h => by
    unfold visitEach at h
    split at h
    · cases h
    · cases h
    · rename_i c fs hv
      obtain ⟨t, h1, h2⟩ := visitEach_collects es h
      exact ⟨fs ++ t, by rw [h1, List.append_assoc], (visit_collects _ _ _ _ _ hv).trans h2⟩

theorem applyEffects_none_futures (es : List Effect) : ∀ c, (Entity.applyEffects none c es).futures = c.futures := by
  induction es with
  | nil => intro c; rfl
  | cons e es ih =>
    intro c
    show (Entity.applyEffects none (Entity.applyEffect none c e) es).futures = _
    rw [ih]
    cases e with
    | setEnv k v => show (c.envSet k v).1.futures = _; unfold Ctx.envSet; split <;> rfl
    | unregister h => show (c.unregisterHandler h).1.futures = _; unfold Ctx.unregisterHandler; split <;> rfl
    | _ => rfl

theorem handleOne_collects {P : Prog} {O : Oracle} {fuel : Nat} {ev : Event} {h : Nat} {s s' : Proc}
    (hh : handleOne P O fuel ev h s = some (s', .ok ())) : ∃ t, s'.pairs = s.pairs ++ t ∧ Collects s.ctx s'.ctx t := by
  unfold handleOne at hh
  split at hh
  · simp at hh
  · rename_i c hb
    have hc : c.futures = s.ctx.futures := by
      unfold baseHandle at hb
      dsimp only at hb
      split at hb
      · unfold Ctx.unregisterHandler at hb
        split at hb <;> (simp at hb; try (rw [← hb]))
      · simp at hb; rw [← hb]
    split at hh
    · simp at hh
    · rename_i s1 es hr
      simp only [runCallback, Prod.mk.injEq] at hr
      have h1 : s1.ctx.futures = c.futures := by
        rw [← hr.1]
        simp only [applyEffects_none_futures]
        split <;> rfl
      have h1p : s1.pairs = s.pairs := by rw [← hr.1]
      split at hh
      · simp at hh
      · simp at hh
      · rename_i s2 hv
        obtain ⟨t, h2, h3⟩ := visitEach_collects es hv
        split at hh
        · simp at hh
        · simp only [Option.some.injEq, Prod.mk.injEq, and_true] at hh
          refine ⟨t, by rw [← hh, ← h1p]; exact h2, ?_⟩
          have := ((Collects.same (h1.trans hc)).nil_trans h3).trans (Collects.same (c' := s'.ctx) (by rw [← hh]))
          simpa using this

theorem handleAll_collects {P : Prog} {O : Oracle} {fuel : Nat} {ev : Event} : ∀ (hs : List Nat) {s s' : Proc},
    handleAll P O fuel ev hs s = some (s', .ok ()) → ∃ t, s'.pairs = s.pairs ++ t ∧ Collects s.ctx s'.ctx t
  | [], s, s', h => by
    simp [handleAll] at h
    rw [← h]; exact ⟨[], by simp, Collects.same rfl⟩
  | k :: hs, s, s', h => by
    unfold handleAll at h
    split at h
    · split at h
      · cases h
      · simp at h
      · rename_i s1 h1
        obtain ⟨t, a1, a2⟩ := handleOne_collects h1
        obtain ⟨u, b1, b2⟩ := handleAll_collects hs h
        exact ⟨t ++ u, by rw [b1, a1, List.append_assoc], a2.trans b2⟩
    · exact handleAll_collects hs h

theorem process_collects {P : Prog} {O : Oracle} {fuel : Nat} {s s' : Svc} (h : s.process P O fuel = some s')
    (hok : s'.evFailed = false) : ∃ t, s'.collected = s.collected ++ t ∧ Collects s.ctx s'.ctx t := by
  obtain ⟨e, q, p, r, hq, hp, rfl⟩ := process_inv h
  cases r with
  | error err => simp at hok
  | ok u =>
    obtain ⟨t, h1, h2⟩ := handleAll_collects _ hp
    refine ⟨t, ?_, ?_⟩
    · show s.collected ++ p.pairs.drop s.pairs.length = _
      rw [h1]; simp
    · exact ((Collects.same (c := s.ctx) (c' := { s.ctx with queue := q }) rfl).nil_trans h2)

/-- Other steps create no futures and collect none. -/
theorem step_futures {P : Prog} {O : Oracle} {s s' : Svc} {l : Label} (hl : ∀ fuel, l ≠ .process fuel)
    (h : s.step P O l = some s') : s'.ctx.futures = s.ctx.futures ∧ s'.collected = s.collected := by
  have hreq : ∀ (s : Svc) r b, (s.request r b).ctx.futures = s.ctx.futures ∧ (s.request r b).collected = s.collected := by
    intro s r b; unfold Svc.request; split <;> exact ⟨rfl, rfl⟩
  cases l with
  | process f => exact absurd rfl (hl f)
  | start w =>
    simp only [Svc.step] at h
    split at h
    · simp only [Option.some.injEq] at h; subst h
      unfold Svc.start; split <;> exact ⟨rfl, rfl⟩
    · cases h
  | check =>
    simp only [Svc.step] at h
    split at h
    · simp only [Option.some.injEq] at h; subst h
      unfold Svc.check
      simp only
      split
      · exact hreq s.prune _ _
      · split <;> exact ⟨rfl, rfl⟩
    · cases h
  | wake =>
    simp only [Svc.step] at h
    split at h
    · unfold Svc.wake at h
      simp only at h
      split at h
      · cases h
      · split at h
        · simp only [Option.some.injEq] at h; subst h; exact ⟨rfl, rfl⟩
        · split at h
          · simp only [Option.some.injEq] at h; subst h; exact hreq s _ _
          · simp only [Option.some.injEq] at h; subst h; exact ⟨rfl, rfl⟩
    · cases h
  | sigint =>
    simp only [Svc.step] at h
    split at h
    · simp only [Option.some.injEq] at h; subst h
      split
      · exact ⟨rfl, rfl⟩
      · exact hreq s _ _
    · cases h
  | shutdownSync =>
    simp only [Svc.step] at h
    split at h
    · simp only [Option.some.injEq] at h; subst h
      split
      · exact hreq s _ _
      · exact ⟨rfl, rfl⟩
    · cases h
  | _ =>
    simp only [Svc.step] at h
    repeat' split at h
    all_goals first | (cases h; done) | skip
    all_goals (simp only [Option.some.injEq] at h; subst h)
    all_goals repeat' split
    all_goals exact ⟨rfl, rfl⟩

/-- A step after which the processing of no event has raised collects the only future it gives an action. -/
theorem step_collects {P : Prog} {O : Oracle} {s s' : Svc} {l : Label} (h : s.step P O l = some s')
    (hok : s'.evFailed = false) : ∃ t, s'.collected = s.collected ++ t ∧ Collects s.ctx s'.ctx t := by
  cases l with
  | process f =>
    simp only [Svc.step] at h
    split at h
    · exact process_collects h hok
    · cases h
  | _ =>
    obtain ⟨a, b⟩ := step_futures (by simp) h
    exact ⟨[], by simpa using b, Collects.same a⟩

/-- Only `futureDone` completes futures. -/
theorem fin_same {P : Prog} {O : Oracle} {s s' : Svc} {l : Label} (h : s.step P O l = some s') (hl : ∀ f r, l ≠ .futureDone f r) :
    s'.fin = s.fin := by
  have hreq : ∀ (s : Svc) r b, (s.request r b).fin = s.fin := by
    intro s r b; unfold Svc.request; split <;> rfl
  cases l with
  | futureDone f r => exact absurd rfl (hl f r)
  | process f =>
    simp only [Svc.step] at h
    split at h
    · obtain ⟨e, q, p, r, hq, hp, rfl⟩ := process_inv h; rfl
    · cases h
  | start w =>
    simp only [Svc.step] at h
    split at h
    · simp only [Option.some.injEq] at h; subst h
      unfold Svc.start; split <;> rfl
    · cases h
  | check =>
    simp only [Svc.step] at h
    split at h
    · simp only [Option.some.injEq] at h; subst h
      unfold Svc.check
      simp only
      split
      · exact hreq s.prune _ _
      · split <;> rfl
    · cases h
  | wake =>
    simp only [Svc.step] at h
    split at h
    · unfold Svc.wake at h
      simp only at h
      split at h
      · cases h
      · split at h
        · simp only [Option.some.injEq] at h; subst h; rfl
        · split at h
          · simp only [Option.some.injEq] at h; subst h; exact hreq s _ _
          · simp only [Option.some.injEq] at h; subst h; rfl
    · cases h
  | sigint =>
    simp only [Svc.step] at h
    split at h
    · simp only [Option.some.injEq] at h; subst h
      split
      · rfl
      · exact hreq s _ _
    · cases h
  | shutdownSync =>
    simp only [Svc.step] at h
    split at h
    · simp only [Option.some.injEq] at h; subst h
      split
      · exact hreq s _ _
      · rfl
    · cases h
  | _ =>
    simp only [Svc.step] at h
    repeat' split at h
    all_goals first | (cases h; done) | skip
    all_goals (simp only [Option.some.injEq] at h; subst h)
    all_goals repeat' split
    all_goals rfl

end Verif
