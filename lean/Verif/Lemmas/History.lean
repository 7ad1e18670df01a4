import Verif.Lemmas.Order
import Verif.Lemmas.Run

/-! # What was executed, logged and kept cannot be taken back -/

namespace Verif

/-- From `c` on, actions were executed, and locals were kept only by those. -/
structure Hist (c c' : Ctx) : Prop where
  grows : ∃ t q g, c'.trace = c.trace ++ t ∧ c'.captured = q ++ c.captured ∧ (∀ p ∈ q, p.1 ∈ t) ∧ c'.logged = c.logged ++ g
  ok : LocOK c → LocOK c'

theorem Hist.refl (c : Ctx) : Hist c c := ⟨⟨[], [], [], by simp⟩, id⟩

theorem Hist.trans {a b c : Ctx} (h1 : Hist a b) (h2 : Hist b c) : Hist a c := by
  obtain ⟨⟨t1, q1, g1, e1, f1, m1, l1⟩, w1⟩ := h1
  obtain ⟨⟨t2, q2, g2, e2, f2, m2, l2⟩, w2⟩ := h2
  refine ⟨⟨t1 ++ t2, q2 ++ q1, g1 ++ g2, by rw [e2, e1, List.append_assoc], by rw [f2, f1, List.append_assoc], ?_,
    by rw [l2, l1, List.append_assoc]⟩, w2 ∘ w1⟩
  intro p hp
  rcases List.mem_append.mp hp with h | h
  · exact List.mem_append.mpr (.inr (m2 p h))
  · exact List.mem_append.mpr (.inl (m1 p h))

theorem Hist.same {c c' : Ctx} (h1 : c'.trace = c.trace) (h2 : c'.captured = c.captured) (h3 : c'.logged = c.logged)
    (h4 : c.locals.OK → c'.locals.OK) : Hist c c' :=
  ⟨⟨[], [], [], by simp [h1, h2, h3]⟩, fun h => ⟨h4 h.1, by rw [h2]; exact h.2⟩⟩

theorem AnonExt.hist {c c' : Ctx} (h : AnonExt c c') : Hist c c' := by
  have := h.rest
  refine Hist.same ?_ ?_ ?_ ?_ <;> rw [this]
  exact id

theorem announce_hist (P : Prog) (id : ActId) (c : Ctx) : Hist c (announce P id c) := by
  unfold announce
  split
  · split <;> exact Hist.same rfl rfl rfl (fun h => h)
  · exact Hist.refl c

theorem enter_hist {P : Prog} {O : Oracle} {n : Nat} {e : Entity} {c c' : Ctx} {r : Res (List Entity)}
    (h : enter P O n e c = some (c', r)) : Hist c c' := by
  cases e with
  | desc es => simp [enter] at h; rw [← h.1]; exact Hist.refl c
  | act id cond kind =>
    simp only [enter] at h
    have hf := condEval_frames O P.preds cond c
    cases hc : condEval O P.preds cond c with
    | mk c1 r1 =>
      rw [hc] at h hf
      cases r1 with
      | error e => simp at h; rw [← h.1]; exact hf.hist
      | ok b =>
        cases b with
        | false => simp at h; rw [← h.1]; exact hf.hist
        | true =>
          simp only at h
          cases hx : execute P O n id kind { c1 with trace := c1.trace ++ [id] } with
          | none => rw [hx] at h; simp at h
          | some x =>
            obtain ⟨c2, r2⟩ := x
            rw [hx] at h; simp at h
            rw [← h.1]
            refine hf.hist.trans (Hist.trans ?_ (announce_hist P id c2))
            have hcore := execute_core hx
            obtain ⟨q, hq, hm⟩ := hcore.captured
            obtain ⟨g, hg⟩ := hcore.logged
            exact ⟨⟨[id], q, g, hcore.trace, hq, fun p hp => by simp [hm p hp], hg⟩, fun hok => hcore.ok hok⟩

theorem visitList_hist {v : Entity → Ctx → Outcome (List Fut)}
    (hv : ∀ e c c' r, v e c = some (c', r) → Hist c c') :
    ∀ (es : List Entity) (c c' : Ctx) (r), visitList v es c = some (c', r) → Hist c c'
  | [], c, c', r, h => by simp [visitList] at h; rw [← h.1]; exact Hist.refl c
  | e :: es, c, c', r, h => by
    unfold visitList at h
    cases h1 : v e c with
    | none => rw [h1] at h; simp at h
    | some x =>
      obtain ⟨c1, r1⟩ := x
      have m1 := hv _ _ _ _ h1
      rw [h1] at h
      cases r1 with
      | error err => simp at h; rw [← h.1]; exact m1
      | ok fs =>
        simp only at h
        cases h2 : visitList v es c1 with
        | none => rw [h2] at h; simp at h
        | some y =>
          obtain ⟨c2, r2⟩ := y
          have m2 := visitList_hist hv es _ _ _ h2
          rw [h2] at h
          cases r2 <;> (simp at h; rw [← h.1]; exact m1.trans m2)

theorem visit_hist {P : Prog} {O : Oracle} : ∀ (n : Nat) (e : Entity) (c c' : Ctx) (r),
    visit P O n e c = some (c', r) → Hist c c'
  | 0, _, _, _, _, h => by simp [visit] at h
  | n + 1, e, c, c', r, h => by
    unfold visit at h
    cases h1 : enter P O n e c with
    | none => rw [h1] at h; simp at h
    | some x =>
      obtain ⟨c1, r1⟩ := x
      have m1 := enter_hist h1
      rw [h1] at h
      cases r1 with
      | error err => simp at h; rw [← h.1]; exact m1
      | ok subs =>
        simp only at h
        cases h2 : visitList (visit P O n) subs c1 with
        | none => rw [h2] at h; simp at h
        | some y =>
          obtain ⟨c2, r2⟩ := y
          have m2 := visitList_hist (visit_hist n) subs _ _ _ h2
          rw [h2] at h
          cases r2 <;> (simp at h; rw [← h.1]; exact m1.trans m2)

theorem visitEach_hist {P : Prog} {O : Oracle} {fuel : Nat} : ∀ (es : List Entity) {s s' : Proc} {r},
    visitEach P O fuel es s = some (s', r) → Hist s.ctx s'.ctx
  | [], s, s', r, h => by simp [visitEach] at h; rw [← h.1]; exact Hist.refl _
  | e :: es, s, s', r, h => by
    unfold visitEach at h
    split at h
    · cases h
    · rename_i c err hv
      simp at h; rw [← h.1]; exact visit_hist _ _ _ _ _ hv
    · rename_i c fs hv
      exact (visit_hist _ _ _ _ _ hv).trans (visitEach_hist es h)

theorem applyEffect_none_hist (c : Ctx) (e : Effect) : Hist c (Entity.applyEffect none c e) := by
  cases e with
  | setEnv k v => show Hist c (c.envSet k v).1; unfold Ctx.envSet; split <;> exact Hist.same rfl rfl rfl id
  | unregister h => show Hist c (c.unregisterHandler h).1; unfold Ctx.unregisterHandler; split <;> exact Hist.same rfl rfl rfl id
  | extendLocals d => exact Hist.same rfl rfl rfl fun h => h.extendLocals d
  | extendGlobals d => exact Hist.same rfl rfl rfl fun h => h.extendGlobals d
  | _ => exact Hist.same rfl rfl rfl (fun h => h)

theorem applyEffects_none_hist (es : List Effect) : ∀ c : Ctx, Hist c (Entity.applyEffects none c es) := by
  induction es with
  | nil => intro c; exact Hist.refl c
  | cons e es ih => intro c; exact (applyEffect_none_hist c e).trans (ih _)

theorem baseHandle_hist {P : Prog} {ev : Event} {h : Nat} {c c' : Ctx} {r : Res Unit} (hb : baseHandle P ev h c = (c', r)) : Hist c c' := by
  unfold baseHandle at hb
  dsimp only at hb
  have h1 : Hist c { c with locals := c.locals.extendLocals [("event", .event ev)] } := Hist.same rfl rfl rfl fun h => h.extendLocals _
  split at hb
  · unfold Ctx.unregisterHandler at hb
    split at hb <;> (simp at hb; rw [← hb.1])
    · exact h1.trans (Hist.same rfl rfl rfl (fun h => h))
    · exact h1
  · simp at hb; rw [← hb.1]; exact h1

theorem runCallback_hist (P : Prog) (ev : Event) (h : Nat) (s : Proc) : Hist s.ctx (runCallback P ev h s).1.ctx := by
  unfold runCallback
  dsimp only
  split
  · exact Hist.trans (b := { s.ctx with isShutdown := true }) (Hist.same rfl rfl rfl (fun h => h)) (applyEffects_none_hist _ _)
  · exact applyEffects_none_hist _ _

theorem handleOne_hist {P : Prog} {O : Oracle} {fuel : Nat} {ev : Event} {h : Nat} {s s' : Proc} {r}
    (hh : handleOne P O fuel ev h s = some (s', r)) : Hist s.ctx s'.ctx := by
  unfold handleOne at hh
  have h0 : Hist s.ctx { s.ctx with locals := s.ctx.locals.push } := Hist.same rfl rfl rfl fun h => h.push
  split at hh
  · rename_i c err hb
    simp at hh; rw [← hh.1]; exact h0.trans (baseHandle_hist hb)
  · rename_i c hb
    have h1 := h0.trans (baseHandle_hist hb)
    have h2 := h1.trans (runCallback_hist P ev h { s with ctx := c })
    split at hh
    · rename_i s1 err heq
      rw [heq] at h2
      simp at hh; rw [← hh.1]; exact h2
    · rename_i s1 es heq
      rw [heq] at h2
      split at hh
      · cases hh
      · rename_i s2 err hv
        simp at hh; rw [← hh.1]; exact h2.trans (visitEach_hist es hv)
      · rename_i s2 hv
        have h3 := h2.trans (visitEach_hist es hv)
        split at hh
        · simp at hh; rw [← hh.1]; exact h3
        · rename_i l hl
          simp at hh; rw [← hh.1]; exact h3.trans (Hist.same rfl rfl rfl fun h => h.pop hl)

theorem handleAll_hist {P : Prog} {O : Oracle} {fuel : Nat} {ev : Event} : ∀ (hs : List Nat) {s s' : Proc} {r},
    handleAll P O fuel ev hs s = some (s', r) → Hist s.ctx s'.ctx
  | [], s, s', r, h => by simp [handleAll] at h; rw [← h.1]; exact Hist.refl _
  | k :: hs, s, s', r, h => by
    unfold handleAll at h
    split at h
    · split at h
      · cases h
      · rename_i s1 err h1
        simp at h; rw [← h.1]; exact handleOne_hist h1
      · rename_i s1 h1
        exact (handleOne_hist h1).trans (handleAll_hist hs h)
    · exact handleAll_hist hs h

theorem emitShutdown_hist (reason : String) (sigint : Bool) (s : Svc) : Hist s.ctx (s.emitShutdown reason sigint).ctx :=
  Hist.same rfl rfl rfl (fun h => h)

theorem request_hist (reason : String) (sigint : Bool) (s : Svc) : Hist s.ctx (s.request reason sigint).ctx := by
  unfold Svc.request
  split <;> exact Hist.same rfl rfl rfl (fun h => h)

theorem prune_hist (s : Svc) : Hist s.ctx s.prune.ctx := Hist.same rfl rfl rfl (fun h => h)

theorem check_hist (s : Svc) : Hist s.ctx s.check.ctx := by
  unfold Svc.check
  dsimp only
  split
  · exact (prune_hist s).trans (request_hist _ _ _)
  · split <;> exact prune_hist s

theorem start_hist (w : Bool) (s : Svc) : Hist s.ctx (s.start w).ctx := by
  unfold Svc.start
  split <;> exact Hist.same rfl rfl rfl (fun h => h)

theorem process_hist {P : Prog} {O : Oracle} {fuel : Nat} {s s' : Svc} (h : s.process P O fuel = some s') : Hist s.ctx s'.ctx := by
  unfold Svc.process at h
  split at h
  · cases h
  · rename_i e q hq
    split at h
    · cases h
    · rename_i p r hp
      simp at h; rw [← h]
      have := handleAll_hist _ hp
      exact Hist.trans (b := { s.ctx with queue := q }) (Hist.same rfl rfl rfl (fun h => h)) this

theorem wake_hist {fs : List Nat} {s s' : Svc} (h : s.wake fs = some s') : Hist s.ctx s'.ctx := by
  unfold Svc.wake at h
  dsimp only at h
  split at h
  · cases h
  · split at h
    · simp at h; rw [← h]; exact Hist.refl _
    · split at h
      · simp at h; rw [← h]; exact request_hist _ _ s
      · simp at h; rw [← h]; exact Hist.refl _

theorem step_hist {P : Prog} {O : Oracle} {s s' : Svc} {l : Label} (h : s.step P O l = some s') : Hist s.ctx s'.ctx := by
  have fin : ∀ {x : Svc}, Hist s.ctx x.ctx → some x = some s' → Hist s.ctx s'.ctx := by
    intro x hx he; rw [← Option.some.inj he]; exact hx
  cases l with
  | start w =>
    simp only [Svc.step] at h
    split at h
    · exact fin (start_hist w s) h
    · cases h
  | check =>
    simp only [Svc.step] at h
    split at h
    · exact fin (check_hist s) h
    · cases h
  | process fuel =>
    simp only [Svc.step] at h
    split at h
    · exact process_hist h
    · cases h
  | wake =>
    simp only [Svc.step] at h
    split at h
    · exact wake_hist h
    · cases h
  | sigint =>
    simp only [Svc.step] at h
    split at h
    · refine fin ?_ h
      split
      · exact Hist.refl _
      · exact request_hist _ _ s
    · cases h
  | shutdownSync =>
    simp only [Svc.step] at h
    split at h
    · refine fin ?_ h
      split
      · exact request_hist _ _ s
      · exact Hist.refl _
    · cases h
  | callback i =>
    simp only [Svc.step] at h
    split at h
    · cases h
    · split at h
      · refine fin ?_ h
        exact Hist.same rfl rfl rfl (fun h => h)
      · cases h
  | _ =>
    simp only [Svc.step] at h
    repeat' split at h
    all_goals first | (cases h; done) | skip
    all_goals (refine fin ?_ h)
    all_goals first | exact Hist.refl _ | exact Hist.same rfl rfl rfl (fun h => h)

theorem steps_hist {P : Prog} {O : Oracle} : ∀ (ls : List Label) {s s' : Svc}, s.steps P O ls = some s' → Hist s.ctx s'.ctx
  | [], s, s', h => by simp [Svc.steps] at h; rw [h]; exact Hist.refl _
  | l :: ls, s, s', h => by
    simp only [Svc.steps] at h
    split at h
    · cases h
    · rename_i s1 h1
      exact (step_hist h1).trans (steps_hist ls h)

theorem init_locOK (env : Dict String) : LocOK (Svc.init env).ctx := by
  refine ⟨⟨.inl rfl, ?_, ?_, ?_⟩, ?_⟩
  · exact List.nodup_nil
  · exact List.nodup_nil
  · intro f hf; exact absurd hf (List.not_mem_nil)
  · intro p hp; exact absurd hp (List.not_mem_nil)

/-- Nothing is kept for an action that was not executed. -/
theorem Hist.lookup {c c' : Ctx} (h : Hist c c') {a : ActId} (ha : c'.trace.count a = c.trace.count a) :
    c'.captured.lookup a = c.captured.lookup a := by
  obtain ⟨t, q, g, e, f, m, _⟩ := h.grows
  rw [e, List.count_append] at ha
  have ht : a ∉ t := fun hm => by have := List.count_pos_iff.mpr hm; omega
  rw [f]
  have hq : ∀ p ∈ q, p.1 ≠ a := fun p hp he => ht (he ▸ m p hp)
  clear f m
  induction q with
  | nil => rfl
  | cons p q ih =>
    have h1 := hq p (by simp)
    have : (a == p.1) = false := by simpa using Ne.symm h1
    obtain ⟨b, d⟩ := p
    show (match a == b with | true => some d | false => List.lookup a (q ++ c.captured)) = _
    rw [this]
    exact ih fun p hp => hq p (by simp [hp])

end Verif
