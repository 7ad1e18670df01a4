import Verif.Model.Service
import Verif.Lemmas.Visit

/-! # Lemmas about the processing of events -/

namespace Verif

/-- How often the callback of a handler was run. -/
abbrev runs (cs : List (Event × Nat)) (h : Nat) : Nat := (cs.map (·.2)).count h

/-- What the processing of an event cannot take back. -/
structure PMono (P : Prog) (s s' : Proc) : Prop where
  emitted : ∃ q, s'.ctx.queue = s.ctx.queue ++ q ∧ s'.ctx.emitted = s.ctx.emitted ++ q
  pairs : ∃ t, s'.pairs = s.pairs ++ t
  calls : ∃ t, s'.calls = s.calls ++ t
  shutting : s.shutting = true → s'.shutting = true
  flag : s.ctx.isShutdown = true → s'.ctx.isShutdown = true
  once : ∀ h, P.once h = true →
    runs s'.calls h + s'.ctx.handlers.count h + s.ctx.registered.count h ≤
      runs s.calls h + s.ctx.handlers.count h + s'.ctx.registered.count h
  kept : Kept s.ctx s'.ctx

theorem PMono.refl (P : Prog) (s : Proc) : PMono P s s :=
  ⟨⟨[], by simp⟩, ⟨[], by simp⟩, ⟨[], by simp⟩, id, id, fun _ _ => Nat.le_refl _, Kept.same rfl rfl rfl⟩

theorem PMono.trans {P : Prog} {a b c : Proc} (h1 : PMono P a b) (h2 : PMono P b c) : PMono P a c := by
  obtain ⟨⟨q1, e1, f1⟩, ⟨p1, g1⟩, ⟨t1, k1⟩, s1, i1, o1, z1⟩ := h1
  obtain ⟨⟨q2, e2, f2⟩, ⟨p2, g2⟩, ⟨t2, k2⟩, s2, i2, o2, z2⟩ := h2
  exact ⟨⟨q1 ++ q2, by rw [e2, e1, List.append_assoc], by rw [f2, f1, List.append_assoc]⟩,
    ⟨p1 ++ p2, by rw [g2, g1, List.append_assoc]⟩, ⟨t1 ++ t2, by rw [k2, k1, List.append_assoc]⟩,
    fun h => s2 (s1 h), fun h => i2 (i1 h), fun h hh => by have := o1 h hh; have := o2 h hh; omega, z1.trans z2⟩

/-- Changing the context by a step. -/
theorem PMono.ofMono {P : Prog} {s : Proc} {c : Ctx} (h : Mono s.ctx c) : PMono P s { s with ctx := c } :=
  ⟨h.emitted, ⟨[], by simp⟩, ⟨[], by simp⟩, id, fun hi => by rw [← hi]; exact h.isShutdown, fun k _ => by
    have := h.handlers k
    show runs s.calls k + c.handlers.count k + _ ≤ _ + c.registered.count k
    omega, h.kept⟩

theorem visitEach_pmono (P Q : Prog) {O : Oracle} {fuel : Nat} : ∀ (es : List Entity) {s s' : Proc} {r},
    visitEach P O fuel es s = some (s', r) →
      PMono Q s s' ∧ s'.ctx.locals.stack = s.ctx.locals.stack ∧ s'.calls = s.calls ∧
        s'.shutting = s.shutting ∧ s'.ctx.isShutdown = s.ctx.isShutdown
  | [], s, s', r, h => by
    simp [visitEach] at h
    rw [← h.1]; exact ⟨PMono.refl _ _, rfl, rfl, rfl, rfl⟩
  | e :: es, s, s', r, h => by
    unfold visitEach at h
    split at h
    · cases h
    · rename_i c err hv
      simp at h; rw [← h.1]
      have hm := visit_mono _ _ _ _ _ hv
      exact ⟨PMono.ofMono hm, hm.localsStack, rfl, rfl, hm.isShutdown⟩
    · rename_i c fs hv
      have hm := visit_mono _ _ _ _ _ hv
      obtain ⟨h1, h2, h3, h4, h5⟩ := visitEach_pmono P Q es h
      refine ⟨PMono.trans (PMono.ofMono (P := Q) hm) (PMono.trans ?_ h1), ?_, h3, h4, ?_⟩
      · exact ⟨⟨[], by simp⟩, ⟨fs, rfl⟩, ⟨[], by simp⟩, id, id, fun _ _ => Nat.le_refl _, Kept.same rfl rfl rfl⟩
      · exact h2.trans hm.localsStack
      · exact h5.trans hm.isShutdown

theorem baseHandle_facts {P : Prog} {ev : Event} {h : Nat} {c c' : Ctx} {r : Res Unit}
    (hb : baseHandle P ev h c = (c', r)) :
    c'.locals = c.locals.extendLocals [("event", .event ev)] ∧ Step { c with locals := c'.locals } c' ∧
      (r = .ok () → P.once h = true → c'.handlers.count h + 1 = c.handlers.count h) ∧
      c'.registered = c.registered ∧ (P.once h = false → c'.handlers = c.handlers ∧ r = .ok ()) := by
  unfold baseHandle at hb
  dsimp only at hb
  split at hb
  · rename_i ho
    unfold Ctx.unregisterHandler at hb
    split at hb
    · rename_i hm
      simp at hb
      obtain ⟨rfl, rfl⟩ := hb
      refine ⟨rfl, ?_, ?_, rfl, fun h => by rw [ho] at h; cases h⟩
      · have := unregister_step { c with locals := c.locals.extendLocals [("event", .event ev)] } h
        simpa [Ctx.unregisterHandler, hm] using this
      · intro _ _
        have h1 : 0 < c.handlers.count h := List.count_pos_iff.mpr hm
        show (c.handlers.erase h).count h + 1 = _
        rw [List.count_erase_self]; omega
    · simp at hb
      obtain ⟨rfl, rfl⟩ := hb
      exact ⟨rfl, Step.refl _, fun h => (by cases h), rfl, fun h => by rw [ho] at h; cases h⟩
  · rename_i ho
    simp at hb
    obtain ⟨rfl, rfl⟩ := hb
    exact ⟨rfl, Step.refl _, fun _ h => absurd h ho, rfl, fun _ => ⟨rfl, rfl⟩⟩

theorem runs_append (xs ys : List (Event × Nat)) (h : Nat) : runs (xs ++ ys) h = runs xs h + runs ys h := by
  simp [runs, List.count_append]

/-- One handler. -/
theorem handleOne_facts {P : Prog} {O : Oracle} {fuel : Nat} {ev : Event} {h : Nat} {s s' : Proc} {r}
    (hh : handleOne P O fuel ev h s = some (s', r)) :
    PMono P s s' ∧ (∃ t, t <+: [(ev, h)] ∧ s'.calls = s.calls ++ t) ∧
      (r = .ok () → s'.calls = s.calls ++ [(ev, h)] ∧ s'.ctx.locals.cur = s.ctx.locals.cur ∧
        s'.ctx.locals.stack = s.ctx.locals.stack ∧
        s'.shutting = (s.shutting || decide (h = shutdownHandler)) ∧
        s'.ctx.isShutdown = (s.ctx.isShutdown || decide (h = shutdownHandler))) := by
  unfold handleOne at hh
  split at hh
  · rename_i c err hb
    simp at hh; obtain ⟨rfl, rfl⟩ := hh
    obtain ⟨f1, f2, f3, f4, f5⟩ := baseHandle_facts hb
    refine ⟨?_, ⟨[], by simp, by simp⟩, fun h => by cases h⟩
    have hm := f2.toMono
    exact ⟨hm.emitted, ⟨[], by simp⟩, ⟨[], by simp⟩, id, fun hi => by rw [← hi]; exact hm.isShutdown,
      fun k _ => by
        have := hm.handlers k
        show runs s.calls k + c.handlers.count k + _ ≤ _ + c.registered.count k
        simp only at this ⊢
        omega, hm.kept⟩
  · rename_i c hb
    obtain ⟨f1, f2, f3, f4, f5⟩ := baseHandle_facts hb
    have hm := f2.toMono
    -- the callback
    let c1 : Ctx := if h = shutdownHandler then { c with isShutdown := true } else c
    have hc1 : Mono { c with isShutdown := c1.isShutdown } c1 := by
      show Mono _ (if h = shutdownHandler then { c with isShutdown := true } else c)
      by_cases hsh : h = shutdownHandler
      · simp only [hsh, if_true, c1]; exact Mono.refl _
      · simp only [hsh, if_false, c1]; exact Mono.refl _
    have hshut : c1.isShutdown = (c.isShutdown || decide (h = shutdownHandler)) := by
      show (if h = shutdownHandler then { c with isShutdown := true } else c : Ctx).isShutdown = _
      by_cases hsh : h = shutdownHandler <;> simp [hsh]
    have hloc : c1.locals = c.locals := by
      show (if h = shutdownHandler then { c with isShutdown := true } else c : Ctx).locals = _
      split <;> rfl
    have heff := applyEffects_step none c1 (P.callback h ev c1).effects
    let c2 := Entity.applyEffects none c1 (P.callback h ev c1).effects
    let s1 : Proc := ⟨c2, s.pairs, s.shutting || decide (h = shutdownHandler), s.calls ++ [(ev, h)]⟩
    have hrun : runCallback P ev h { s with ctx := c } = (s1, (P.callback h ev c1).result) := by
      simp [runCallback, s1, c2, c1]
    have hm12 := hc1.trans heff.toMono
    have hstack : c2.locals.stack = s.ctx.locals.cur :: s.ctx.locals.stack := by
      have h1 : c2.locals.stack = c.locals.stack := by rw [heff.localsStack, hloc]
      rw [h1, f1]; rfl
    have hp1 : PMono P s s1 := by
      refine ⟨?_, ⟨[], by simp [s1]⟩, ⟨[(ev, h)], rfl⟩, fun hs => by simp [s1, hs], ?_, ?_, hm.kept.trans hm12.kept⟩
      · obtain ⟨q1, e1, g1⟩ := hm.emitted
        obtain ⟨q2, e2, g2⟩ := hm12.emitted
        exact ⟨q1 ++ q2, by rw [← List.append_assoc]; exact e2.trans (by rw [e1]),
          by rw [← List.append_assoc]; exact g2.trans (by rw [g1])⟩
      · intro hi
        show c2.isShutdown = true
        rw [heff.isShutdown, hshut]
        have : c.isShutdown = true := by rw [hm.isShutdown]; exact hi
        simp [this]
      · intro k hk
        have h2 := hm12.handlers k
        have h1 := hm.handlers k
        show runs (s.calls ++ [(ev, h)]) k + c2.handlers.count k + _ ≤ _ + c2.registered.count k
        simp only at h1 h2
        have hreg : c.registered.count k = s.ctx.registered.count k := by rw [f4]
        rw [runs_append]
        by_cases hkh : k = h
        · subst hkh
          have h3 := f3 rfl hk
          simp only at h3
          have h4 : runs [(ev, k)] k = 1 := by simp [runs]
          have h5 : c2.handlers.count k + c.registered.count k ≤ c.handlers.count k + c2.registered.count k := h2
          have h6 : c.handlers.count k + 1 = s.ctx.handlers.count k := h3
          omega
        · have h4 : runs [(ev, h)] k = 0 := by
            simp [runs, List.count_cons, Ne.symm hkh]
          have h5 : c2.handlers.count k + c.registered.count k ≤ c.handlers.count k + c2.registered.count k := h2
          have h6 : c.handlers.count k + s.ctx.registered.count k ≤ s.ctx.handlers.count k + c.registered.count k := h1
          omega
    rw [hrun] at hh
    split at hh
    · rename_i s1' err heq
      simp at hh heq; obtain ⟨rfl, rfl⟩ := hh; obtain ⟨rfl, _⟩ := heq
      exact ⟨hp1, ⟨[(ev, h)], by simp, rfl⟩, fun h => by cases h⟩
    · rename_i s1' es heq
      simp at heq; obtain ⟨rfl, _⟩ := heq
      split at hh
      · cases hh
      · rename_i s2 err hv
        simp at hh; obtain ⟨rfl, rfl⟩ := hh
        obtain ⟨v1, v2, v3, v4, v5⟩ := visitEach_pmono P P es hv
        exact ⟨hp1.trans v1, ⟨[(ev, h)], by simp, v3⟩, fun h => by cases h⟩
      · rename_i s2 hv
        obtain ⟨v1, v2, v3, v4, v5⟩ := visitEach_pmono P P es hv
        have hst : s2.ctx.locals.stack = s.ctx.locals.cur :: s.ctx.locals.stack := v2.trans hstack
        have hpop : s2.ctx.locals.pop =
            .ok { s2.ctx.locals with cur := s.ctx.locals.cur, stack := s.ctx.locals.stack, cache := none } := by
          unfold Locals.pop; rw [hst]
        rw [hpop] at hh
        simp only [Option.some.injEq, Prod.mk.injEq] at hh
        obtain ⟨rfl, rfl⟩ := hh
        refine ⟨(hp1.trans v1).trans ?_, ⟨[(ev, h)], by simp, v3⟩,
          fun _ => ⟨v3, rfl, rfl, v4, ?_⟩⟩
        · exact ⟨⟨[], by simp⟩, ⟨[], by simp⟩, ⟨[], by simp⟩, id, id, fun _ _ => Nat.le_refl _, Kept.same rfl rfl rfl⟩
        · show s2.ctx.isShutdown = _
          rw [v5]
          show c2.isShutdown = _
          rw [heff.isShutdown, hshut]
          have : c.isShutdown = s.ctx.isShutdown := hm.isShutdown
          rw [this]

theorem handleAll_facts {P : Prog} {O : Oracle} {fuel : Nat} {ev : Event} : ∀ (hs : List Nat) {s s' : Proc} {r},
    handleAll P O fuel ev hs s = some (s', r) →
    PMono P s s' ∧
      (∃ t, t <+: (hs.filter (P.matchesEv · ev)).map (fun h => (ev, h)) ∧ s'.calls = s.calls ++ t) ∧
      (r = .ok () → s'.calls = s.calls ++ (hs.filter (P.matchesEv · ev)).map (fun h => (ev, h)) ∧
        s'.ctx.locals.cur = s.ctx.locals.cur ∧ s'.ctx.locals.stack = s.ctx.locals.stack ∧
        s'.shutting = (s.shutting || decide (shutdownHandler ∈ hs.filter (P.matchesEv · ev))) ∧
        s'.ctx.isShutdown = (s.ctx.isShutdown || decide (shutdownHandler ∈ hs.filter (P.matchesEv · ev))))
  | [], s, s', r, h => by
    simp [handleAll] at h
    obtain ⟨rfl, rfl⟩ := h
    exact ⟨PMono.refl _ _, ⟨[], by simp, by simp⟩, fun _ => by simp⟩
  | k :: hs, s, s', r, h => by
    unfold handleAll at h
    split at h
    · rename_i hmk
      split at h
      · cases h
      · rename_i s1 err h1
        simp at h; obtain ⟨rfl, rfl⟩ := h
        obtain ⟨a1, ⟨t, ht, a2⟩, _⟩ := handleOne_facts h1
        refine ⟨a1, ⟨t, ?_, a2⟩, fun h => by cases h⟩
        rw [List.filter_cons_of_pos (by simpa using hmk)]
        exact ht.trans ⟨_, rfl⟩
      · rename_i s1 h1
        obtain ⟨a1, _, a3⟩ := handleOne_facts h1
        obtain ⟨c1, l1, k1, sh1, sd1⟩ := a3 rfl
        obtain ⟨b1, ⟨t, ht, b2⟩, b3⟩ := handleAll_facts hs h
        rw [List.filter_cons_of_pos (by simpa using hmk)]
        refine ⟨a1.trans b1, ⟨(ev, k) :: t, ?_, ?_⟩, ?_⟩
        · rw [List.map_cons]; exact (List.prefix_cons_inj _).mpr ht
        · rw [b2, c1, List.append_assoc]; rfl
        · intro hr
          obtain ⟨d1, d2, d3, d4, d5⟩ := b3 hr
          refine ⟨by rw [d1, c1, List.append_assoc]; rfl, d2.trans l1, d3.trans k1, ?_, ?_⟩
          · rw [d4, sh1, Bool.or_assoc]
            congr 1
            simp only [List.mem_cons]
            rw [show decide (k = shutdownHandler) = decide (shutdownHandler = k) from by
              simp only [eq_comm]]
            exact (Bool.decide_or _ _).symm
          · rw [d5, sd1, Bool.or_assoc]
            congr 1
            simp only [List.mem_cons]
            rw [show decide (k = shutdownHandler) = decide (shutdownHandler = k) from by
              simp only [eq_comm]]
            exact (Bool.decide_or _ _).symm
    · rename_i hmk
      rw [List.filter_cons_of_neg (by simpa using hmk)]
      exact handleAll_facts hs h

end Verif
