import Verif.Spec.Service
import Verif.Lemmas.Service

/-! # Lemmas about runs of the service -/

namespace Verif

/-- What no step of the service takes back. -/
structure SMono (P : Prog) (s s' : Svc) : Prop where
  hist : ∃ q t, s'.ctx.emitted = s.ctx.emitted ++ q ∧ s'.handled = s.handled ++ t ∧
    t ++ s'.ctx.queue = s.ctx.queue ++ q
  once : ∀ h, P.withService.once h = true →
    runs s'.calls h + s'.ctx.handlers.count h + s.ctx.registered.count h ≤
      runs s.calls h + s.ctx.handlers.count h + s'.ctx.registered.count h
  fin : ∀ f r, s.fin.lookup f = some r → s'.fin.lookup f = some r
  calls : ∃ t, s'.calls = s.calls ++ t
  kept : Kept s.ctx s'.ctx

theorem SMono.refl (P : Prog) (s : Svc) : SMono P s s :=
  ⟨⟨[], [], by simp, by simp, by simp⟩, fun _ _ => Nat.le_refl _, fun _ _ h => h, ⟨[], by simp⟩, Kept.same rfl rfl rfl⟩

theorem SMono.trans {P : Prog} {a b c : Svc} (h1 : SMono P a b) (h2 : SMono P b c) : SMono P a c := by
  obtain ⟨⟨q1, t1, e1, f1, g1⟩, o1, n1, ⟨x1, y1⟩, z1⟩ := h1
  obtain ⟨⟨q2, t2, e2, f2, g2⟩, o2, n2, ⟨x2, y2⟩, z2⟩ := h2
  refine ⟨⟨q1 ++ q2, t1 ++ t2, by rw [e2, e1, List.append_assoc], by rw [f2, f1, List.append_assoc], ?_⟩,
    fun h hh => by have := o1 h hh; have := o2 h hh; omega, fun f r h => n2 f r (n1 f r h),
    ⟨x1 ++ x2, by rw [y2, y1, List.append_assoc]⟩, z1.trans z2⟩
  rw [List.append_assoc, g2, ← List.append_assoc, g1, List.append_assoc]

/-- Steps that emit at most one event and leave handlers, history and futures alone. -/
theorem SMono.quiet {P : Prog} {s s' : Svc} (q : List Event) (h1 : s'.ctx.emitted = s.ctx.emitted ++ q)
    (h2 : s'.ctx.queue = s.ctx.queue ++ q) (h3 : s'.handled = s.handled) (h4 : s'.calls = s.calls)
    (h5 : s'.ctx.handlers = s.ctx.handlers) (h6 : s'.ctx.registered = s.ctx.registered)
    (h7 : s'.fin = s.fin) (h8 : s'.ctx.unregistered = s.ctx.unregistered) : SMono P s s' :=
  ⟨⟨q, [], h1, by simp [h3], by simp [h2]⟩, fun h _ => by rw [h4, h5, h6]; exact Nat.le_refl _,
    fun f r h => by rw [h7]; exact h, ⟨[], by simp [h4]⟩, Kept.same h5 h6 h8⟩

theorem SMono.same {P : Prog} {s s' : Svc} (h1 : s'.ctx.emitted = s.ctx.emitted)
    (h2 : s'.ctx.queue = s.ctx.queue) (h3 : s'.handled = s.handled) (h4 : s'.calls = s.calls)
    (h5 : s'.ctx.handlers = s.ctx.handlers) (h6 : s'.ctx.registered = s.ctx.registered)
    (h7 : s'.fin = s.fin) (h8 : s'.ctx.unregistered = s.ctx.unregistered) : SMono P s s' :=
  SMono.quiet [] (by simp [h1]) (by simp [h2]) h3 h4 h5 h6 h7 h8

theorem moveQueue_eq (old new : List Event) : Svc.moveQueue old new = new ++ old := by
  induction old generalizing new with
  | nil => simp [Svc.moveQueue]
  | cons e old ih => rw [Svc.moveQueue, ih, List.append_assoc]; rfl

theorem request_mono (P : Prog) (reason : String) (b : Bool) (s : Svc) : SMono P s (s.request reason b) := by
  unfold Svc.request
  split
  · exact SMono.same rfl rfl rfl rfl rfl rfl rfl rfl
  · exact SMono.quiet [.shutdown reason b] rfl rfl rfl rfl rfl rfl rfl rfl

theorem prune_mono (P : Prog) (s : Svc) : SMono P s s.prune := SMono.same rfl rfl rfl rfl rfl rfl rfl rfl

theorem check_mono (P : Prog) (s : Svc) : SMono P s s.check := by
  unfold Svc.check
  simp only
  split
  · exact (prune_mono P s).trans (request_mono P _ _ _)
  · split
    · exact (prune_mono P s).trans (SMono.same rfl rfl rfl rfl rfl rfl rfl rfl)
    · exact (prune_mono P s).trans (SMono.same rfl rfl rfl rfl rfl rfl rfl rfl)

theorem start_mono (P : Prog) (w : Bool) (s : Svc) : SMono P s (s.start w) := by
  unfold Svc.start
  split
  · exact SMono.same rfl rfl rfl rfl rfl rfl rfl rfl
  · exact SMono.same rfl (by simp [moveQueue_eq]) rfl rfl rfl rfl rfl rfl

/-- Inversion of the processing of one event. -/
theorem process_inv {P : Prog} {O : Oracle} {fuel : Nat} {s s' : Svc} (h : s.process P O fuel = some s') :
    ∃ e q p r, s.ctx.queue = e :: q ∧
      processEvent P.withService O fuel e
        { ctx := { s.ctx with queue := q }, pairs := s.pairs, shutting := s.shutting, calls := s.calls } =
          some (p, r) ∧
      s' = { s with
        ctx := p.ctx, pairs := p.pairs, shutting := p.shutting, calls := p.calls
        handled := s.handled ++ [e]
        collected := s.collected ++ p.pairs.drop s.pairs.length
        task := .done (match r with | .ok _ => true | .error _ => false)
        evFailed := s.evFailed || !(match r with | .ok _ => true | .error _ => false) } := by
  unfold Svc.process at h
  split at h
  · cases h
  · rename_i e q hq
    split at h
    · cases h
    · rename_i p r hp
      simp only [Option.some.injEq] at h
      exact ⟨e, q, p, r, hq, hp, h.symm⟩

theorem process_mono {P : Prog} {O : Oracle} {fuel : Nat} {s s' : Svc} (h : s.process P O fuel = some s') :
    SMono P s s' := by
  obtain ⟨e, q, p, r, hq, hp, rfl⟩ := process_inv h
  obtain ⟨hm, _, _⟩ := handleAll_facts _ hp
  obtain ⟨⟨q1, e1, f1⟩, _, hc, _, _, ho, hkept⟩ := hm
  refine ⟨⟨q1, [e], f1, rfl, ?_⟩, ho, fun _ _ h => h, hc, hkept⟩
  show [e] ++ p.ctx.queue = s.ctx.queue ++ q1
  rw [e1, hq]; rfl

theorem wake_mono {P : Prog} {fs : List Nat} {s s' : Svc} (h : s.wake fs = some s') : SMono P s s' := by
  unfold Svc.wake at h
  simp only at h
  split at h
  · cases h
  · split at h
    · simp only [Option.some.injEq] at h; subst h; exact SMono.same rfl rfl rfl rfl rfl rfl rfl rfl
    · split at h
      · simp only [Option.some.injEq] at h; subst h
        exact (request_mono P _ _ s).trans (SMono.same rfl rfl rfl rfl rfl rfl rfl rfl)
      · simp only [Option.some.injEq] at h; subst h; exact SMono.same rfl rfl rfl rfl rfl rfl rfl rfl

theorem lookup_cons_isNone {f : Nat} {r : FutRes} {l : List (Nat × FutRes)} (hn : (l.lookup f).isSome = false)
    {g : Nat} {r' : FutRes} (h : l.lookup g = some r') : ((f, r) :: l).lookup g = some r' := by
  rw [List.lookup_cons]
  by_cases hg : g = f
  · subst hg; rw [h] at hn; cases hn
  · have : (g == f) = false := by simp [hg]
    rw [this]; exact h

theorem step_mono {P : Prog} {O : Oracle} {s s' : Svc} {l : Label} (h : s.step P O l = some s') :
    SMono P s s' := by
  cases l with
  | start w =>
    simp only [Svc.step] at h
    split at h
    · simp only [Option.some.injEq] at h; subst h; exact start_mono P w s
    · cases h
  | check =>
    simp only [Svc.step] at h
    split at h
    · simp only [Option.some.injEq] at h; subst h; exact check_mono P s
    · cases h
  | process fuel =>
    simp only [Svc.step] at h
    split at h
    · exact process_mono h
    · cases h
  | wake =>
    simp only [Svc.step] at h
    split at h
    · exact wake_mono h
    · cases h
  | cancel =>
    simp only [Svc.step] at h
    split at h
    · simp only [Option.some.injEq] at h; subst h; exact SMono.same rfl rfl rfl rfl rfl rfl rfl rfl
    · cases h
  | sigint =>
    simp only [Svc.step] at h
    split at h
    · simp only [Option.some.injEq] at h; subst h
      split
      · exact SMono.refl P s
      · exact (request_mono P _ _ s).trans (SMono.same rfl rfl rfl rfl rfl rfl rfl rfl)
    · cases h
  | shutdownLoop =>
    simp only [Svc.step] at h
    split at h
    · simp only [Option.some.injEq] at h; subst h
      split
      · split <;> exact SMono.same rfl rfl rfl rfl rfl rfl rfl rfl
      · exact SMono.refl P s
    · cases h
  | shutdownSync =>
    simp only [Svc.step] at h
    split at h
    · simp only [Option.some.injEq] at h; subst h
      split
      · exact request_mono P _ _ s
      · exact SMono.refl P s
    · cases h
  | awaitShutdown =>
    simp only [Svc.step] at h
    split at h
    · cases h
    · simp only [Option.some.injEq] at h; subst h
      exact SMono.quiet [_] rfl rfl rfl rfl rfl rfl rfl rfl
  | threadShutdown =>
    simp only [Svc.step] at h
    split at h
    · simp only [Option.some.injEq] at h; subst h
      split
      · split <;> exact SMono.same rfl rfl rfl rfl rfl rfl rfl rfl
      · exact SMono.refl P s
    · cases h
  | threadEmit =>
    simp only [Svc.step] at h
    split at h
    · simp only [Option.some.injEq] at h; subst h
      exact SMono.quiet [_] rfl rfl rfl rfl rfl rfl rfl rfl
    · cases h
  | threadFlags =>
    simp only [Svc.step] at h
    split at h
    · simp only [Option.some.injEq] at h; subst h; exact SMono.same rfl rfl rfl rfl rfl rfl rfl rfl
    · cases h
  | finish =>
    simp only [Svc.step] at h
    split at h
    · simp only [Option.some.injEq] at h; subst h; exact SMono.same rfl rfl rfl rfl rfl rfl rfl rfl
    · cases h
  | emit e =>
    simp only [Svc.step] at h
    split at h
    · cases h
    · simp only [Option.some.injEq] at h; subst h; exact SMono.quiet [e] rfl rfl rfl rfl rfl rfl rfl rfl
  | futureDone f r =>
    simp only [Svc.step] at h
    split at h
    · cases h
    · rename_i hn
      simp only [Option.some.injEq] at h; subst h
      refine ⟨⟨[], [], by simp, by simp, by simp⟩, fun _ _ => Nat.le_refl _, fun g r' hg => ?_, ⟨[], by simp⟩, Kept.same rfl rfl rfl⟩
      exact lookup_cons_isNone (Bool.eq_false_iff.mpr hn) hg
  | callback i =>
    simp only [Svc.step] at h
    split at h
    · cases h
    · rename_i f a hg
      split at h
      · simp only [Option.some.injEq] at h; subst h
        exact SMono.quiet [.executionComplete a] rfl rfl rfl rfl rfl rfl rfl rfl
      · cases h
  | loopException =>
    simp only [Svc.step] at h
    split at h
    · simp only [Option.some.injEq] at h; subst h; exact SMono.same rfl rfl rfl rfl rfl rfl rfl rfl
    · cases h

/-- Induction over the steps of a run. -/
theorem steps_induct {P : Prog} {O : Oracle} {R : Svc → Prop}
    (hstep : ∀ s l s', R s → s.step P O l = some s' → R s') :
    ∀ (ls : List Label) (s s' : Svc), R s → s.steps P O ls = some s' → R s'
  | [], s, s', h0, h => by simp [Svc.steps] at h; rw [← h]; exact h0
  | l :: ls, s, s', h0, h => by
    simp only [Svc.steps] at h
    cases h1 : s.step P O l with
    | none => rw [h1] at h; cases h
    | some s1 => rw [h1] at h; exact steps_induct hstep ls s1 s' (hstep s l s1 h0 h1) h

/-- The same with a condition on the labels. -/
theorem steps_induct' {P : Prog} {O : Oracle} {R : Svc → Prop} {L : Label → Prop}
    (hstep : ∀ s l s', L l → R s → s.step P O l = some s' → R s') :
    ∀ (ls : List Label) (s s' : Svc), (∀ l ∈ ls, L l) → R s → s.steps P O ls = some s' → R s'
  | [], s, s', _, h0, h => by simp [Svc.steps] at h; rw [← h]; exact h0
  | l :: ls, s, s', hL, h0, h => by
    simp only [Svc.steps] at h
    cases h1 : s.step P O l with
    | none => rw [h1] at h; cases h
    | some s1 =>
      rw [h1] at h
      exact steps_induct' hstep ls s1 s' (fun x hx => hL x (by simp [hx])) (hstep s l s1 (hL l (by simp)) h0 h1) h

theorem steps_mono {P : Prog} {O : Oracle} {ls : List Label} {s s' : Svc} (h : s.steps P O ls = some s') :
    SMono P s s' :=
  steps_induct (R := fun x => SMono P s x) (fun _ _ _ hx hs => hx.trans (step_mono hs)) ls s s'
    (SMono.refl P s) h

theorem steps_append {P : Prog} {O : Oracle} : ∀ (xs ys : List Label) (s : Svc),
    s.steps P O (xs ++ ys) = (s.steps P O xs).bind fun s1 => s1.steps P O ys
  | [], ys, s => rfl
  | l :: xs, ys, s => by
    simp only [List.cons_append, Svc.steps]
    cases s.step P O l with
    | none => rfl
    | some s1 => exact steps_append xs ys s1

end Verif
