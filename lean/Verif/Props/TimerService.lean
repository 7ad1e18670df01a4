import Verif.Spec.TimerService
import Verif.Lemmas.History
import Verif.Spec.Subst

/-!
# C112: the actions of a timer are executed in the surroundings of the timer
-/

namespace Verif

theorem Hist.between {a c b : Ctx} (h1 : Hist a c) (h2 : Hist c b) : Ctx.Between a c b := by
  obtain ⟨t1, _, g1, e1, _, _, l1⟩ := h1.grows
  obtain ⟨t2, _, g2, e2, _, _, l2⟩ := h2.grows
  exact ⟨⟨⟨t1, e1.symm⟩, ⟨t2, e2.symm⟩⟩, ⟨⟨g1, l1.symm⟩, ⟨g2, l2.symm⟩⟩⟩

theorem withService_fn {P : Prog} {n : Nat} (hn : n ≠ 0) (c : Ctx) : P.withService.fn n c = P.fn n c := by
  simp [Prog.withService, hn]

theorem withService_matches {P : Prog} {h : Nat} (h0 : h ≠ includeHandler) (h1 : h ≠ shutdownHandler) (e : Event) :
    P.withService.matchesEv h e = P.matchesEv h e := by
  simp [Prog.withService, h0, h1]

/-- When a timer is executed, it keeps everything that is visible then. -/
theorem C112_kept_at_execution (P : Prog) (T : Timers) (hT : T.Proper) (O : Oracle) (n code i : Nat) (cond : Option Cond)
    (subs described : List Entity)
    (hcode : T.timerAt code = some i) (c c' : Ctx) (r : Res (List Entity))
    (h : enter (P.withTimers T).withService O n (.act (T.ident i) cond (.custom code subs described)) c = some (c', r))
    (hx : c'.trace = c.trace ++ [T.ident i]) :
    c'.captured.lookup (T.ident i) = some c.locals.getCombined.1 ∧ T.handler ∈ c'.registered := by
  simp only [enter] at h
  have hf := condEval_frames O (P.withTimers T).withService.preds cond c
  cases hc : condEval O (P.withTimers T).withService.preds cond c with
  | mk c1 r1 =>
    rw [hc] at h hf
    have hrest : c1 = _ := hf.rest
    have ht : c1.trace = c.trace := by rw [hrest]
    have hl : c1.locals = c.locals := by rw [hrest]
    cases r1 with
    | error e => simp at h; rw [← h.1, ht] at hx; simp at hx
    | ok b =>
      cases b with
      | false => simp at h; rw [← h.1, ht] at hx; simp at hx
      | true =>
        obtain ⟨h0, h1⟩ := hT.code _ _ hcode
        have hfn : ∀ c, (P.withTimers T).withService.fn code c = T.execute c := by
          intro c; rw [withService_fn h0]; simp [Prog.withTimers, h1, hcode]
        simp only [execute, hfn, Timers.execute] at h
        simp only [Option.some.injEq, Prod.mk.injEq] at h
        rw [← h.1]
        have ann : ∀ c, (announce (P.withTimers T).withService (T.ident i) c).captured = c.captured ∧
            (announce (P.withTimers T).withService (T.ident i) c).registered = c.registered := by
          intro c; unfold announce; split
          · split <;> exact ⟨rfl, rfl⟩
          · exact ⟨rfl, rfl⟩
        rw [(ann _).1, (ann _).2]
        split
        · rename_i hm
          refine ⟨?_, hm⟩
          simp [Entity.applyEffects, Entity.applyEffect, hl]
        · refine ⟨?_, ?_⟩
          · simp [Entity.applyEffects, Entity.applyEffect, Ctx.registerHandler, hl]
          · simp [Entity.applyEffects, Entity.applyEffect, Ctx.registerHandler]

/-- A launch file `/a/x.launch.py` is included: its timer logs, when it has fired, the directory of the file, the launch configuration `foo`
and the tag of the current event.  The timer stands in a group with its own `foo`. -/
def timersExample : Timers where
  handler := 2
  opq := 2
  helper := .derived .builtin 1
  ident := fun i => .user (10 + i)
  timerAt := fun n => if n = 1 then some 0 else none
  timerOf := fun e => if e = .user 7 then some 0 else none
  actions := fun _ => [.act (.user 20) none (.logInfo [.thisLaunchFileDir]), .act (.user 21) none (.logInfo [.launchConfig [.text "foo"] none]),
    .act (.user 22) none (.custom 3 [] [])]

/-- The file.  Function 3 tells (as a launch configuration) whether the event it sees is the TimerEvent; handler 3 is an event handler of
the file that logs the directory of the file when event 8 happens. -/
def timerProg : Prog where
  source := fun _ => ⟨[.text "/a/x.launch.py"], fun _ => .ok [
    .act (.user 1) none (.registerHandler 3 (some [.act (.user 40) none (.logInfo [.thisLaunchFileDir])])),
    .act (.user 2) none (.group true true [] [.act (.user 3) none (.setLC [.text "foo"] [.text "inner"]),
      .act (.user 10) none (.custom 1 [] (timersExample.actions 0))])]⟩
  launchFile := fun l => (l, "/a")
  matchesEv := fun h e => h = 3 && e = .user 8
  callback := fun h _ _ => if h = 3 then { result := .ok [.act (.user 40) none (.logInfo [.thisLaunchFileDir])] } else {}
  fn := fun n c => if n = 3 then { effects := [.setLC "timer event" (if c.locals.getCombined.1.get? "event" = some (.event (.user 7)) then "yes" else "no")] } else {}
  description := fun _ => [.act (.user 4) none (.setLC [.text "foo"] [.text "outer"]), .act (.user 5) none (.includeLD 0 [])]

theorem timersExample_proper : timersExample.Proper := by
  refine ⟨by decide, by decide, ?_, ?_⟩
  · intro n i h
    simp only [timersExample] at h
    split at h
    · rename_i hn; subst hn; decide
    · cases h
  · intro i h
    simp [timersExample] at h

/-- What a timer has kept stays, while other entities are visited, … -/
theorem C112_kept_while_visiting (P : Prog) (O : Oracle) (n : Nat) (es : List Entity) (c c' : Ctx) (r : Res (List Fut))
    (h : visitList (visit P O n) es c = some (c', r)) (a : ActId) (hx : c'.trace.count a = c.trace.count a) :
    c'.captured.lookup a = c.captured.lookup a :=
  (visitList_hist (visit_hist n) es c c' r h).lookup hx

/-- … and whatever the service does, until the timer is executed again. -/
theorem C112_kept_until_fired (P : Prog) (O : Oracle) (ls : List Label) (s s' : Svc) (h : s.Reaches P O ls s') (a : ActId)
    (hx : s'.ctx.trace.count a = s.ctx.trace.count a) : s'.ctx.captured.lookup a = s.ctx.captured.lookup a :=
  (steps_hist ls h).lookup hx

/-- The launch up to the state in which the timer waits. -/
def timerLabels : List Label := [.emit (.includeDesc 0), .start false, .check, .process 20, .wake, .check]

example : ((Svc.init []).steps (timerProg.withTimers timersExample) sampleOracle timerLabels).map
    (fun s => ((s.ctx.captured.lookup (.user 10)).map fun d => (d.get? "current_launch_file_directory", d.get? "event"),
      (decide (2 ∈ s.ctx.handlers), s.ctx.trace.count (.user 10)))) =
    some (some (some (.str "/a"), some (.event (.includeDesc 0))), (true, 1)) := by decide +kernel

theorem handler_visits {P : Prog} {T : Timers} (hT : T.Proper) {O : Oracle} {fuel : Nat} {e : Event} {i : Nat} (hi : T.timerOf e = some i)
    {s s' : Proc} {r} (hok : LocOK s.ctx)
    (h : handleOne (P.withTimers T).withService O fuel e T.handler s = some (s', r)) :
    ∃ (m : Nat) (c c' : Ctx) (r' : Res (List Fut)), visitList (visit (P.withTimers T).withService O m) (T.actions i) c = some (c', r') ∧
      (∀ d, s.ctx.captured.lookup (T.ident i) = some d → c.SeesAll d) ∧ Hist s.ctx c ∧ Hist c c' ∧ c.lc = s.ctx.lc ∧ c.env = s.ctx.env ∧ Ctx.Between s.ctx c s'.ctx ∧ c'.trace = s'.ctx.trace ∧ c'.logged = s'.ctx.logged := by
  generalize hdd : (s.ctx.captured.lookup (T.ident i)).getD [] = d
  obtain ⟨hn0, hn1⟩ := hT.handler
  have honce : (P.withTimers T).withService.once T.handler = false := by simp [Prog.withService, Prog.withTimers, hn0, hn1]
  have hcb : ∀ c, (P.withTimers T).withService.callback T.handler e c = { result := .ok [.act T.helper none (.custom T.opq [] [])] } := by
    intro c; simp [Prog.withService, Prog.withTimers, hn0, hn1]
  have hall := handleOne_hist h
  unfold handleOne at h
  have hb : baseHandle (P.withTimers T).withService e T.handler { s.ctx with locals := s.ctx.locals.push } =
      ({ s.ctx with locals := s.ctx.locals.push.extendLocals [("event", .event e)] }, .ok ()) := by
    unfold baseHandle; simp [honce]
  rw [hb] at h
  simp only [runCallback, hn1, if_false, hcb, Entity.applyEffects, List.foldl_nil] at h
  generalize hc0 : ({ s.ctx with locals := s.ctx.locals.push.extendLocals [("event", .event e)] } : Ctx) = c0 at h
  have hl0 : c0.locals = s.ctx.locals.push.extendLocals [("event", .event e)] := by rw [← hc0]
  have ho0 : c0.locals.OK := by rw [hl0]; exact hok.1.push.extendLocals _
  have h01 : Hist s.ctx c0 := by rw [← hc0]; exact Hist.same rfl rfl rfl fun h => h.push.extendLocals _
  -- the OpaqueFunction
  cases fuel with
  | zero => simp [visitEach, visit] at h
  | succ k =>
    let c1 : Ctx := { c0 with trace := c0.trace ++ [T.helper] }
    have hev : c1.locals.getCombined.1.get? "event" = some (.event e) := by
      show c0.locals.getCombined.1.get? "event" = _
      rw [ho0.combined, Dict.get?_update _ _ _ ho0.cur, hl0]
      show ((s.ctx.locals.push.cur.update [("event", LVal.event e)]).get? "event").or _ = _
      rw [Dict.get?_update _ _ _ (by simp [Dict.Wf, Dict.keys])]
      rfl
    have hfn : (P.withTimers T).withService.fn T.opq c1 = { effects := [.extendLocals d], result := .ok (T.actions i) } := by
      rw [withService_fn hT.opq]
      have : (c1.captured.lookup (T.ident i)).getD [] = d := by rw [← hdd]; show (c0.captured.lookup _).getD _ = _; rw [← hc0]
      simp [Prog.withTimers, Timers.handle, hev, hi, this]
    let c2 : Ctx := announce (P.withTimers T).withService T.helper { c1 with locals := c1.locals.extendLocals d }
    have hent : enter (P.withTimers T).withService O k (.act T.helper none (.custom T.opq [] [])) c0 = some (c2, .ok (T.actions i)) := by
      simp only [enter, condEval, M.pure]
      show (match execute (P.withTimers T).withService O k T.helper (.custom T.opq [] []) c1 with
        | none => none
        | some (c2, r) => some (announce (P.withTimers T).withService T.helper c2, r)) = _
      simp only [execute, hfn]
      rfl
    have ha : c2.locals = c1.locals.extendLocals d ∧ c2.lc = c0.lc ∧ c2.env = c0.env := by
      show (announce _ _ _).locals = _ ∧ (announce _ _ _).lc = _ ∧ (announce _ _ _).env = _
      unfold announce; split
      · split <;> exact ⟨rfl, rfl, rfl⟩
      · exact ⟨rfl, rfl, rfl⟩
    have hdw : ∀ d, s.ctx.captured.lookup (T.ident i) = some d → d.Wf := by
      intro d hd
      have : (T.ident i, d) ∈ s.ctx.captured := by
        clear h hent hall hdd
        generalize s.ctx.captured = l at hd
        induction l with
        | nil => simp at hd
        | cons p l ih =>
          obtain ⟨b, x⟩ := p
          by_cases hbe : T.ident i = b
          · subst hbe
            have : some x = some d := by simpa using hd
            cases this; simp
          · have hb' : (T.ident i == b) = false := by simpa using hbe
            have h2 : (match T.ident i == b with | true => some x | false => List.lookup (T.ident i) l) = some d := hd
            rw [hb'] at h2
            exact List.mem_cons_of_mem _ (ih h2)
      exact hok.2 _ this
    have hsees : ∀ d, s.ctx.captured.lookup (T.ident i) = some d → c2.SeesAll d := by
      intro d' hd k v hv
      have hw := hdw d' hd
      have : d' = d := by rw [← hdd, hd]; rfl
      subst this
      have ho2 : c2.locals.OK := by rw [ha.1]; exact ho0.extendLocals d'
      unfold Ctx.sees
      rw [ho2.combined, Dict.get?_update _ _ _ ho2.cur, ha.1]
      show ((c1.locals.cur.update d').get? k).or _ = _
      rw [Dict.get?_update _ _ _ hw, hv]
      rfl
    have h12 := enter_hist hent
    simp only [visitEach, visit, hent] at h
    cases hv : visitList (visit (P.withTimers T).withService O k) (T.actions i) c2 with
    | none => rw [hv] at h; simp at h
    | some y =>
      obtain ⟨c3, r3⟩ := y
      have h23 := visitList_hist (visit_hist k) _ _ _ _ hv
      rw [hv] at h
      refine ⟨k, c2, c3, r3, hv, hsees, h01.trans h12, h23, by rw [ha.2.1, ← hc0], by rw [ha.2.2, ← hc0], ?_⟩
      have fin : c3.trace = s'.ctx.trace ∧ c3.logged = s'.ctx.logged := by
        cases r3 with
        | error err => simp at h; rw [← h.1]; exact ⟨rfl, rfl⟩
        | ok fs =>
          simp at h
          split at h
          · simp at h; rw [← h.1]; exact ⟨rfl, rfl⟩
          · simp at h; rw [← h.1]; exact ⟨rfl, rfl⟩
      obtain ⟨⟨b1, b2⟩, ⟨b3, b4⟩⟩ := (h01.trans h12).between h23
      exact ⟨⟨⟨b1, fin.1 ▸ b2⟩, ⟨b3, fin.2 ▸ b4⟩⟩, fin⟩

theorem handlers_visit {P : Prog} {T : Timers} (hT : T.Proper) {O : Oracle} {fuel : Nat} {e : Event} {i : Nat} (hi : T.timerOf e = some i) :
    ∀ (hs : List Nat) {s s' : Proc} {r}, LocOK s.ctx → handleAll (P.withTimers T).withService O fuel e hs s = some (s', r) →
      (∃ t, s'.calls = s.calls ++ t ∧ (e, T.handler) ∈ t) →
      ∃ (m : Nat) (c c' : Ctx) (r' : Res (List Fut)), visitList (visit (P.withTimers T).withService O m) (T.actions i) c = some (c', r') ∧
        (∀ d, s.ctx.captured.lookup (T.ident i) = some d → c.trace.count (T.ident i) = s.ctx.trace.count (T.ident i) → c.SeesAll d) ∧
        Ctx.Between s.ctx c s'.ctx ∧ c'.trace <+: s'.ctx.trace ∧ c'.logged <+: s'.ctx.logged
  | [], s, s', r, _, h, hc => by
    simp [handleAll] at h
    obtain ⟨t, ht, hm⟩ := hc
    rw [← h.1] at ht
    have : t = [] := by simpa using ht
    subst this; simp at hm
  | k :: hs, s, s', r, hok, h, hc => by
    unfold handleAll at h
    split at h
    · rename_i hmatch
      by_cases hk : k = T.handler
      · subst hk
        cases h1 : handleOne (P.withTimers T).withService O fuel e T.handler s with
        | none => rw [h1] at h; simp at h
        | some x =>
          obtain ⟨s1, r1⟩ := x
          obtain ⟨m, c, c', r', g1, g2, g3, g4, _, _, g5, g6, g7⟩ := handler_visits hT hi hok h1
          have hrest : Hist s1.ctx s'.ctx := by
            rw [h1] at h
            cases r1 with
            | error err => simp at h; rw [← h.1]; exact Hist.refl _
            | ok u => exact handleAll_hist hs h
          obtain ⟨t, _, g, e1, _, _, e2⟩ := hrest.grows
          have p1 : s1.ctx.trace <+: s'.ctx.trace := ⟨t, e1.symm⟩
          have p2 : s1.ctx.logged <+: s'.ctx.logged := ⟨g, e2.symm⟩
          exact ⟨m, c, c', r', g1, fun d hd _ => g2 d hd, ⟨⟨g5.executed.1, g5.executed.2.trans p1⟩, ⟨g5.logged.1, g5.logged.2.trans p2⟩⟩,
            g6 ▸ p1, g7 ▸ p2⟩
      · cases h1 : handleOne (P.withTimers T).withService O fuel e k s with
        | none => rw [h1] at h; simp at h
        | some x =>
          obtain ⟨s1, r1⟩ := x
          have hh1 := handleOne_hist h1
          obtain ⟨_, ⟨u, hu, hcalls⟩, _⟩ := handleOne_facts h1
          have hnot : (e, T.handler) ∉ u := fun hm => by
            have := hu.subset hm
            simp at this
            exact hk this.symm
          rw [h1] at h
          cases r1 with
          | error err =>
            simp at h
            obtain ⟨t, ht, hm⟩ := hc
            rw [← h.1, hcalls] at ht
            rw [List.append_cancel_left ht] at hnot
            exact absurd hm hnot
          | ok v =>
            simp only at h
            obtain ⟨_, ⟨t2, _, hc2⟩, _⟩ := handleAll_facts hs h
            have hc' : ∃ t, s'.calls = s1.calls ++ t ∧ (e, T.handler) ∈ t := by
              obtain ⟨t, ht, hm⟩ := hc
              refine ⟨t2, hc2, ?_⟩
              rw [hc2, hcalls, List.append_assoc] at ht
              rw [← List.append_cancel_left ht] at hm
              exact (List.mem_append.mp hm).resolve_left hnot
            obtain ⟨m, c, c', r', g1, g2, g3, g4, g5⟩ := handlers_visit hT hi hs (hh1.ok hok) h hc'
            obtain ⟨t, q, g, e1, e2, e3, e4⟩ := hh1.grows
            have p1 : s.ctx.trace <+: s1.ctx.trace := ⟨t, e1.symm⟩
            have p2 : s.ctx.logged <+: s1.ctx.logged := ⟨g, e4.symm⟩
            refine ⟨m, c, c', r', g1, fun d hd hcount => ?_, ⟨⟨p1.trans g3.executed.1, g3.executed.2⟩, ⟨p2.trans g3.logged.1, g3.logged.2⟩⟩, g4, g5⟩
            have l1 := p1.sublist.count_le (T.ident i)
            have l2 := g3.executed.1.sublist.count_le (T.ident i)
            have hsame : s1.ctx.trace.count (T.ident i) = s.ctx.trace.count (T.ident i) := by omega
            exact g2 d (by rw [hh1.lookup hsame]; exact hd) (by omega)
    · exact handlers_visit hT hi hs hok h hc

/-- When the timer has fired and the general handler for TimerEvents is called, the timer's actions are visited in a context in which
everything is visible that the timer has kept, unless it was executed again in the meantime.

Missing (see the `violated` theorems): launch configurations and the environment are not kept, event handlers other than the timers' keep
nothing, and the local `event` is the kept one, too, not the TimerEvent. -/
theorem C112_timer_actions_partial (P : Prog) (T : Timers) (hT : T.Proper) (O : Oracle) (env : Dict String) (ls0 ls : List Label) (fuel : Nat)
    (s0 s s' : Svc) (h0 : (Svc.init env).Reaches (P.withTimers T) O ls0 s0) (hr : s0.Reaches (P.withTimers T) O ls s)
    (e : Event) (q : List Event) (hq : s.ctx.queue = e :: q) (i : Nat) (hi : T.timerOf e = some i)
    (h : s.step (P.withTimers T) O (.process fuel) = some s')
    (hcall : ∃ t, s'.calls = s.calls ++ t ∧ (e, T.handler) ∈ t) :
    ∃ (m : Nat) (c c' : Ctx) (r : Res (List Fut)),
      visitList (visit (P.withTimers T).withService O m) (T.actions i) c = some (c', r) ∧
      Ctx.Between s.ctx c s'.ctx ∧ c'.trace <+: s'.ctx.trace ∧ c'.logged <+: s'.ctx.logged ∧
      (∀ d, s0.ctx.captured.lookup (T.ident i) = some d → c.trace.count (T.ident i) = s0.ctx.trace.count (T.ident i) → c.SeesAll d) := by
  have hh := steps_hist ls hr
  have hok : LocOK s.ctx := hh.ok ((steps_hist ls0 h0).ok (init_locOK env))
  simp only [Svc.step] at h
  split at h
  · unfold Svc.process at h
    rw [hq] at h
    simp only at h
    split at h
    · cases h
    · rename_i p r hp
      simp only [Option.some.injEq] at h
      subst h
      obtain ⟨m, c, c', r', g1, g2, g3, g4, g5⟩ := handlers_visit (s := ⟨{ s.ctx with queue := q }, s.pairs, s.shutting, s.calls⟩) hT hi _ hok hp hcall
      refine ⟨m, c, c', r', g1, ⟨g3.executed, g3.logged⟩, g4, g5, fun d hd hcount => ?_⟩
      obtain ⟨t, _, _, e1, _, _, _⟩ := hh.grows
      have l1 : s0.ctx.trace.count (T.ident i) ≤ s.ctx.trace.count (T.ident i) := by rw [e1, List.count_append]; omega
      have l2 : s.ctx.trace.count (T.ident i) ≤ c.trace.count (T.ident i) := g3.executed.1.sublist.count_le _
      have hsame : s.ctx.trace.count (T.ident i) = s0.ctx.trace.count (T.ident i) := by omega
      exact g2 d ((hh.lookup hsame).trans hd) (by show _ = s.ctx.trace.count _; omega)
  · cases h

/-- The timer's handler is called in the step, and the directory of the file is logged. -/
example : ((Svc.init []).steps (timerProg.withTimers timersExample) sampleOracle (timerLabels ++ [.emit (.user 7), .process 20])).map
    (fun s => (s.calls.contains (.user 7, 2), s.ctx.logged, s.ctx.trace.count (.user 10))) =
    some (true, ["/a", "outer"], 1) := by decide +kernel

/-- The launch configurations of the place where the timer stands are not kept: the timer stands in a scoped group in which `foo` is
`inner`, and its actions see `outer`. -/
theorem C112_configuration_violated : ∃ (P : Prog) (T : Timers) (ls : List Label) (s : Svc), T.Proper ∧
    (Svc.init []).Reaches (P.withTimers T) sampleOracle ls s ∧ P.source 0 = timerProg.source 0 ∧
    T.actions 0 = [.act (.user 20) none (.logInfo [.thisLaunchFileDir]), .act (.user 21) none (.logInfo [.launchConfig [.text "foo"] none]),
      .act (.user 22) none (.custom 3 [] [])] ∧
    s.ctx.logged = ["/a", "outer"] := by
  have key : ((Svc.init []).steps (timerProg.withTimers timersExample) sampleOracle (timerLabels ++ [.emit (.user 7), .process 20])).map
    (fun s => s.ctx.logged) = some ["/a", "outer"] := by decide +kernel
  obtain ⟨s, hs, hl⟩ := Option.map_eq_some_iff.mp key
  exact ⟨timerProg, timersExample, _, s, timersExample_proper, hs, rfl, rfl, hl⟩

/-- The local `event` the timer's actions see is not the TimerEvent but the one that was handled when the timer was executed. -/
theorem C112_event_violated : ∃ (P : Prog) (T : Timers) (ls : List Label) (s : Svc), T.Proper ∧
    (Svc.init []).Reaches (P.withTimers T) sampleOracle ls s ∧ (∀ c, P.fn 3 c = { effects := [.setLC "timer event" (if c.sees "event" = some (.event (.user 7)) then "yes" else "no")] }) ∧
    T.timerOf (.user 7) = some 0 ∧ (.user 7, T.handler) ∈ s.calls ∧ ActId.user 22 ∈ s.ctx.trace ∧ s.ctx.lc.get? "timer event" = some "no" := by
  have key : ((Svc.init []).steps (timerProg.withTimers timersExample) sampleOracle (timerLabels ++ [.emit (.user 7), .process 20])).map
    (fun s => (decide ((Event.user 7, 2) ∈ s.calls), decide (ActId.user 22 ∈ s.ctx.trace), s.ctx.lc.get? "timer event")) = some (true, true, some "no") := by
    decide +kernel
  obtain ⟨s, hs, hl⟩ := Option.map_eq_some_iff.mp key
  simp at hl
  exact ⟨timerProg, timersExample, _, s, timersExample_proper, hs, fun c => rfl, rfl, hl.1, hl.2.1, hl.2.2⟩

/-- The actions of other event handlers are not executed in the surroundings of their registration: `$(dirname)` in a handler
registered in the file `/a/x.launch.py` raises, and nothing is logged. -/
theorem C112_handler_violated : ∃ (P : Prog) (T : Timers) (ls : List Label) (s s' : Svc), T.Proper ∧
    (Svc.init []).Reaches (P.withTimers T) sampleOracle ls s ∧ 3 ∈ s.ctx.handlers ∧
    (∀ e c, P.callback 3 e c = { result := .ok [.act (.user 40) none (.logInfo [.thisLaunchFileDir])] }) ∧
    s.step (P.withTimers T) sampleOracle (.process 20) = some s' ∧ (.user 8, 3) ∈ s'.calls ∧ s'.evFailed = true ∧ s.evFailed = false ∧ s'.ctx.logged = [] := by
  have key : ((Svc.init []).steps (timerProg.withTimers timersExample) sampleOracle (timerLabels ++ [.emit (.user 8)])).map
    (fun s => (decide (3 ∈ s.ctx.handlers), s.evFailed)) = some (true, false) := by decide +kernel
  have key' : (((Svc.init []).steps (timerProg.withTimers timersExample) sampleOracle (timerLabels ++ [.emit (.user 8)])).bind
    fun s => s.step (timerProg.withTimers timersExample) sampleOracle (.process 20)).map
      (fun s' => (decide ((Event.user 8, 3) ∈ s'.calls), s'.evFailed, s'.ctx.logged)) = some (true, true, []) := by decide +kernel
  obtain ⟨s, hs, hl⟩ := Option.map_eq_some_iff.mp key
  rw [hs] at key'
  obtain ⟨s', hs', hl'⟩ := Option.map_eq_some_iff.mp key'
  simp only [Prod.mk.injEq, decide_eq_true_eq] at hl hl'
  exact ⟨timerProg, timersExample, _, s, s', timersExample_proper, hs, hl.1, fun _ _ => rfl, hs', hl'.1, hl'.2.1, hl.2, hl'.2.2⟩

end Verif
