import Verif.Props.Service
import Verif.Props.Actions

/-! # C71 forwarding groups; C72 a Shutdown event shuts the run down; C73 handlers are those registered and not removed -/

namespace Verif

/-- C71: the contents of a forwarding scoped group are visited from a context that has the configurations and the environment of the enclosing scope, with the group's own
entries assigned on top, one after another, before the contents. -/
theorem C71_forwarding_group (P : Prog) (O : Oracle) (n : Nat) (id : ActId) (cfg : List (List Sub × List Sub)) (as : List Entity) (c c' : Ctx) (fs : List Fut)
    (h : visit P O (n + 2) (.act id none (.group true true cfg as)) c = some (c', .ok fs)) :
    ∃ c0 c1 c2 gs, c0.lc = c.lc ∧ c0.env = c.env ∧ c0.locals = c.locals ∧ c0.lcStack = c.lc :: c.lcStack ∧ Assigns O cfg c0 c1 ∧
      visitList (visit P O (n + 1)) as c1 = some (c2, .ok gs) := by
  obtain ⟨cg, subs, gs, hx, hvl⟩ := visit_simple_ok h
  simp [execute] at hx
  obtain ⟨hcg, rfl⟩ := hx
  have vg : (announce P id cg).view = c.view := by rw [announce_view, ← hcg]; rfl
  have e1 : Entity.groupSubEntities id true true cfg as =
      .act (.derived id 0) none .pushLC :: .act (.derived id 1) none .pushEnv ::
      (Entity.setActions id 4 cfg ++ (as ++ [.act (.derived id 2) none .popEnv, .act (.derived id 3) none .popLC])) := by
    simp [Entity.groupSubEntities]
  rw [e1] at hvl
  generalize announce P id cg = a0 at vg hvl
  obtain ⟨a1, _, _, v1, hvl, _⟩ := visitList_cons_ok hvl
  obtain ⟨a2, _, _, v2, hvl, _⟩ := visitList_cons_ok hvl
  obtain ⟨a3, gs3, _, v3, hvl, _⟩ := visitList_append_ok hvl
  obtain ⟨a4, gs4, _, v4, _, _⟩ := visitList_append_ok hvl
  have w1 := visit_pushLC_view v1
  have w2 := visit_pushEnv_view v2
  rw [vg] at w1
  rw [w1] at w2
  refine ⟨a2, a3, a4, gs4, ?_, ?_, ?_, ?_, C10_arguments_set_in_order P O n id cfg 4 a2 a3 gs3 v3, v4⟩
  · exact congrArg View.lc w2
  · exact congrArg View.env w2
  · exact congrArg View.locals w2
  · have := congrArg View.lcStack w2
    have l0 : a0.lc = c.lc := congrArg View.lc vg
    have l1 : a0.lcStack = c.lcStack := congrArg View.lcStack vg
    rw [← l0, ← l1]
    exact this

example : (visit {} sampleOracle 4 (.act (.user 0) none (.group true true [([.text "a"], [.text "1"])] [])) { lc := [("b", "0")] }).succeeds = true := by
  decide +kernel

/-! ## C73 -/

/-- C73: in every state of every service a handler is registered exactly as often as it was registered and not removed (by unregistering or, for handle_once handlers, by
being run). -/
theorem C73_handlers_balance (P : Prog) (O : Oracle) (env : Dict String) (ls : List Label) (s : Svc) (h : (Svc.init env).Reaches P O ls s) (k : Nat) :
    s.ctx.handlers.count k + s.ctx.unregistered.count k = s.ctx.registered.count k := by
  have := (steps_mono (P := P) h).kept k
  have e : (Svc.init env).ctx.handlers.count k = (Svc.init env).ctx.registered.count k := by
    simp [Svc.init, Ctx.registerHandler, List.count_cons]
    omega
  have e2 : (Svc.init env).ctx.unregistered.count k = 0 := rfl
  omega

/-- C73: a handler, once registered, is there until it is removed. -/
theorem C73_stays (P : Prog) (O : Oracle) (s s' : Svc) (ls : List Label) (h : s.Reaches P O ls s') (k : Nat) (hk : k ∈ s.ctx.handlers)
    (hn : s'.ctx.unregistered.count k = s.ctx.unregistered.count k) : k ∈ s'.ctx.handlers := by
  have h1 := (steps_mono (P := P) h).kept k
  have h3 : 0 < s.ctx.handlers.count k := List.count_pos_iff.2 hk
  have h4 : s.ctx.registered.count k ≤ s'.ctx.registered.count k := h1.2.1
  exact List.count_pos_iff.1 (by omega)

/-! ## C72 -/

/-- C72: whoever emits a Shutdown event: when the service has processed it, the run is shutting down and the context says so; or the processing raised an exception, and then that is so
(or the run is ending) as soon as the service looks at the outcome.  Here the service's own handler was not removed. -/
theorem C72_shutdown_event (P : Prog) (O : Oracle) (env : Dict String) (ls : List Label) (s s' : Svc) (h0 : (Svc.init env).Reaches P O ls s)
    (hun : shutdownHandler ∉ s.ctx.unregistered) (reason : String) (sig : Bool) (q : List Event) (hq : s.ctx.queue = .shutdown reason sig :: q)
    (fuel : Nat) (h : s.step P O (.process fuel) = some s') :
    (s'.shutting = true ∧ s'.ctx.isShutdown = true) ∨
    (s'.evFailed = true ∧ ∃ s2, s'.step P O .wake = some s2 ∧ (s2.pc = .ending ∨ (s2.shutting = true ∧ s2.ctx.isShutdown = true))) := by
  have hreg : shutdownHandler ∈ s.ctx.handlers := by
    have h1 := C73_handlers_balance P O env ls s h0 shutdownHandler
    have h2 : s.ctx.unregistered.count shutdownHandler = 0 := List.count_eq_zero.2 hun
    have h3 := ((steps_mono (P := P) h0).kept shutdownHandler).2.1
    have h4 : 0 < (Svc.init env).ctx.registered.count shutdownHandler := by simp [Svc.init, Ctx.registerHandler, shutdownHandler, includeHandler]
    exact List.count_pos_iff.1 (by omega)
  simp only [Svc.step] at h
  split at h
  · rename_i hw
    simp only [Bool.and_eq_true] at hw
    obtain ⟨e, q', p, r, hq', hp, rfl⟩ := process_inv h
    rw [hq] at hq'
    simp only [List.cons.injEq] at hq'
    obtain ⟨rfl, rfl⟩ := hq'
    obtain ⟨_, _, hok⟩ := handleAll_facts _ hp
    cases r with
    | ok u =>
      obtain ⟨_, _, _, h4, h5⟩ := hok rfl
      have hin : shutdownHandler ∈ s.ctx.handlers.filter (P.withService.matchesEv · (.shutdown reason sig)) := by
        rw [List.mem_filter]
        exact ⟨hreg, by simp [Prog.withService, shutdownHandler, includeHandler, Event.isShutdown]⟩
      left
      refine ⟨?_, ?_⟩
      · show p.shutting = true
        rw [h4]; simp [hin]
      · show p.ctx.isShutdown = true
        rw [h5]; simp [hin]
    | error err =>
      right
      refine ⟨by simp, ?_⟩
      cases hpc : s.pc with
      | waiting fs =>
        simp only [Svc.step, hpc, Svc.wake]
        by_cases hc : FutRes.cancelled ∈ fs.filterMap fun f => s.fin.lookup f
        · simp [hc]
        · simp only [hc, if_false]
          refine ⟨_, by simp; rfl, .inr ?_⟩
          simp [Svc.request, Svc.setFlags]
      | off => simp [hpc, Pc.isWaiting] at hw
      | top => simp [hpc, Pc.isWaiting] at hw
      | ending => simp [hpc, Pc.isWaiting] at hw
  · cases h

example : ((Svc.init []).steps {} sampleOracle [.emit (.shutdown "bye" false), .start false, .check, .process 3]).map
    (fun s => (s.shutting, s.ctx.isShutdown, s.ctx.unregistered)) = some (true, true, []) := by decide +kernel

/-! ## C73 unregistering -/

/-- C73: unregistering a handler removes the first place it has in the list and changes nothing else of it; for a handler that is not registered it raises ValueError and
changes nothing. -/
theorem C73_unregister (P : Prog) (O : Oracle) (n : Nat) (id : ActId) (h : Nat) (c : Ctx) :
    (∀ before after, c.handlers = before ++ h :: after → h ∉ before →
      ∃ c', execute P O n id (.unregisterHandler h) c = some (c', .ok []) ∧ c'.handlers = before ++ after ∧ c'.lc = c.lc ∧ c'.env = c.env ∧ c'.queue = c.queue) ∧
    (h ∉ c.handlers → execute P O n id (.unregisterHandler h) c = some (c, .error .valueError)) := by
  constructor
  · intro b a hh hb
    have hm : h ∈ c.handlers := by rw [hh]; simp
    refine ⟨(c.unregisterHandler h).1, ?_, ?_, ?_, ?_, ?_⟩
    · simp [execute, Ctx.unregisterHandler, hm, Except.map]
    · simp only [Ctx.unregisterHandler, if_pos hm]
      rw [hh, List.erase_append_right _ hb, List.erase_cons_head]
    all_goals simp [Ctx.unregisterHandler, hm]
  · intro hn
    simp [execute, Ctx.unregisterHandler, hn, Except.map]

/-- Handler 3 is registered twice. -/
example : ({ (default : Ctx) with handlers := [2, 3, 4, 3] }).handlers = [2] ++ 3 :: [4, 3] ∧ 3 ∉ [2] := ⟨rfl, by decide⟩

end Verif
