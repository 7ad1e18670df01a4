import Verif.Lemmas.Scope

/-!
# Properties C01-C05: scopes
-/

namespace Verif

/-! ## C01 -/

/-- C01: visiting a scoped group (forwarding or not, with any configurations, condition and contents)
to completion leaves the launch configurations and the environment exactly as they were after its
condition was evaluated, and the enclosing scopes untouched.  The condition itself changes neither,
except that AnonName in it may add a memo entry (C13_effects). -/
theorem C01_scoped_group_restores (P : Prog) (O : Oracle) (hP : P.Balanced) (n : Nat) (id : ActId)
    (cond : Option Cond) (forwarding : Bool) (cfg : List (List Sub × List Sub)) (as : List Entity)
    (c c' : Ctx) (fs : List Fut) (hb : balancedFrom 0 0 as = true) (hwf : c.env.Wf)
    (h : visit P O n (.act id cond (.group true forwarding cfg as)) c = some (c', .ok fs)) :
    c'.lc = (condEval O P.preds cond c).1.lc ∧ c'.env = c.env ∧
    c'.lcStack = c.lcStack ∧ c'.envStack = c.envStack := by
  cases n with
  | zero => simp [visit] at h
  | succ n =>
    obtain ⟨c1, subs, gs, hent, hvl, _⟩ := visit_ok h
    simp only [enter] at hent
    have hf := condEval_frames O P.preds cond c
    cases hc : condEval O P.preds cond c with
    | mk c0 r0 =>
      rw [hc] at hent hf
      have henv : c0.env = c.env := by have h1 : c0 = _ := hf.rest; rw [h1]
      have hst : SameStacks c c0 := hf.stacks
      cases r0 with
      | error e => simp at hent
      | ok b =>
        cases b with
        | false =>
          simp at hent
          obtain ⟨rfl, rfl⟩ := hent
          have := visitList_nil_ok hvl
          subst this
          exact ⟨rfl, henv, hst.lc, hst.env⟩
        | true =>
          simp only [execute] at hent
          simp at hent
          obtain ⟨hc1, rfl⟩ := hent
          have hann := announce_lc_env P id { c0 with trace := c0.trace ++ [id] }
          have hlc1 : c1.lc = c0.lc := by rw [← hc1]; exact hann.1
          have henv1 : c1.env = c0.env := by rw [← hc1]; exact hann.2
          have hst1 : SameStacks c0 c1 := by
            rw [← hc1]
            exact (trace_step c0 [id]).toSameStacks.trans (announce_step P id _).toSameStacks
          have key : c'.lc = c1.lc ∧ c'.env = Dict.update [] c1.env ∧ SameStacks c1 c' := by
            cases forwarding with
            | true =>
              have e1 : Entity.groupSubEntities id true true cfg as =
                [.act (.derived id 0) none .pushLC, .act (.derived id 1) none .pushEnv]
                  ++ (Entity.setActions id 4 cfg ++ as) ++
                  [.act (.derived id 2) none .popEnv, .act (.derived id 3) none .popLC] := by
                simp [Entity.groupSubEntities]
              rw [e1] at hvl
              exact bracket_restores hP (by rw [setActions_balanced]; exact hb) hvl
            | false =>
              have e1 : Entity.groupSubEntities id true false cfg as =
                [.act (.derived id 0) none .pushLC, .act (.derived id 1) none .pushEnv]
                  ++ ([.act (.derived id 4) none .resetEnv,
                       .act (.derived id 5) none (.resetLC (some cfg))] ++ as) ++
                  [.act (.derived id 2) none .popEnv, .act (.derived id 3) none .popLC] := by
                simp [Entity.groupSubEntities]
              rw [e1] at hvl
              refine bracket_restores hP ?_ hvl
              rw [List.cons_append, List.cons_append, bal_resetEnv, bal_resetLC]
              exact hb
          obtain ⟨k1, k2, k3⟩ := key
          have hw : c1.env.Wf := by rw [henv1, henv]; exact hwf
          refine ⟨by rw [k1, hlc1], ?_, ?_, ?_⟩
          · rw [k2, Dict.update_nil_eq hw, henv1, henv]
          · rw [k3.lc, hst1.lc, hst.lc]
          · rw [k3.env, hst1.env, hst.env]

/-- C01 for a group without a condition: exactly the configurations and environment from before. -/
theorem C01_unconditional (P : Prog) (O : Oracle) (hP : P.Balanced) (n : Nat) (id : ActId)
    (forwarding : Bool) (cfg : List (List Sub × List Sub)) (as : List Entity)
    (c c' : Ctx) (fs : List Fut) (hb : balancedFrom 0 0 as = true) (hwf : c.env.Wf)
    (h : visit P O n (.act id none (.group true forwarding cfg as)) c = some (c', .ok fs)) :
    c'.lc = c.lc ∧ c'.env = c.env :=
  have := C01_scoped_group_restores P O hP n id none forwarding cfg as c c' fs hb hwf h
  ⟨this.1, this.2.1⟩

/-- A program whose opaque function 7 sets a configuration and an environment variable and returns a nested
description. -/
def sampleProg : Prog where
  fn f _ := if f = 7 then
      { effects := [.setLC "a" "9", .setEnv "E" "9"]
        result := .ok [.desc [.act (.user 30) none (.unsetLC [.text "a"])]] }
    else {}

theorem sampleProg_balanced : sampleProg.Balanced where
  fn f c es h := by
    unfold sampleProg at h
    simp only at h
    split at h
    · cases h; decide
    · cases h; decide
  load s l es h := by cases h

/-- The hypotheses of C01 are met by a group with nested groups, an opaque function, and explicit
scope actions. -/
def sampleGroup : List Entity :=
  [.act (.user 1) none (.setLC [.text "a"] [.text "1"]),
   .act (.user 2) none .pushEnv,
   .act (.user 3) (some (.ifC [.launchConfig [.text "a"] none])) (.custom 7 [] []),
   .act (.user 4) none .popEnv,
   .act (.user 5) none (.group true false [([.text "x"], [.text "y"])]
     [.act (.user 6) none (.setEnv [.text "E"] [.text "2"])])]

example : balancedFrom 0 0 sampleGroup = true := by decide

example : (visit sampleProg sampleOracle 10
    (.act (.user 0) none (.group true true [([.text "b"], [.text "2"])] sampleGroup))
    { lc := [("a", "0")], env := [("E", "0")] }).succeeds = true := by
  decide +kernel

/-! ## C02 -/

/-- C02 (partial): the contents of a non-forwarding scoped group are visited from a context whose
configurations are exactly the group's performed entries (nothing else) and whose environment is the
one the context had when it was created.  The entries are performed with the configurations of the
enclosing scope.  Missing for the full property: they are performed with the *reset* environment, not
the one of the enclosing scope; see `C02_environment_violated`. -/
theorem C02_clean_slate_partial (P : Prog) (O : Oracle) (n : Nat) (id : ActId)
    (cfg : List (List Sub × List Sub)) (as : List Entity) (c c' : Ctx) (fs : List Fut)
    (hwf : c.envReset.Wf)
    (h : visit P O (n + 1) (.act id none (.group true false cfg as)) c = some (c', .ok fs)) :
    ∃ c0 c1 c2 ps gs,
      (c0.lc = c.lc ∧ c0.locals = c.locals ∧ c0.rng = c.rng ∧ c0.env = c.envReset) ∧
      (performPairs O cfg c0).2 = .ok ps ∧
      (∀ k, c1.lc.get? k = lastValue ps k) ∧ c1.env = c.envReset ∧
      visitList (visit P O n) as c1 = some (c2, .ok gs) := by
  obtain ⟨cg, subs, gs, hx, hvl⟩ := visit_simple_ok h
  simp [execute] at hx
  obtain ⟨hcg, rfl⟩ := hx
  have vg : (announce P id cg).view = c.view := by rw [announce_view, ← hcg]; rfl
  have e1 : Entity.groupSubEntities id true false cfg as =
      .act (.derived id 0) none .pushLC :: .act (.derived id 1) none .pushEnv ::
      .act (.derived id 4) none .resetEnv :: .act (.derived id 5) none (.resetLC (some cfg)) ::
      (as ++ [.act (.derived id 2) none .popEnv, .act (.derived id 3) none .popLC]) := by
    simp [Entity.groupSubEntities]
  rw [e1] at hvl
  generalize announce P id cg = a0 at vg hvl
  obtain ⟨a1, _, _, v1, hvl, _⟩ := visitList_cons_ok hvl
  obtain ⟨a2, _, _, v2, hvl, _⟩ := visitList_cons_ok hvl
  obtain ⟨a3, _, _, v3, hvl, _⟩ := visitList_cons_ok hvl
  obtain ⟨a4, _, _, v4, hvl, _⟩ := visitList_cons_ok hvl
  obtain ⟨a5, gs5, _, v5, _, _⟩ := visitList_append_ok hvl
  have w1 := visit_pushLC_view v1
  have w2 := visit_pushEnv_view v2
  have w3 := visit_resetEnv_view v3
  obtain ⟨c3, d, hk, w4⟩ := visit_resetLC_view v4
  rw [vg] at w1
  rw [w1] at w2
  have hreset : a2.envReset = c.envReset := by
    have := congrArg View.envReset w2; exact this
  rw [w2, hreset, Dict.update_nil_eq hwf] at w3
  rw [evalKeep_eq] at hk
  simp only [M.bind, M.pure] at hk
  have hfr := performPairs_frames O cfg { a3 with trace := a3.trace ++ [ActId.derived id 5] }
  refine ⟨{ a3 with trace := a3.trace ++ [ActId.derived id 5] }, a4, a5, ?_⟩
  cases hp : performPairs O cfg { a3 with trace := a3.trace ++ [ActId.derived id 5] } with
  | mk c4 r4 =>
    rw [hp] at hk hfr
    cases r4 with
    | error e => simp at hk
    | ok ps =>
      simp at hk
      obtain ⟨rfl, hd⟩ := hk
      refine ⟨ps, gs5, ⟨congrArg View.lc w3, congrArg View.locals w3, congrArg View.rng w3,
        congrArg View.env w3⟩, rfl, ?_, ?_, v5⟩
      · intro k
        have h4 : a4.lc = Dict.update [] d := congrArg View.lc w4
        have hwd : d.Wf := by rw [← hd]; exact foldl_set_wf ps [] Dict.wf_nil
        rw [h4, Dict.update_nil_eq hwd, ← hd, foldl_set_get]
        simp [Dict.get?]
      · have h4 : a4.env = c4.env := congrArg View.env w4
        have h5 : c4.env = a3.env := by have h1 : c4 = _ := hfr.rest; rw [h1]
        rw [h4, h5]; exact congrArg View.env w3

/-- C02 is violated for entries that read the environment: with `FOO` set in the enclosing scope but not in
the environment the context was created with, the entry `x = EnvironmentVariable('FOO')` can be performed in
the enclosing scope but the group raises (group_action.py:130-132 resets the environment first). -/
theorem C02_environment_violated (P : Prog) (O : Oracle) (c : Ctx) (v : String) (hh : c.handlers = [])
    (hset : c.env.get? "FOO" = some v) (hwf : c.envReset.Wf) (hreset : c.envReset.get? "FOO" = none) :
    performSubs O [.envVar [.text "FOO"] none] c = (c, .ok v) ∧
    ∃ c', visit P O 3 (.act (.user 0) none
      (.group true false [([.text "x"], [.envVar [.text "FOO"] none])] [])) c =
        some (c', .error .substitutionFailure) := by
  constructor
  · simp [performSubs, performAll, perform, performOpt, M.bind, M.pure, joinStrs, hset]
  · simp [visit, enter, condEval, M.pure, execute, Entity.groupSubEntities, announce, Ctx.wouldHandle, hh,
      visitList, Ctx.pushLC, Ctx.pushEnv, Ctx.resetEnv, evalKeep, M.bind, performSubs, performAll, perform,
      performOpt, joinStrs, Dict.update_nil_eq hwf, hreset]

example : ∃ c : Ctx, c.handlers = [] ∧ c.env.get? "FOO" = some "1" ∧ c.envReset.Wf ∧
    c.envReset.get? "FOO" = none :=
  ⟨{ env := [("FOO", "1")] }, rfl, by decide, Dict.wf_nil, rfl⟩

example : (visit sampleProg sampleOracle 10 (.act (.user 0) none
    (.group true false [([.text "b"], [.launchConfig [.text "a"] none])] sampleGroup))
    { lc := [("a", "0")], env := [("E", "0")] }).succeeds = true := by
  decide +kernel

/-! ## C03 -/

/-- C03: visiting an unscoped group is visiting SetLaunchConfiguration actions for its entries, in order, and then
its contents, in the group's place, with the same outcome (context, collected futures, exception); beyond that the
group only records itself as executed and announces its own completion. -/
theorem C03_unscoped_transparent (P : Prog) (O : Oracle) (n : Nat) (id : ActId) (forwarding : Bool)
    (cfg : List (List Sub × List Sub)) (as : List Entity) (c : Ctx)
    (hfut : c.futures.lookup id = none) :
    visit P O (n + 1) (.act id none (.group false forwarding cfg as)) c =
      visitList (visit P O n) (Entity.setActions id 4 cfg ++ as)
        (announce P id { c with trace := c.trace ++ [id] }) := by
  have hf : (announce P id { c with trace := c.trace ++ [id] }).futures.lookup id = none := by
    have : (announce P id { c with trace := c.trace ++ [id] }).futures = c.futures := by
      unfold announce
      split
      · split <;> rfl
      · rfl
    rw [this]; exact hfut
  conv => lhs; unfold visit
  simp only [enter, condEval, M.pure, execute, Entity.groupSubEntities]
  simp only [Bool.false_eq_true, if_false, ownFuture, hf, List.nil_append]
  cases visitList (visit P O n) (Entity.setActions id 4 cfg ++ as)
    (announce P id { c with trace := c.trace ++ [id] }) with
  | none => rfl
  | some x => obtain ⟨c1, r⟩ := x; cases r <;> rfl

/-- C03: the starting point of the contents has the configurations, environment, scopes and handlers from before the
group, and the same event queue unless someone listens to the group's completion. -/
theorem C03_same_start (P : Prog) (id : ActId) (c : Ctx) (hfut : c.futures.lookup id = none) :
    let c1 := announce P id { c with trace := c.trace ++ [id] }
    c1.lc = c.lc ∧ c1.env = c.env ∧ c1.lcStack = c.lcStack ∧ c1.envStack = c.envStack ∧
    c1.handlers = c.handlers ∧ c1.locals = c.locals ∧
    (c1.queue = c.queue ∨
      (c1.queue = c.queue ++ [.executionComplete id] ∧
        ∃ h ∈ c.handlers, P.matchesEv h (.executionComplete id) = true)) := by
  by_cases hw : (c.handlers.any fun h => P.matchesEv h (.executionComplete id)) = true
  · have : announce P id { c with trace := c.trace ++ [id] } =
        ({ c with trace := c.trace ++ [id] } : Ctx).emit (.executionComplete id) := by
      simp [announce, Ctx.wouldHandle, hw, hfut]
    rw [this]
    exact ⟨rfl, rfl, rfl, rfl, rfl, rfl, .inr ⟨rfl, by simpa [List.any_eq_true] using hw⟩⟩
  · have : announce P id { c with trace := c.trace ++ [id] } = { c with trace := c.trace ++ [id] } := by
      simp [announce, Ctx.wouldHandle, hw]
    rw [this]
    exact ⟨rfl, rfl, rfl, rfl, rfl, rfl, .inl rfl⟩

/-- Each helper action sets one entry: value performed first, then the name, in the current context. -/
theorem C03_set_entry (P : Prog) (O : Oracle) (n : Nat) (id : ActId) (k v : List Sub) (c : Ctx) :
    execute P O n id (.setLC k v) c =
      match performSubs O v c with
      | (c1, .error e) => some (c1, .error e)
      | (c1, .ok vs) =>
        match performSubs O k c1 with
        | (c2, .error e) => some (c2, .error e)
        | (c2, .ok ks) => some ({ c2 with lc := c2.lc.set ks vs }, .ok []) := by
  simp only [execute, M.bind, Ctx.lcSet]
  cases performSubs O v c with
  | mk c1 r1 =>
    cases r1 with
    | error e => rfl
    | ok vs =>
      simp only
      cases performSubs O k c1 with
      | mk c2 r2 => cases r2 <;> rfl

example : (visit sampleProg sampleOracle 10 (.act (.user 0) none
    (.group false true [([.text "b"], [.launchConfig [.text "a"] none])] sampleGroup))
    { lc := [("a", "0")], env := [("E", "0")] }).succeeds = true := by
  decide +kernel

/-! ## C04 -/

theorem runScope_lc {os : List ScopeOp} : ∀ {d : Nat} {c c' : Ctx} {F B : List (Dict String)},
    lcMatched d os = true → runScope os c = (c', .ok ()) → c.lcStack = F ++ B → F.length = d →
    c'.lcStack = B := by
  induction os with
  | nil =>
    intro d c c' F B hm hr hs hl
    simp [lcMatched] at hm
    simp [runScope] at hr
    subst hm hr
    rw [hs, List.length_eq_zero_iff.mp hl]; rfl
  | cons o os ih =>
    intro d c c' F B hm hr hs hl
    cases o with
    | pushLC =>
      simp [lcMatched] at hm
      simp [runScope, ScopeOp.run] at hr
      exact ih (F := c.lc :: F) hm hr (by simp [Ctx.pushLC, hs]) (by simp [hl])
    | popLC =>
      cases d with
      | zero => simp [lcMatched] at hm
      | succ d =>
        cases F with
        | nil => simp at hl
        | cons f F =>
          simp [lcMatched] at hm
          simp [runScope, ScopeOp.run, Ctx.popLC, hs] at hr
          exact ih (F := F) hm hr rfl (by simpa using hl)
    | pushEnv =>
      simp [lcMatched] at hm
      simp [runScope, ScopeOp.run] at hr
      exact ih (F := F) hm hr (by simp [Ctx.pushEnv, hs]) hl
    | popEnv =>
      simp [lcMatched] at hm
      simp only [runScope, ScopeOp.run, Ctx.popEnv] at hr
      cases he : c.envStack with
      | nil => simp [he] at hr
      | cons e es => simp only [he] at hr; exact ih (F := F) hm hr (by simp [hs]) hl
    | modify f g =>
      simp [lcMatched] at hm
      simp [runScope, ScopeOp.run] at hr
      exact ih (F := F) hm hr (by simp [hs]) hl

theorem runScope_env {os : List ScopeOp} : ∀ {d : Nat} {c c' : Ctx} {F B : List (Dict String)},
    envMatched d os = true → runScope os c = (c', .ok ()) → c.envStack = F ++ B → F.length = d →
    c'.envStack = B := by
  induction os with
  | nil =>
    intro d c c' F B hm hr hs hl
    simp [envMatched] at hm
    simp [runScope] at hr
    subst hm hr
    rw [hs, List.length_eq_zero_iff.mp hl]; rfl
  | cons o os ih =>
    intro d c c' F B hm hr hs hl
    cases o with
    | pushEnv =>
      simp [envMatched] at hm
      simp [runScope, ScopeOp.run] at hr
      exact ih (F := c.env :: F) hm hr (by simp [Ctx.pushEnv, hs]) (by simp [hl])
    | popEnv =>
      cases d with
      | zero => simp [envMatched] at hm
      | succ d =>
        cases F with
        | nil => simp at hl
        | cons f F =>
          simp [envMatched] at hm
          simp [runScope, ScopeOp.run, Ctx.popEnv, hs] at hr
          exact ih (F := F) hm hr rfl (by simpa using hl)
    | pushLC =>
      simp [envMatched] at hm
      simp [runScope, ScopeOp.run] at hr
      exact ih (F := F) hm hr (by simp [Ctx.pushLC, hs]) hl
    | popLC =>
      simp [envMatched] at hm
      simp only [runScope, ScopeOp.run, Ctx.popLC] at hr
      cases he : c.lcStack with
      | nil => simp [he] at hr
      | cons e es => simp only [he] at hr; exact ih (F := F) hm hr (by simp [hs]) hl
    | modify f g =>
      simp [envMatched] at hm
      simp [runScope, ScopeOp.run] at hr
      exact ih (F := F) hm hr (by simp [hs]) hl

theorem runScope_append (os ps : List ScopeOp) (c c' : Ctx) (h : runScope (os ++ ps) c = (c', .ok ())) :
    ∃ c1, runScope os c = (c1, .ok ()) ∧ runScope ps c1 = (c', .ok ()) := by
  induction os generalizing c with
  | nil => exact ⟨c, rfl, h⟩
  | cons o os ih =>
    simp only [List.cons_append, runScope] at h ⊢
    cases hx : o.run c with
    | mk c1 r =>
      rw [hx] at h
      cases r with
      | error e => simp at h
      | ok u => exact ih _ h

/-- C04 (configurations): a push, any operations in which configuration pushes and pops match (whatever happens
to the environment in between), and the pop restore the pushed configurations. -/
theorem C04_configurations_restored (os : List ScopeOp) (c c' : Ctx) (hm : lcMatched 0 os = true)
    (h : runScope (.pushLC :: os ++ [.popLC]) c = (c', .ok ())) :
    c'.lc = c.lc ∧ c'.lcStack = c.lcStack := by
  obtain ⟨c1, h1, h2⟩ := runScope_append _ _ _ _ h
  simp [runScope, ScopeOp.run] at h1
  have hs := runScope_lc (F := []) (B := c.lc :: c.lcStack) hm h1 (by simp [Ctx.pushLC]) rfl
  simp [runScope, ScopeOp.run, Ctx.popLC, hs] at h2
  rw [← h2]
  exact ⟨rfl, rfl⟩

/-- C04 (environment): the same for the environment. -/
theorem C04_environment_restored (os : List ScopeOp) (c c' : Ctx) (hwf : c.env.Wf)
    (hm : envMatched 0 os = true)
    (h : runScope (.pushEnv :: os ++ [.popEnv]) c = (c', .ok ())) :
    c'.env = c.env ∧ c'.envStack = c.envStack := by
  obtain ⟨c1, h1, h2⟩ := runScope_append _ _ _ _ h
  simp [runScope, ScopeOp.run] at h1
  have hs := runScope_env (F := []) (B := c.env :: c.envStack) hm h1 (by simp [Ctx.pushEnv]) rfl
  simp [runScope, ScopeOp.run, Ctx.popEnv, hs] at h2
  rw [← h2]
  exact ⟨Dict.update_nil_eq hwf, rfl⟩

/-- C04 (independence and errors): configuration scopes never touch the environment side and conversely;
a pop without a matching push raises RuntimeError and changes nothing. -/
theorem C04_independent (c : Ctx) :
    ((c.pushLC).env = c.env ∧ (c.pushLC).envStack = c.envStack) ∧
    ((c.popLC).1.env = c.env ∧ (c.popLC).1.envStack = c.envStack) ∧
    ((c.pushEnv).lc = c.lc ∧ (c.pushEnv).lcStack = c.lcStack) ∧
    ((c.popEnv).1.lc = c.lc ∧ (c.popEnv).1.lcStack = c.lcStack) ∧
    (c.lcStack = [] → c.popLC = (c, .error .runtimeError)) ∧
    (c.envStack = [] → c.popEnv = (c, .error .runtimeError)) := by
  refine ⟨⟨rfl, rfl⟩, ?_, ⟨rfl, rfl⟩, ?_, ?_, ?_⟩
  · unfold Ctx.popLC; split <;> exact ⟨rfl, rfl⟩
  · unfold Ctx.popEnv; split <;> exact ⟨rfl, rfl⟩
  · intro h; simp [Ctx.popLC, h]
  · intro h; simp [Ctx.popEnv, h]

/-- The actions execute exactly these operations. -/
theorem C04_actions (P : Prog) (O : Oracle) (n : Nat) (id : ActId) (c : Ctx) :
    execute P O n id .pushLC c = some (c.pushLC, .ok []) ∧
    execute P O n id .pushEnv c = some (c.pushEnv, .ok []) ∧
    execute P O n id .popLC c = some ((c.popLC).1, (c.popLC).2.map fun _ => []) ∧
    execute P O n id .popEnv c = some ((c.popEnv).1, (c.popEnv).2.map fun _ => []) :=
  ⟨rfl, rfl, rfl, rfl⟩

example : (runScope [.pushLC, .pushEnv, .modify (fun d => d.set "a" "2") (fun d => d), .pushLC,
    .popEnv, .popLC, .popLC] { lc := [("a", "1")] }).1.lc = [("a", "1")] ∧
    lcMatched 0 [.pushEnv, .modify (fun d => d.set "a" "2") (fun d => d), .pushLC, .popEnv, .popLC] = true := by
  constructor <;> rfl

/-! ## C05 -/

/-- C05 (partial): if visiting a scoped group raises, the scopes that enclosed the group are still there, untouched,
at the bottom of the stacks.  Missing: the group's own scope is not removed, see
`C05_exception_leaks_scope_violated`. -/
theorem C05_outer_scopes_kept_partial (P : Prog) (O : Oracle) (hP : P.Balanced) (n : Nat) (id : ActId)
    (cond : Option Cond) (s f : Bool) (cfg : List (List Sub × List Sub)) (as : List Entity)
    (c c' : Ctx) (r : Res (List Fut)) (hb : balancedFrom 0 0 as = true)
    (h : visit P O n (.act id cond (.group s f cfg as)) c = some (c', r)) :
    (∃ X, c'.lcStack = X ++ c.lcStack) ∧ (∃ X, c'.envStack = X ++ c.envStack) := by
  have := visit_scopeOK hP n _ _ _ _ (by unfold Entity.balanced ActKind.balanced; exact hb) h
  exact ⟨this.1.lc, this.1.env⟩

/-- C05 is violated: in every context without handlers, a scoped group that sets `a` and then raises leaves `a`
set for whatever is visited later, with the group's scope still on the stack (group_action.py:117-139 pops
with ordinary actions, which are skipped when an exception passes). -/
theorem C05_exception_leaks_scope_violated (P : Prog) (O : Oracle) (c : Ctx) (hh : c.handlers = [])
    (hreq : c.lc.get? "required" = none) :
    ∃ c', visit P O 3 (.act (.user 0) none (.group true true []
        [.act (.user 1) none (.setLC [.text "a"] [.text "leaked"]),
         .act (.user 2) none (.declareArg "required" none none)])) c = some (c', .error .runtimeError) ∧
      c'.lc.get? "a" = some "leaked" ∧ c'.lcStack = c.lc :: c.lcStack := by
  have hr2 : (c.lc.set "a" "leaked").get? "required" = none := by
    rw [Dict.get?_set_ne _ _ (by decide), hreq]
  have hhas : (c.lc.set "a" "leaked").has "required" = false := by
    simp [Dict.has, hr2]
  simp [visit, enter, condEval, M.pure, execute, Entity.groupSubEntities, Entity.setActions, announce,
    Ctx.wouldHandle, hh, visitList, Ctx.pushLC, Ctx.pushEnv, M.bind, performSubs, performAll, perform,
    joinStrs, Ctx.lcSet, hhas, Dict.get?_set_self]

example : ∃ c : Ctx, c.handlers = [] ∧ c.lc.get? "required" = none ∧ c.lc.get? "a" = some "1" :=
  ⟨{ lc := [("a", "1")] }, rfl, by decide, by decide⟩

end Verif
