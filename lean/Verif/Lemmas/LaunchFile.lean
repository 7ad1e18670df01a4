import Verif.Lemmas.Sees
import Verif.Model.Build
import Verif.Spec.LaunchFile

/-! Helper lemmas for C98. -/

namespace Verif

/-- Whether the identity is that of an action of the user (not of a helper action). -/
def ActId.isUser : ActId → Bool
  | .user _ => true
  | _ => false

/-- The reason, if the event is a Shutdown event. -/
def Event.shutdownReason : Event → Option String
  | .shutdown r _ => some r
  | _ => none

/-- The world as seen in a context. -/
def stateOf (X : Objects) (c : Ctx) : FileState where
  lc := c.lc
  env := c.env
  envReset := c.envReset
  locals := c.locals
  rng := c.rng
  executed := (c.trace.filter ActId.isUser).map X.tag
  logged := c.logged
  shutdowns := c.emitted.filterMap Event.shutdownReason

/-- The locations of sources are cached only by actions that were executed. -/
def SrcInv (c : Ctx) : Prop := ∀ s l, (s, l) ∈ c.srcLoc → ActId.user s ∈ c.trace

structure Keep (c c' : Ctx) : Prop where
  lcStack : c'.lcStack = c.lcStack
  envStack : c'.envStack = c.envStack
  envReset : c'.envReset = c.envReset
  trace : ∀ a ∈ c.trace, a ∈ c'.trace
  srcLoc : ∀ s l, (s, l) ∈ c'.srcLoc → (s, l) ∈ c.srcLoc ∨ ActId.user s ∈ c'.trace
  wf : c.env.Wf → c'.env.Wf

theorem Keep.refl (c : Ctx) : Keep c c := ⟨rfl, rfl, rfl, fun _ h => h, fun _ _ h => .inl h, id⟩

theorem Keep.trans {a b c : Ctx} (h1 : Keep a b) (h2 : Keep b c) : Keep a c :=
  ⟨h2.lcStack.trans h1.lcStack, h2.envStack.trans h1.envStack, h2.envReset.trans h1.envReset, fun x hx => h2.trace x (h1.trace x hx),
    fun s l h => by
      rcases h2.srcLoc s l h with h | h
      · rcases h1.srcLoc s l h with h | h
        · exact .inl h
        · exact .inr (h2.trace _ h)
      · exact .inr h, fun h => h2.wf (h1.wf h)⟩

theorem Keep.srcInv {c c' : Ctx} (h : Keep c c') (hc : SrcInv c) : SrcInv c' := by
  intro s l hm
  rcases h.srcLoc s l hm with h' | h'
  · exact h.trace _ (hc s l h')
  · exact h'

/-- Nothing but configurations and the source of names changed. -/
def OnlyLc (c c' : Ctx) : Prop := c' = { c with lc := c'.lc, rng := c'.rng }

theorem OnlyLc.keep {c c' : Ctx} (h : OnlyLc c c') : Keep c c' := by
  rw [h]
  exact ⟨rfl, rfl, rfl, fun _ h => h, fun _ _ h => .inl h, id⟩

theorem Sees.only {α : Type} {m : M α} (hm : Sees m) {c c1 : Ctx} {r : Res α} (h : m c = (c1, r)) : OnlyLc c c1 := by
  have := hm c
  rw [h] at this
  have := congrArg Prod.fst this
  simp only at this
  unfold OnlyLc
  rw [this]

theorem Sees.evals {O : Oracle} {X : Objects} {l : List Sub} {c c1 : Ctx} {s : String} (h : performSubs O l c = (c1, .ok s)) :
    Evals O l (stateOf X c) s (stateOf X c1) := by
  have hs := performSubs_sees O l
  have ho := Sees.only hs h
  have h1 := hs.fst c
  have h2 := hs c
  rw [h] at h1 h2
  refine ⟨?_, ?_⟩
  · have e : (stateOf X c).ctx = c.visible := rfl
    have e' : (stateOf X c1).ctx = c1.visible := rfl
    rw [e, e']
    exact Prod.ext h1 (congrArg Prod.snd h2).symm
  · rw [ho]
    rfl

/-- A successful sequence of two steps. -/
theorem M.bind_ok {α β : Type} {m : M α} {f : α → M β} {c c' : Ctx} {b : β} (h : M.bind m f c = (c', .ok b)) :
    ∃ c1 a, m c = (c1, .ok a) ∧ f a c1 = (c', .ok b) := by
  unfold M.bind at h
  cases hm : m c with
  | mk c1 r =>
    rw [hm] at h
    cases r with
    | error e => simp at h
    | ok a => exact ⟨c1, a, rfl, h⟩

theorem stateOf_announce (X : Objects) (P : Prog) (id : ActId) (c : Ctx) : stateOf X (announce P id c) = stateOf X c := by
  unfold announce
  split
  · split
    · rfl
    · simp only [stateOf, Ctx.emit, List.filterMap_append]
      simp [Event.shutdownReason]
  · rfl

theorem announce_keep (P : Prog) (id : ActId) (c : Ctx) : Keep c (announce P id c) := by
  unfold announce
  split
  · split <;> exact ⟨rfl, rfl, rfl, fun _ h => h, fun _ _ h => .inl h, fun h => h⟩
  · exact Keep.refl c

/-- A helper action that yields nothing. -/
theorem visit_helper {P : Prog} {O : Oracle} {n : Nat} {id : ActId} {kind : ActKind} {c c' : Ctx} {fs : List Fut}
    (hk : ∀ n c2 subs, execute P O n id kind { c with trace := c.trace ++ [id] } = some (c2, .ok subs) → subs = [])
    (h : visit P O n (.act id none kind) c = some (c', .ok fs)) :
    ∃ n c2, execute P O n id kind { c with trace := c.trace ++ [id] } = some (c2, .ok []) ∧ c' = announce P id c2 := by
  cases n with
  | zero => simp [visit] at h
  | succ n =>
    obtain ⟨c2, subs, gs, hx, hvl⟩ := visit_simple_ok h
    have := hk n c2 subs hx
    subst this
    exact ⟨n, c2, hx, visitList_nil_ok hvl⟩

theorem stateOf_derived (X : Objects) (c : Ctx) (id : ActId) (k : Nat) : stateOf X { c with trace := c.trace ++ [.derived id k] } = stateOf X c := by
  simp [stateOf, List.filter_append, ActId.isUser]

theorem trace_keep (c : Ctx) (id : ActId) : Keep c { c with trace := c.trace ++ [id] } :=
  ⟨rfl, rfl, rfl, fun _ h => List.mem_append_left _ h, fun _ _ h => .inl h, fun h => h⟩

theorem setLC_ok {P : Prog} {O : Oracle} {n : Nat} {id : ActId} {nm v : List Sub} {c c2 : Ctx} {subs : List Entity}
    (h : execute P O n id (.setLC nm v) c = some (c2, .ok subs)) :
    subs = [] ∧ ∃ c3 vs c4 ns, performSubs O v c = (c3, .ok vs) ∧ performSubs O nm c3 = (c4, .ok ns) ∧ c2 = c4.lcSet ns vs := by
  simp only [execute, Option.some.injEq] at h
  obtain ⟨c3, vs, h1, h⟩ := M.bind_ok h
  obtain ⟨c4, ns, h2, h⟩ := M.bind_ok h
  simp only [Prod.mk.injEq, Except.ok.injEq] at h
  exact ⟨h.2.symm, c3, vs, c4, ns, h1, h2, h.1.symm⟩

theorem lcSet_keep (c : Ctx) (k v : String) : Keep c (c.lcSet k v) := ⟨rfl, rfl, rfl, fun _ h => h, fun _ _ h => .inl h, id⟩

theorem setActions_assigns {P : Prog} {O : Oracle} {X : Objects} {n : Nat} {id : ActId} :
    ∀ (cfg : List (List Sub × List Sub)) (k : Nat) (c c' : Ctx) (fs : List Fut),
      visitList (visit P O n) (Entity.setActions id k cfg) c = some (c', .ok fs) → AssignsAll O cfg (stateOf X c) (stateOf X c') ∧ Keep c c'
  | [], k, c, c', fs, h => by
    have := visitList_nil_ok h
    subst this
    exact ⟨.nil, Keep.refl _⟩
  | (nm, v) :: rest, k, c, c', fs, h => by
    obtain ⟨c1, _, _, h1, h2, _⟩ := visitList_cons_ok h
    obtain ⟨m, c2, hx, rfl⟩ := visit_helper (fun m c2 subs hs => (setLC_ok hs).1) h1
    obtain ⟨_, c3, vs, c4, ns, e1, e2, rfl⟩ := setLC_ok hx
    obtain ⟨hr, kr⟩ := setActions_assigns rest (k + 1) _ _ _ h2
    have a1 := Sees.evals (X := X) e1
    have a2 := Sees.evals (X := X) e2
    rw [stateOf_derived] at a1
    rw [stateOf_announce] at hr
    refine ⟨.cons a1 a2 hr, ?_⟩
    exact ((((trace_keep c _).trans (Sees.only (performSubs_sees O v) e1).keep).trans (Sees.only (performSubs_sees O nm) e2).keep).trans
      ((lcSet_keep c4 ns vs).trans (announce_keep P _ _))).trans kr

theorem performPairs_evals {O : Oracle} {X : Objects} : ∀ (k : List (List Sub × List Sub)) (c c1 : Ctx) (ps : List (String × String)),
    performPairs O k c = (c1, .ok ps) → EvalPairs O k (stateOf X c) ps (stateOf X c1) ∧ OnlyLc c c1
  | [], c, c1, ps, h => by
    simp only [performPairs, M.pure, Prod.mk.injEq, Except.ok.injEq] at h
    obtain ⟨rfl, rfl⟩ := h
    exact ⟨.nil, rfl⟩
  | (n, v) :: k, c, c1, ps, h => by
    obtain ⟨c2, ns, h1, h⟩ := M.bind_ok h
    obtain ⟨c3, vs, h2, h⟩ := M.bind_ok h
    obtain ⟨c4, qs, h3, h⟩ := M.bind_ok h
    simp only [M.pure, Prod.mk.injEq, Except.ok.injEq] at h
    obtain ⟨rfl, rfl⟩ := h
    obtain ⟨r, o⟩ := performPairs_evals (X := X) k _ _ _ h3
    refine ⟨.cons (Sees.evals h1) (Sees.evals h2) r, ?_⟩
    have o1 := Sees.only (performSubs_sees O n) h1
    have o2 := Sees.only (performSubs_sees O v) h2
    unfold OnlyLc at o o1 o2 ⊢
    rw [o, o2, o1]

theorem performNames_evals {O : Oracle} {X : Objects} : ∀ (k : List (List Sub × List Sub)) (c c1 : Ctx) (ns : List String),
    performNames O k c = (c1, .ok ns) → EvalNames O k (stateOf X c) (stateOf X c1) ∧ OnlyLc c c1
  | [], c, c1, ns, h => by
    simp only [performNames, M.pure, Prod.mk.injEq, Except.ok.injEq] at h
    obtain ⟨rfl, rfl⟩ := h
    exact ⟨.nil, rfl⟩
  | (n, v) :: k, c, c1, ns, h => by
    obtain ⟨c2, x, h1, h⟩ := M.bind_ok h
    obtain ⟨c4, qs, h3, h⟩ := M.bind_ok h
    simp only [M.pure, Prod.mk.injEq, Except.ok.injEq] at h
    obtain ⟨rfl, rfl⟩ := h
    obtain ⟨r, o⟩ := performNames_evals (X := X) k _ _ _ h3
    refine ⟨.cons (Sees.evals h1) r, ?_⟩
    have o1 := Sees.only (performSubs_sees O n) h1
    unfold OnlyLc at o o1 ⊢
    rw [o, o1]

theorem evalKeep_ok {O : Oracle} {X : Objects} {k : List (List Sub × List Sub)} {c c1 : Ctx} {d : Dict String} (h : evalKeep O k [] c = (c1, .ok d)) :
    ∃ ps, EvalPairs O k (stateOf X c) ps (stateOf X c1) ∧ OnlyLc c c1 ∧ Dict.update [] d = configsOf ps := by
  rw [evalKeep_eq] at h
  obtain ⟨c2, ps, h1, h⟩ := M.bind_ok h
  simp only [M.pure, Prod.mk.injEq, Except.ok.injEq] at h
  obtain ⟨rfl, rfl⟩ := h
  obtain ⟨r, o⟩ := performPairs_evals (X := X) k _ _ _ h1
  exact ⟨ps, r, o, Dict.update_nil_eq (foldl_set_wf ps [] Dict.wf_nil)⟩

theorem condEval_holds {O : Oracle} {X : Objects} {preds : Nat → Ctx → Res Bool} {cond : Option Cond} (hc : FileCond cond) {c c1 : Ctx} {b : Bool}
    (h : condEval O preds cond c = (c1, .ok b)) : Holds O cond (stateOf X c) b (stateOf X c1) ∧ OnlyLc c c1 := by
  cases hc with
  | always =>
    simp only [condEval, M.pure, Prod.mk.injEq, Except.ok.injEq] at h
    obtain ⟨rfl, rfl⟩ := h
    exact ⟨.always, rfl⟩
  | ifC =>
    simp only [condEval, Cond.eval, evalConditionExpr] at h
    obtain ⟨c2, s, h1, h2⟩ := M.bind_ok h
    simp only [M.lift, Prod.mk.injEq] at h2
    obtain ⟨rfl, h3⟩ := h2
    exact ⟨.ifC (Sees.evals h1) h3, Sees.only (performSubs_sees O _) h1⟩
  | unlessC =>
    simp only [condEval, Cond.eval, evalConditionExpr] at h
    obtain ⟨c2, x, h1, h⟩ := M.bind_ok h
    obtain ⟨c3, s, h4, h2⟩ := M.bind_ok h1
    simp only [M.lift, Prod.mk.injEq] at h2
    obtain ⟨rfl, h3⟩ := h2
    simp only [M.pure, Prod.mk.injEq, Except.ok.injEq] at h
    obtain ⟨rfl, rfl⟩ := h
    exact ⟨.unlessC (Sees.evals h4) h3, Sees.only (performSubs_sees O _) h4⟩

theorem flagOf_eq (o : Option PyVal) : flagOf o = truthOf o := by
  rcases o with _ | v
  · rfl
  · cases v <;> rfl

/-- The surroundings that a program gives to launch files. -/
def surroundings (P : Prog) (X : Objects) (start : PKind → FileState → Option FileState) : Surroundings where
  files := X.files
  launchFile := P.launchFile
  reason := X.reason
  start := start

/-- The `execute` methods of timers and processes yield nothing and do to the world what `start` says. -/
def StartsAs (P : Prog) (X : Objects) (start : PKind → FileState → Option FileState) : Prop :=
  ∀ k i c es, (P.fn (X.code k) c).result = .ok es →
    es = [] ∧ start k (stateOf X c) = some (stateOf X (Entity.applyEffects (some (.user i)) c (P.fn (X.code k) c).effects))

theorem applyEffect_keep (self : Option ActId) (c : Ctx) (e : Effect) : Keep c (Entity.applyEffect self c e) := by
  cases e with
  | setEnv k v =>
    simp only [Entity.applyEffect, Ctx.envSet]
    split
    · exact ⟨rfl, rfl, rfl, fun _ h => h, fun _ _ h => .inl h, fun h => h.set _ _⟩
    · exact Keep.refl c
  | unsetEnv k => exact ⟨rfl, rfl, rfl, fun _ h => h, fun _ _ h => .inl h, fun h => h.erase _⟩
  | unregister h =>
    simp only [Entity.applyEffect, Ctx.unregisterHandler]
    split <;> exact ⟨rfl, rfl, rfl, fun _ h => h, fun _ _ h => .inl h, fun h => h⟩
  | newFuture => cases self <;> exact ⟨rfl, rfl, rfl, fun _ h => h, fun _ _ h => .inl h, fun h => h⟩
  | capture => cases self <;> exact ⟨rfl, rfl, rfl, fun _ h => h, fun _ _ h => .inl h, fun h => h⟩
  | _ => exact ⟨rfl, rfl, rfl, fun _ h => h, fun _ _ h => .inl h, fun h => h⟩

theorem applyEffects_keep (self : Option ActId) (es : List Effect) : ∀ c : Ctx, Keep c (Entity.applyEffects self c es) := by
  induction es with
  | nil => exact fun c => Keep.refl c
  | cons e es ih => exact fun c => (applyEffect_keep self c e).trans (ih _)

theorem normalizedSubs_shape {t : TVal} {l : List Sub} (h : normalizedSubs? t = some l) : l ≠ [] ∧ t = .seq (l.map .sub) := by
  have aux : ∀ (xs : List TVal) (l : List Sub), allSubs xs = some l → xs = l.map .sub := by
    intro xs
    induction xs with
    | nil => intro l h; simp [allSubs] at h; subst h; rfl
    | cons x xs ih =>
      intro l h
      cases x with
      | sub s =>
        simp only [allSubs] at h
        cases ha : allSubs xs with
        | none => rw [ha] at h; simp at h
        | some ss =>
          rw [ha] at h
          simp only [Option.some.injEq] at h
          subst h
          simp [ih ss ha]
      | _ => simp [allSubs] at h
  unfold normalizedSubs? at h
  split at h
  · simp at h
  · rename_i l' hne
    have := aux _ _ h
    subst this
    refine ⟨?_, rfl⟩
    intro h0
    subst h0
    simp at hne
  · simp at h

theorem prepend_evals {O : Oracle} {X : Objects} {p : Option TVal} {q : Bool ⊕ List Sub} (hp : prependOf p = some q) {c c1 : Ctx} {b : Bool}
    (h : evalPrepend O q c = (c1, .ok b)) : Prepends O p (stateOf X c) b (stateOf X c1) ∧ OnlyLc c c1 := by
  have sq : ∀ t, (normalizedSubs? t).map Sum.inr = some q → Prepends O (some t) (stateOf X c) b (stateOf X c1) ∧ OnlyLc c c1 := by
    intro t hp
    cases hn : normalizedSubs? t with
    | none => rw [hn] at hp; simp at hp
    | some l =>
      rw [hn] at hp
      simp only [Option.map_some, Option.some.injEq] at hp
      subst hp
      obtain ⟨hl, rfl⟩ := normalizedSubs_shape hn
      have hle : l.isEmpty = false := by simpa using hl
      simp only [evalPrepend, typedBool, hle, Bool.false_eq_true, if_false] at h
      obtain ⟨c2, s, h1, h2⟩ := M.bind_ok h
      cases hco : coerceToType O s (some (.scalar .bool)) with
      | error e => rw [hco] at h2; simp [M.raise] at h2
      | ok v =>
        rw [hco] at h2
        cases v with
        | bool b' =>
          simp only [M.pure, Prod.mk.injEq, Except.ok.injEq] at h2
          obtain ⟨rfl, rfl⟩ := h2
          exact ⟨.text hl (Sees.evals h1) hco, Sees.only (performSubs_sees O l) h1⟩
        | _ => simp [M.raise] at h2
  cases p with
  | none =>
    simp only [prependOf, Option.some.injEq] at hp
    subst hp
    simp only [evalPrepend, M.pure, Prod.mk.injEq, Except.ok.injEq] at h
    obtain ⟨rfl, rfl⟩ := h
    exact ⟨.absent, rfl⟩
  | some t =>
    cases t with
    | bool b' =>
      simp only [prependOf, Option.some.injEq] at hp
      subst hp
      simp only [evalPrepend, M.pure, Prod.mk.injEq, Except.ok.injEq] at h
      obtain ⟨rfl, rfl⟩ := h
      exact ⟨.flag, rfl⟩
    | _ => exact sq _ hp

theorem envSet_ok {c c2 : Ctx} {k v : String} {subs : List Entity} (h : ((c.envSet k v).1, (c.envSet k v).2.map fun _ => ([] : List Entity)) = (c2, .ok subs)) :
    subs = [] ∧ c2 = { c with env := c.env.set k v } := by
  unfold Ctx.envSet at h
  split at h
  · simp only [Except.map, Prod.mk.injEq, Except.ok.injEq] at h
    exact ⟨h.2.symm, h.1.symm⟩
  · simp [Except.map] at h

/-- Actions that yield nothing. -/
theorem leaf_performs {P : Prog} {O : Oracle} {X : Objects} {start : PKind → FileState → Option FileState} (hstart : StartsAs P X start) {n i : Nat} {k : PKind}
    {kind : ActKind} (hb : BuiltKind P X i k kind) (hg : ∀ s f cfg es, kind ≠ .group s f cfg es) (hi : ∀ j args, kind ≠ .includeLD j args) {c c2 : Ctx}
    {subs : List Entity} (henv : c.envReset.Wf) (h : execute P O n (.user i) kind c = some (c2, .ok subs)) :
    subs = [] ∧ Performs O (surroundings P X start) k (stateOf X c) (stateOf X c2) ∧ Keep c c2 := by
  have S := performSubs_sees O
  cases hb with
  | letLC =>
    obtain ⟨h0, c3, vs, c4, ns, h1, h2, rfl⟩ := setLC_ok h
    exact ⟨h0, .letLC (Sees.evals h1) (Sees.evals h2), ((Sees.only (S _) h1).keep.trans (Sees.only (S _) h2).keep).trans (lcSet_keep _ _ _)⟩
  | @arg _ name d desc ch =>
    simp only [execute, Option.some.injEq] at h
    obtain ⟨c3, u, h1, h2⟩ := M.bind_ok h
    have fin : ∀ v, c3.lc.get? name = some v → c2 = c3 ∧ subs = [] ∧ ∀ l, ch = some l → v ∈ l := by
      intro v hv
      cases ch with
      | none =>
        simp only [Prod.mk.injEq, Except.ok.injEq] at h2
        exact ⟨h2.1.symm, h2.2.symm, fun l hl => by cases hl⟩
      | some l =>
        simp only [hv] at h2
        split at h2
        · rename_i hm
          simp only [Prod.mk.injEq, Except.ok.injEq] at h2
          exact ⟨h2.1.symm, h2.2.symm, fun l hl => by cases hl; exact hm⟩
        · simp at h2
    cases hl : c.lc.get? name with
    | some v =>
      have hh : c.lc.has name = true := by simp [Dict.has, hl]
      rw [if_pos hh] at h1
      simp only [Prod.mk.injEq] at h1
      obtain ⟨rfl, _⟩ := h1
      obtain ⟨rfl, h0, h4⟩ := fin v hl
      exact ⟨h0, .argGiven hl h4, Keep.refl _⟩
    | none =>
      have hh : ¬ c.lc.has name = true := by simp [Dict.has, hl]
      rw [if_neg hh] at h1
      cases d with
      | none => simp at h1
      | some l =>
        obtain ⟨c4, v, h3, h4⟩ := M.bind_ok h1
        simp only [Prod.mk.injEq] at h4
        obtain ⟨rfl, _⟩ := h4
        obtain ⟨rfl, h0, h5⟩ := fin v (by simp [Ctx.lcSet])
        exact ⟨h0, .argDefault hl (Sees.evals h3) h5, (Sees.only (S _) h3).keep.trans (lcSet_keep _ _ _)⟩
  | group => exact absurd rfl (hg _ _ _ _)
  | includeFile => exact absurd rfl (hi _ _)
  | setEnv =>
    simp only [execute, Option.some.injEq] at h
    obtain ⟨c3, vs, h1, h⟩ := M.bind_ok h
    obtain ⟨c4, ns, h2, h⟩ := M.bind_ok h
    obtain ⟨h0, rfl⟩ := envSet_ok h
    exact ⟨h0, .setEnv (Sees.evals h1) (Sees.evals h2), ((Sees.only (S _) h1).keep.trans (Sees.only (S _) h2).keep).trans
      ⟨rfl, rfl, rfl, fun _ h => h, fun _ _ h => .inl h, fun h => h.set _ _⟩⟩
  | unsetEnv =>
    simp only [execute, Option.some.injEq] at h
    obtain ⟨c3, ns, h1, h⟩ := M.bind_ok h
    simp only [Prod.mk.injEq, Except.ok.injEq] at h
    obtain ⟨rfl, rfl⟩ := h
    exact ⟨rfl, .unsetEnv (Sees.evals h1), (Sees.only (S _) h1).keep.trans ⟨rfl, rfl, rfl, fun _ h => h, fun _ _ h => .inl h, fun h => h.erase _⟩⟩
  | appendEnv hp =>
    simp only [execute, Option.some.injEq] at h
    obtain ⟨c3, ns, h1, h⟩ := M.bind_ok h
    obtain ⟨c4, vs, h2, h⟩ := M.bind_ok h
    obtain ⟨c5, b, h3, h⟩ := M.bind_ok h
    obtain ⟨c6, ss, h4, h⟩ := M.bind_ok h
    obtain ⟨h0, rfl⟩ := envSet_ok h
    obtain ⟨hp1, hp2⟩ := prepend_evals (X := X) hp h3
    have kk : Keep c { c6 with env := c6.env.set ns (appendValue (c6.env.get? ns) vs ss b) } :=
      ((((Sees.only (S _) h1).keep.trans (Sees.only (S _) h2).keep).trans hp2.keep).trans (Sees.only (S _) h4).keep).trans
      ⟨rfl, rfl, rfl, fun _ h => h, fun _ _ h => .inl h, fun h => h.set _ _⟩
    refine ⟨h0, ?_, kk⟩
    cases hold : c6.env.get? ns with
    | none => exact .appendEnvNew (Sees.evals h1) (Sees.evals h2) hp1 (Sees.evals h4) hold
    | some old =>
      cases b with
      | false => exact .appendEnv (Sees.evals h1) (Sees.evals h2) hp1 (Sees.evals h4) hold
      | true => exact .prependEnv (Sees.evals h1) (Sees.evals h2) hp1 (Sees.evals h4) hold
  | resetEnv =>
    simp only [execute, Option.some.injEq, Prod.mk.injEq, Except.ok.injEq] at h
    obtain ⟨rfl, rfl⟩ := h
    refine ⟨rfl, ?_, ⟨rfl, rfl, rfl, fun _ h => h, fun _ _ h => .inl h, fun _ => Dict.wf_nil.update _⟩⟩
    have : stateOf X c.resetEnv = { stateOf X c with env := (stateOf X c).envReset } := by
      simp only [stateOf, Ctx.resetEnv, Dict.update_nil_eq henv]
    rw [this]
    exact .resetEnv
  | @resetLC _ k =>
    cases k with
    | none =>
      simp only [execute, Option.some.injEq, Prod.mk.injEq, Except.ok.injEq] at h
      obtain ⟨rfl, rfl⟩ := h
      exact ⟨rfl, .resetAll, ⟨rfl, rfl, rfl, fun _ h => h, fun _ _ h => .inl h, fun h => h⟩⟩
    | some k =>
      simp only [execute, Option.some.injEq] at h
      obtain ⟨c3, d, h1, h⟩ := M.bind_ok h
      simp only [Prod.mk.injEq, Except.ok.injEq] at h
      obtain ⟨rfl, rfl⟩ := h
      obtain ⟨ps, e1, e2, e3⟩ := evalKeep_ok (X := X) h1
      refine ⟨rfl, ?_, e2.keep.trans ⟨rfl, rfl, rfl, fun _ h => h, fun _ _ h => .inl h, fun h => h⟩⟩
      rw [e3]
      exact .resetLC e1
  | log =>
    simp only [execute, Option.some.injEq] at h
    obtain ⟨c3, s, h1, h⟩ := M.bind_ok h
    simp only [Prod.mk.injEq, Except.ok.injEq] at h
    obtain ⟨rfl, rfl⟩ := h
    exact ⟨rfl, .log (Sees.evals h1), (Sees.only (S _) h1).keep.trans ⟨rfl, rfl, rfl, fun _ h => h, fun _ _ h => .inl h, fun h => h⟩⟩
  | shutdown =>
    simp only [execute, Option.some.injEq, Prod.mk.injEq, Except.ok.injEq] at h
    obtain ⟨rfl, rfl⟩ := h
    refine ⟨rfl, ?_, ⟨rfl, rfl, rfl, fun _ h => h, fun _ _ h => .inl h, fun h => h⟩⟩
    rename_i r
    have : stateOf X (c.emit (.shutdown (X.reason r) false)) = { stateOf X c with shutdowns := (stateOf X c).shutdowns ++ [X.reason r] } := by
      simp [stateOf, Ctx.emit, Event.shutdownReason]
    rw [this]
    exact .shutdown (S := surroundings P X start)
  | timer =>
    simp only [execute, Option.some.injEq, Prod.mk.injEq] at h
    obtain ⟨rfl, h⟩ := h
    obtain ⟨h0, h1⟩ := hstart _ i _ _ h
    exact ⟨h0, .timer h1, applyEffects_keep _ _ _⟩
  | executable =>
    simp only [execute, Option.some.injEq, Prod.mk.injEq] at h
    obtain ⟨rfl, h⟩ := h
    obtain ⟨h0, h1⟩ := hstart _ i _ _ h
    exact ⟨h0, .executable h1, applyEffects_keep _ _ _⟩

theorem pushes_world {P : Prog} {O : Oracle} {X : Objects} {n : Nat} {id : ActId} {a b : Nat} {c c' : Ctx} {fs : List Fut}
    (h : visitList (visit P O n) [.act (.derived id a) none .pushLC, .act (.derived id b) none .pushEnv] c = some (c', .ok fs)) :
    stateOf X c' = stateOf X c ∧ c'.lcStack = c.lc :: c.lcStack ∧ c'.envStack = c.env :: c.envStack ∧ c'.envReset = c.envReset ∧
    c'.srcLoc = c.srcLoc ∧ (∀ x ∈ c.trace, x ∈ c'.trace) ∧ c'.env = c.env := by
  obtain ⟨c1, _, _, h1, h2, _⟩ := visitList_cons_ok h
  obtain ⟨c2, _, _, h3, h4, _⟩ := visitList_cons_ok h2
  have := visitList_nil_ok h4
  subst this
  obtain ⟨m1, x1, e1, rfl⟩ := visit_helper (by intro n c2 s hs; simp [execute] at hs; exact hs.2) h1
  obtain ⟨m2, x2, e2, rfl⟩ := visit_helper (by intro n c2 s hs; simp [execute] at hs; exact hs.2) h3
  simp only [execute, Option.some.injEq, Prod.mk.injEq, and_true] at e1 e2
  subst e1 e2
  have k1 := announce_keep P (.derived id a) (Ctx.pushLC { c with trace := c.trace ++ [.derived id a] })
  have w1 := stateOf_announce X P (.derived id a) (Ctx.pushLC { c with trace := c.trace ++ [.derived id a] })
  have v1 := announce_view P (.derived id a) (Ctx.pushLC { c with trace := c.trace ++ [.derived id a] })
  have s1 : (announce P (.derived id a) (Ctx.pushLC { c with trace := c.trace ++ [.derived id a] })).srcLoc = c.srcLoc := by
    unfold announce; repeat' split
    all_goals rfl
  generalize announce P (.derived id a) (Ctx.pushLC { c with trace := c.trace ++ [.derived id a] }) = d at *
  have k2 := announce_keep P (.derived id b) (Ctx.pushEnv { d with trace := d.trace ++ [.derived id b] })
  have w2 := stateOf_announce X P (.derived id b) (Ctx.pushEnv { d with trace := d.trace ++ [.derived id b] })
  have v2 := announce_view P (.derived id b) (Ctx.pushEnv { d with trace := d.trace ++ [.derived id b] })
  have s2 : (announce P (.derived id b) (Ctx.pushEnv { d with trace := d.trace ++ [.derived id b] })).srcLoc = d.srcLoc := by
    unfold announce; repeat' split
    all_goals rfl
  generalize announce P (.derived id b) (Ctx.pushEnv { d with trace := d.trace ++ [.derived id b] }) = d2 at *
  have envd : d.env = c.env := congrArg View.env v1
  have envd2 : d2.env = d.env := congrArg View.env v2
  refine ⟨?_, ?_, ?_, ?_, by rw [s2, s1], ?_, by rw [envd2, envd]⟩
  · rw [w2]
    have : stateOf X (Ctx.pushEnv { d with trace := d.trace ++ [.derived id b] }) = stateOf X { d with trace := d.trace ++ [.derived id b] } := rfl
    rw [this, stateOf_derived, w1]
    have : stateOf X (Ctx.pushLC { c with trace := c.trace ++ [.derived id a] }) = stateOf X { c with trace := c.trace ++ [.derived id a] } := rfl
    rw [this, stateOf_derived]
  · rw [k2.lcStack]; exact k1.lcStack
  · rw [k2.envStack]
    show d.env :: d.envStack = _
    rw [envd, k1.envStack]; rfl
  · rw [k2.envReset]; exact k1.envReset
  · exact fun x hx => k2.trace x (List.mem_append_left _ (k1.trace x (List.mem_append_left _ hx)))

theorem pops_world {P : Prog} {O : Oracle} {X : Objects} {n : Nat} {id : ActId} {a b : Nat} {c c' : Ctx} {fs : List Fut} {d : Dict String} {ds : List (Dict String)}
    {e : Dict String} {es : List (Dict String)} (hd : c.lcStack = d :: ds) (he : c.envStack = e :: es) (hwf : e.Wf)
    (h : visitList (visit P O n) [.act (.derived id a) none .popEnv, .act (.derived id b) none .popLC] c = some (c', .ok fs)) :
    stateOf X c' = { stateOf X c with lc := d, env := e } ∧ c'.lcStack = ds ∧ c'.envStack = es ∧ c'.envReset = c.envReset ∧
    c'.srcLoc = c.srcLoc ∧ (∀ x ∈ c.trace, x ∈ c'.trace) ∧ c'.env = e := by
  obtain ⟨c1, _, _, h1, h2, _⟩ := visitList_cons_ok h
  obtain ⟨c2, _, _, h3, h4, _⟩ := visitList_cons_ok h2
  have := visitList_nil_ok h4
  subst this
  have r1 : ∀ c : Ctx, (∃ c2, c.popEnv = (c2, .ok ())) ∨ c.popEnv = (c, .error .runtimeError) := by
    intro c; unfold Ctx.popEnv; split
    · exact .inr rfl
    · exact .inl ⟨_, rfl⟩
  have r2 : ∀ c : Ctx, (∃ c2, c.popLC = (c2, .ok ())) ∨ c.popLC = (c, .error .runtimeError) := by
    intro c; unfold Ctx.popLC; split
    · exact .inr rfl
    · exact .inl ⟨_, rfl⟩
  obtain ⟨m1, x1, e1, rfl⟩ := visit_helper (by
    intro n c2 s hs
    simp only [execute, Option.some.injEq, Prod.mk.injEq] at hs
    rcases r1 { c with trace := c.trace ++ [.derived id a] } with ⟨y, hy⟩ | hy
    · rw [hy] at hs; simp only [Except.map, Except.ok.injEq] at hs; exact hs.2.symm
    · rw [hy] at hs; simp [Except.map] at hs) h1
  obtain ⟨m2, x2, e2, rfl⟩ := visit_helper (by
    intro n c2 s hs
    simp only [execute, Option.some.injEq, Prod.mk.injEq] at hs
    rcases r2 { announce P (.derived id a) x1 with trace := (announce P (.derived id a) x1).trace ++ [.derived id b] } with ⟨y, hy⟩ | hy
    · rw [hy] at hs; simp only [Except.map, Except.ok.injEq] at hs; exact hs.2.symm
    · rw [hy] at hs; simp [Except.map] at hs) h3
  have p1 : Ctx.popEnv { c with trace := c.trace ++ [.derived id a] } = ({ c with trace := c.trace ++ [.derived id a], env := e, envStack := es }, .ok ()) := by
    simp only [Ctx.popEnv, he, Dict.update_nil_eq hwf]
  simp only [execute, p1, Except.map, Option.some.injEq, Prod.mk.injEq, and_true] at e1
  subst e1
  have k1 := announce_keep P (.derived id a) { c with trace := c.trace ++ [.derived id a], env := e, envStack := es }
  have w1 := stateOf_announce X P (.derived id a) { c with trace := c.trace ++ [.derived id a], env := e, envStack := es }
  have v1 := announce_view P (.derived id a) { c with trace := c.trace ++ [.derived id a], env := e, envStack := es }
  have s1 : (announce P (.derived id a) { c with trace := c.trace ++ [.derived id a], env := e, envStack := es }).srcLoc = c.srcLoc := by
    unfold announce; repeat' split
    all_goals rfl
  generalize announce P (.derived id a) { c with trace := c.trace ++ [.derived id a], env := e, envStack := es } = y at *
  have hy : y.lcStack = d :: ds := by rw [k1.lcStack]; exact hd
  have p2 : Ctx.popLC { y with trace := y.trace ++ [.derived id b] } = ({ y with trace := y.trace ++ [.derived id b], lc := d, lcStack := ds }, .ok ()) := by
    simp only [Ctx.popLC, hy]
  simp only [execute, p2, Except.map, Option.some.injEq, Prod.mk.injEq, and_true] at e2
  subst e2
  have k2 := announce_keep P (.derived id b) { y with trace := y.trace ++ [.derived id b], lc := d, lcStack := ds }
  have w2 := stateOf_announce X P (.derived id b) { y with trace := y.trace ++ [.derived id b], lc := d, lcStack := ds }
  have v2 := announce_view P (.derived id b) { y with trace := y.trace ++ [.derived id b], lc := d, lcStack := ds }
  have s2 : (announce P (.derived id b) { y with trace := y.trace ++ [.derived id b], lc := d, lcStack := ds }).srcLoc = y.srcLoc := by
    unfold announce; repeat' split
    all_goals rfl
  generalize announce P (.derived id b) { y with trace := y.trace ++ [.derived id b], lc := d, lcStack := ds } = z at *
  have envy : y.env = e := congrArg View.env v1
  have envz : z.env = y.env := congrArg View.env v2
  refine ⟨?_, k2.lcStack, ?_, ?_, by rw [s2, s1], ?_, by rw [envz, envy]⟩
  · rw [w2]
    have a1 : stateOf X { y with trace := y.trace ++ [.derived id b], lc := d, lcStack := ds } =
        { stateOf X { y with trace := y.trace ++ [.derived id b] } with lc := d } := rfl
    rw [a1, stateOf_derived, w1]
    have a2 : stateOf X { c with trace := c.trace ++ [.derived id a], env := e, envStack := es } =
        { stateOf X { c with trace := c.trace ++ [.derived id a] } with env := e } := rfl
    rw [a2, stateOf_derived]
  · rw [k2.envStack]; exact k1.envStack
  · rw [k2.envReset]; exact k1.envReset
  · exact fun x hx => k2.trace x (List.mem_append_left _ (k1.trace x (List.mem_append_left _ hx)))

/-- What surrounds the contents of a scoped group. -/
theorem bracket_world {P : Prog} {O : Oracle} {X : Objects} {n : Nat} {id : ActId} {mid : List Entity} {c c' : Ctx} {fs : List Fut} (hwf : c.env.Wf)
    (h : visitList (visit P O n) ([.act (.derived id 0) none .pushLC, .act (.derived id 1) none .pushEnv] ++ mid ++
      [.act (.derived id 2) none .popEnv, .act (.derived id 3) none .popLC]) c = some (c', .ok fs)) :
    ∃ c1 c2 gs, stateOf X c1 = stateOf X c ∧ c1.envReset = c.envReset ∧ c1.srcLoc = c.srcLoc ∧ (∀ x ∈ c.trace, x ∈ c1.trace) ∧ c1.env = c.env ∧
      visitList (visit P O n) mid c1 = some (c2, .ok gs) ∧ (∃ t, c'.trace = c2.trace ++ t) ∧
      (Keep c1 c2 → stateOf X c' = { stateOf X c2 with lc := c.lc, env := c.env } ∧ Keep c c') := by
  rw [List.append_assoc] at h
  obtain ⟨c1, _, _, hp, hrest, _⟩ := visitList_append_ok h
  obtain ⟨c2, gs, _, hmid, hpops, _⟩ := visitList_append_ok hrest
  obtain ⟨a1, a2, a3, a4, a5, a6, a7⟩ := pushes_world (X := X) hp
  refine ⟨c1, c2, gs, a1, a4, a5, a6, a7, hmid, (visitList_mono (visit_mono n) _ _ _ _ hpops).trace, fun hk => ?_⟩
  obtain ⟨b1, b2, b3, b4, b5, b6, b7⟩ := pops_world (X := X) (by rw [hk.lcStack, a2]) (by rw [hk.envStack, a3]) hwf hpops
  refine ⟨b1, b2, b3, by rw [b4, hk.envReset, a4], fun x hx => b6 x (hk.trace x (a6 x hx)), ?_, fun _ => by rw [b7]; exact hwf⟩
  intro s l hsl
  rw [b5] at hsl
  rcases hk.srcLoc s l hsl with h' | h'
  · exact .inl (by rw [← a5]; exact h')
  · exact .inr (b6 _ h')

theorem nodup_prefix {l t m : List ActId} (h : m = l ++ t) (hm : m.Nodup) : l.Nodup := by
  rw [h] at hm; exact (List.nodup_append.mp hm).1

/-- Everything that must hold for a context from which a launch file is done. -/
structure Visitable (c : Ctx) : Prop where
  wf : c.env.Wf
  reset : c.envReset.Wf
  src : SrcInv c

theorem Keep.visitable {c c' : Ctx} (h : Keep c c') (hc : Visitable c) : Visitable c' :=
  ⟨h.wf hc.wf, by rw [h.envReset]; exact hc.reset, h.srcInv hc.src⟩

/-- One tag, given what holds for smaller fuel. -/
def DoneBy (P : Prog) (O : Oracle) (X : Objects) (start : PKind → FileState → Option FileState) (n : Nat) : Prop :=
  ∀ p e c c' fs, Built P X p e → visit P O n e c = some (c', .ok fs) → Visitable c → c'.trace.Nodup →
    Does O (surroundings P X start) p (stateOf X c) (stateOf X c') ∧ Keep c c'

theorem visitList_doneBy {P : Prog} {O : Oracle} {X : Objects} {start : PKind → FileState → Option FileState} {n : Nat} (hn : DoneBy P O X start n) :
    ∀ (ps : List PAct) (es : List Entity) (c c' : Ctx) (fs : List Fut), BuiltAll P X ps es → visitList (visit P O n) es c = some (c', .ok fs) → Visitable c →
      c'.trace.Nodup → DoesAll O (surroundings P X start) ps (stateOf X c) (stateOf X c') ∧ Keep c c' := by
  intro ps
  induction ps with
  | nil =>
    intro es c c' fs hb h _ _
    cases hb
    have := visitList_nil_ok h
    subst this
    exact ⟨.nil, Keep.refl _⟩
  | cons p ps ih =>
    intro es c c' fs hb h hr hnd
    cases hb with
    | cons b1 b2 =>
      obtain ⟨c1, _, _, h1, h2, _⟩ := visitList_cons_ok h
      obtain ⟨t, ht⟩ := (visitList_mono (visit_mono n) _ _ _ _ h2).trace
      obtain ⟨d1, k1⟩ := hn _ _ _ _ _ b1 h1 hr (nodup_prefix ht hnd)
      obtain ⟨d2, k2⟩ := ih _ _ _ _ b2 h2 (k1.visitable hr) hnd
      exact ⟨.cons d1 d2, k1.trans k2⟩

theorem lookup_none {l : List (Nat × String)} {s : Nat} (h : ∀ x, (s, x) ∉ l) : l.lookup s = none := by
  induction l with
  | nil => rfl
  | cons a l ih =>
    obtain ⟨k, v⟩ := a
    have hk : (s == k) = false := by
      by_cases hs : s = k
      · subst hs; exact absurd (List.mem_cons_self) (h v)
      · simpa using hs
    rw [List.lookup_cons, hk]
    exact ih fun x hx => h x (List.mem_cons_of_mem _ hx)

theorem doneBy {P : Prog} {O : Oracle} {X : Objects} {start : PKind → FileState → Option FileState} (hstart : StartsAs P X start) (hl : Loads P X) :
    ∀ n, DoneBy P O X start n := by
  intro n
  induction n using Nat.strongRecOn with
  | ind n ih =>
    intro p e c c' fs hb h hr hnd
    cases n with
    | zero => simp [visit] at h
    | succ n =>
      cases hb with
      | @mk i cond k kind hc ht hk =>
      obtain ⟨c1, subs, gs, hent, hvl, _⟩ := visit_ok h
      simp only [enter] at hent
      cases hce : condEval O P.preds cond c with
      | mk c0 r0 =>
      rw [hce] at hent
      cases r0 with
      | error e => simp at hent
      | ok b =>
      obtain ⟨hh, ho⟩ := condEval_holds (X := X) hc hce
      cases b with
      | false =>
        simp only [Option.some.injEq, Prod.mk.injEq, Except.ok.injEq] at hent
        obtain ⟨rfl, rfl⟩ := hent
        have := visitList_nil_ok hvl
        subst this
        exact ⟨.skipped hh, ho.keep⟩
      | true =>
      simp only at hent
      cases hx : execute P O n (.user i) kind { c0 with trace := c0.trace ++ [.user i] } with
      | none => rw [hx] at hent; simp at hent
      | some y =>
      obtain ⟨c2, r2⟩ := y
      rw [hx] at hent
      simp only [Option.some.injEq, Prod.mk.injEq] at hent
      obtain ⟨rfl, rfl⟩ := hent
      have kT := ho.keep.trans (trace_keep c0 (.user i))
      have rT := kT.visitable hr
      have wT : stateOf X { c0 with trace := c0.trace ++ [.user i] } = { stateOf X c0 with executed := (stateOf X c0).executed ++ [.mk cond k] } := by
        have hu : List.filter ActId.isUser [ActId.user i] = [ActId.user i] := rfl
        simp only [stateOf, List.filter_append, List.map_append, hu, List.map_cons, List.map_nil, ht]
      have newId : ActId.user i ∉ c0.trace := by
        obtain ⟨t, ht⟩ := (visitList_mono (visit_mono n) _ _ _ _ hvl).trace
        have hst : ∃ t, (announce P (.user i) c2).trace = (c0.trace ++ [.user i]) ++ t := by
          obtain ⟨t1, e1⟩ := (execute_mono hx).trace
          obtain ⟨t2, e2⟩ := (announce_step P (.user i) c2).toMono.trace
          exact ⟨t1 ++ t2, by rw [e2, e1, List.append_assoc]⟩
        obtain ⟨t', ht'⟩ := hst
        have := nodup_prefix ht' (nodup_prefix ht hnd)
        intro hm
        exact (List.nodup_append.mp this).2.2 _ hm _ (List.mem_singleton.mpr rfl) rfl
      have leaf : (∀ s f cfg es, kind ≠ .group s f cfg es) → (∀ j args, kind ≠ .includeLD j args) →
          Does O (surroundings P X start) (.mk cond k) (stateOf X c) (stateOf X c') ∧ Keep c c' := by
        intro hg hi
        obtain ⟨rfl, hp, kp⟩ := leaf_performs hstart hk hg hi rT.reset hx
        have := visitList_nil_ok hvl
        subst this
        rw [stateOf_announce]
        rw [wT] at hp
        exact ⟨.done hh hp, (kT.trans kp).trans (announce_keep P _ _)⟩
      cases hk with
      | @group _ s f k as es ba =>
        simp only [execute, Option.some.injEq, Prod.mk.injEq, Except.ok.injEq] at hx
        obtain ⟨rfl, rfl⟩ := hx
        have kA := kT.trans (announce_keep P (.user i) { c0 with trace := c0.trace ++ [.user i] })
        have rA := kA.visitable hr
        have wA := stateOf_announce X P (.user i) { c0 with trace := c0.trace ++ [.user i] }
        have vA := announce_view P (.user i) { c0 with trace := c0.trace ++ [.user i] }
        generalize announce P (.user i) { c0 with trace := c0.trace ++ [.user i] } = a at *
        rw [wT] at wA
        rw [← flagOf_eq, ← flagOf_eq] at hvl
        have la : a.lc = c0.lc := congrArg View.lc vA
        have ea : a.env = c0.env := congrArg View.env vA
        have na : a.envReset = c0.envReset := congrArg View.envReset vA
        cases hs : flagOf s with
        | false =>
          rw [hs] at hvl
          simp only [Entity.groupSubEntities, Bool.false_eq_true, if_false] at hvl
          obtain ⟨d, _, _, h1, h2, _⟩ := visitList_append_ok hvl
          obtain ⟨as1, k1⟩ := setActions_assigns (X := X) _ _ _ _ _ h1
          obtain ⟨d2, k2⟩ := visitList_doneBy (ih n (Nat.lt_succ_self n)) _ _ _ _ _ ba h2 (k1.visitable rA) hnd
          rw [wA] at as1
          exact ⟨.done hh (.openGroup hs as1 d2), (kA.trans k1).trans k2⟩
        | true =>
          rw [hs] at hvl
          cases hf : flagOf f with
          | true =>
            rw [hf] at hvl
            have e1 : Entity.groupSubEntities (.user i) true true (k.getD []) es =
              [.act (.derived (.user i) 0) none .pushLC, .act (.derived (.user i) 1) none .pushEnv] ++ (Entity.setActions (.user i) 4 (k.getD []) ++ es) ++
                [.act (.derived (.user i) 2) none .popEnv, .act (.derived (.user i) 3) none .popLC] := by simp [Entity.groupSubEntities]
            rw [e1] at hvl
            obtain ⟨p1, p2, _, w1, n1, s1, t1, v1, hmid, ⟨t, ht⟩, hfin⟩ := bracket_world (X := X) rA.wf hvl
            obtain ⟨d, _, _, h1, h2, _⟩ := visitList_append_ok hmid
            have rp : Visitable p1 := ⟨by rw [v1]; exact rA.wf, by rw [n1]; exact rA.reset, fun s l hm => t1 _ (rA.src s l (by rw [← s1]; exact hm))⟩
            obtain ⟨as1, k1⟩ := setActions_assigns (X := X) _ _ _ _ _ h1
            obtain ⟨d2, k2⟩ := visitList_doneBy (ih n (Nat.lt_succ_self n)) _ _ _ _ _ ba h2 (k1.visitable rp) (nodup_prefix ht hnd)
            obtain ⟨w2, k3⟩ := hfin (k1.trans k2)
            rw [w1, wA] at as1
            have := Performs.scopedGroup hs hf as1 d2
            rw [w2, la, ea]
            exact ⟨.done hh this, kA.trans k3⟩
          | false =>
            rw [hf] at hvl
            have e1 : Entity.groupSubEntities (.user i) true false (k.getD []) es =
              [.act (.derived (.user i) 0) none .pushLC, .act (.derived (.user i) 1) none .pushEnv] ++
                ([.act (.derived (.user i) 4) none .resetEnv, .act (.derived (.user i) 5) none (.resetLC (some (k.getD [])))] ++ es) ++
                [.act (.derived (.user i) 2) none .popEnv, .act (.derived (.user i) 3) none .popLC] := by simp [Entity.groupSubEntities]
            rw [e1] at hvl
            obtain ⟨p1, p2, _, w1, n1, s1, t1, v1, hmid, ⟨t, ht⟩, hfin⟩ := bracket_world (X := X) rA.wf hvl
            obtain ⟨d, _, _, h1, h2, _⟩ := visitList_append_ok hmid
            have rp : Visitable p1 := ⟨by rw [v1]; exact rA.wf, by rw [n1]; exact rA.reset, fun s l hm => t1 _ (rA.src s l (by rw [← s1]; exact hm))⟩
            obtain ⟨q1, _, _, x1, h3, _⟩ := visitList_cons_ok h1
            obtain ⟨q2, _, _, x2, h4, _⟩ := visitList_cons_ok h3
            have := visitList_nil_ok h4
            subst this
            obtain ⟨m1, y1, z1, rfl⟩ := visit_helper (by intro n c2 s hs; simp [execute] at hs; exact hs.2) x1
            simp only [execute, Option.some.injEq, Prod.mk.injEq, and_true] at z1
            subst z1
            have kq := (trace_keep p1 (.derived (.user i) 4)).trans ((⟨rfl, rfl, rfl, fun _ h => h, fun _ _ h => .inl h, fun _ => Dict.wf_nil.update _⟩ :
              Keep { p1 with trace := p1.trace ++ [.derived (.user i) 4] } (Ctx.resetEnv { p1 with trace := p1.trace ++ [.derived (.user i) 4] })).trans
              (announce_keep P (.derived (.user i) 4) _))
            have wq := stateOf_announce X P (.derived (.user i) 4) (Ctx.resetEnv { p1 with trace := p1.trace ++ [.derived (.user i) 4] })
            have wq' : stateOf X (Ctx.resetEnv { p1 with trace := p1.trace ++ [.derived (.user i) 4] }) = { stateOf X p1 with env := (stateOf X p1).envReset } := by
              have : stateOf X (Ctx.resetEnv { p1 with trace := p1.trace ++ [.derived (.user i) 4] }) =
                  { stateOf X { p1 with trace := p1.trace ++ [.derived (.user i) 4] } with env := Dict.update [] p1.envReset } := rfl
              rw [this, stateOf_derived, Dict.update_nil_eq rp.reset]
              rfl
            rw [wq'] at wq
            generalize announce P (.derived (.user i) 4) (Ctx.resetEnv { p1 with trace := p1.trace ++ [.derived (.user i) 4] }) = q at *
            have rl : ∀ n c2 subs, execute P O n (.derived (.user i) 5) (.resetLC (some (k.getD []))) { q with trace := q.trace ++ [.derived (.user i) 5] } = some (c2, .ok subs) →
                subs = [] ∧ ∃ c3 dd, evalKeep O (k.getD []) [] { q with trace := q.trace ++ [.derived (.user i) 5] } = (c3, .ok dd) ∧ c2 = { c3 with lc := Dict.update [] dd } := by
              intro n c2 subs hs
              simp only [execute, Option.some.injEq] at hs
              obtain ⟨c3, dd, hk1, hk2⟩ := M.bind_ok hs
              simp only [Prod.mk.injEq, Except.ok.injEq] at hk2
              exact ⟨hk2.2.symm, c3, dd, hk1, hk2.1.symm⟩
            obtain ⟨m2, y2, z2, rfl⟩ := visit_helper (fun n c2 s hs => (rl n c2 s hs).1) x2
            obtain ⟨_, c3, dd, ek, rfl⟩ := rl _ _ _ z2
            obtain ⟨ps, ep, eo, ed⟩ := evalKeep_ok (X := X) ek
            rw [stateOf_derived, wq, w1, wA] at ep
            have kr := ((trace_keep q (.derived (.user i) 5)).trans eo.keep).trans ((⟨rfl, rfl, rfl, fun _ h => h, fun _ _ h => .inl h, fun h => h⟩ :
              Keep c3 { c3 with lc := Dict.update [] dd }).trans (announce_keep P (.derived (.user i) 5) _))
            have k1 := kq.trans kr
            obtain ⟨d2, k2⟩ := visitList_doneBy (ih n (Nat.lt_succ_self n)) _ _ _ _ _ ba h2 (k1.visitable rp) (nodup_prefix ht hnd)
            obtain ⟨w2, k3⟩ := hfin (k1.trans k2)
            rw [stateOf_announce, ed] at d2
            have := Performs.cleanGroup hs hf ep d2
            rw [w2, la, ea]
            exact ⟨.done hh this, kA.trans k3⟩
      | @includeFile _ file args hloc =>
        simp only [execute, executeInclude, getDescription] at hx
        have hlook : c0.srcLoc.lookup i = none := by
          have hsrc : SrcInv c0 := ho.keep.srcInv hr.src
          exact lookup_none fun x hx => newId (hsrc i x hx)
        simp only [hlook, hloc] at hx
        cases hp : performSubs O file { c0 with trace := c0.trace ++ [.user i] } with
        | mk d1 r1 =>
        rw [hp] at hx
        cases r1 with
        | error e => simp at hx
        | ok loc =>
        simp only at hx
        cases hld : (P.source i).load loc with
        | error e => rw [hld] at hx; simp at hx
        | ok es =>
        simp only [hld, List.lookup_cons, beq_self_eq_true, Option.getD_some] at hx
        obtain ⟨acts, hf, ba⟩ := hl _ _ _ hld
        cases hn : performNames O (args.getD []) { d1 with srcLoc := (i, loc) :: d1.srcLoc, srcLoaded := i :: d1.srcLoaded, locals := (d1.locals.extendLocals [("current_launch_file_path", .str (P.launchFile loc).1)]).extendLocals [("current_launch_file_directory", .str (P.launchFile loc).2)] } with
        | mk d3 r3 =>
        rw [hn] at hx
        cases r3 with
        | error e => simp at hx
        | ok names =>
        simp only at hx
        cases hga : getLaunchArguments (tryDescription P O d3) n es false with
        | none => rw [hga] at hx; simp at hx
        | some rst =>
        rw [hga] at hx
        cases rst with
        | error e => simp at hx
        | ok st =>
        simp only at hx
        cases hcr : checkRequired O d3 st.heap st.entries names with
        | error e => rw [hcr] at hx; simp at hx
        | ok u =>
        rw [hcr] at hx
        simp only [Option.some.injEq, Prod.mk.injEq, Except.ok.injEq] at hx
        obtain ⟨rfl, rfl⟩ := hx
        have o1 := Sees.only (performSubs_sees O file) hp
        have ev1 := Sees.evals (X := X) hp
        obtain ⟨en, o2⟩ := performNames_evals (X := X) _ _ _ _ hn
        have kd : Keep d1 { d1 with srcLoc := (i, loc) :: d1.srcLoc, srcLoaded := i :: d1.srcLoaded, locals := (d1.locals.extendLocals [("current_launch_file_path", .str (P.launchFile loc).1)]).extendLocals [("current_launch_file_directory", .str (P.launchFile loc).2)] } := by
          refine ⟨rfl, rfl, rfl, fun _ h => h, ?_, fun h => h⟩
          intro s l hm
          rcases List.mem_cons.mp hm with hm | hm
          · obtain ⟨rfl, _⟩ := Prod.mk.inj hm
            refine .inr (o1.keep.trace _ ?_)
            exact List.mem_append_right _ (List.mem_singleton.mpr rfl)
          · exact .inl hm
        have kD := ((kT.trans o1.keep).trans kd).trans (o2.keep.trans (announce_keep P (.user i) d3))
        have wD := stateOf_announce X P (.user i) d3
        obtain ⟨q, _, _, h1, h2, _⟩ := visitList_append_ok hvl
        obtain ⟨as1, k1⟩ := setActions_assigns (X := X) _ _ _ _ _ h1
        obtain ⟨q2, _, _, h3, h4, _⟩ := visitList_cons_ok h2
        have := visitList_nil_ok h4
        subst this
        cases n with
        | zero => simp [visit] at h3
        | succ m =>
          obtain ⟨q3, subs, _, he, hv, _⟩ := visit_ok h3
          simp only [enter, Option.some.injEq, Prod.mk.injEq, Except.ok.injEq] at he
          obtain ⟨rfl, rfl⟩ := he
          obtain ⟨d2, k2⟩ := visitList_doneBy (ih m (by omega)) _ _ _ _ _ ba hv ((kD.trans k1).visitable hr) hnd
          rw [wT] at ev1
          rw [wD] at as1
          exact ⟨.done hh (.includeFile (S := surroundings P X start) ev1 hf en as1 d2), (kD.trans k1).trans k2⟩
      | _ => exact leaf (by intro _ _ _ _ h; cases h) (by intro _ _ h; cases h)

end Verif
