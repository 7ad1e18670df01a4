import Verif.Lemmas.Order
import Verif.Props.Scope

/-!
# Properties C06, C07, C08, C25: visiting entities
-/

namespace Verif

/-! ## C06 -/

/-- C06: visiting is depth-first visiting, as the relation `Visits` of the specification says it: the entity, then
its sub-entities completely and in order, stopping at the first exception. -/
theorem C06_depth_first (P : Prog) (O : Oracle) (e : Entity) (c c' : Ctx) (r : Res (List Fut)) :
    (∃ n, visit P O n e c = some (c', r)) ↔ ∃ t, Visits P O e c c' r t :=
  ⟨fun ⟨n, h⟩ => visit_visits n e c c' r h, fun ⟨_, h⟩ => h.visit⟩

/-- C06: the actions executed are those of the visited tree, each once, parents before children and children in
order; the collected asynchronous results are in the same order. -/
theorem C06_executed_once_in_order (P : Prog) (O : Oracle) (e : Entity) (c c' : Ctx) (r : Res (List Fut))
    (t : VTree) (h : Visits P O e c c' r t) :
    c'.trace = c.trace ++ t.preorder ∧ ∀ fs, r = .ok fs → fs = t.results :=
  ⟨h.trace, fun _ hr => h.results hr⟩

theorem setActions_static (id : ActId) : ∀ (args : List (List Sub × List Sub)) (k : Nat) (rest : List Entity),
    staticAll (Entity.setActions id k args ++ rest) = staticAll rest
  | [], _, _ => rfl
  | _ :: as, k, rest => by
    simp only [Entity.setActions, List.cons_append, staticAll, Entity.static, ActKind.static]
    rw [setActions_static id as (k + 1) rest]; simp

theorem orderAll_append : ∀ (xs ys : List Entity), orderAll (xs ++ ys) = orderAll xs ++ orderAll ys
  | [], _ => rfl
  | x :: xs, ys => by simp [orderAll, orderAll_append xs ys]

theorem staticAll_append : ∀ (xs ys : List Entity), staticAll (xs ++ ys) = (staticAll xs && staticAll ys)
  | [], _ => rfl
  | x :: xs, ys => by simp [staticAll, staticAll_append xs ys, Bool.and_assoc]

theorem setActions_order (id : ActId) : ∀ (args : List (List Sub × List Sub)) (k : Nat),
    orderAll (Entity.setActions id k args) = (List.range args.length).map (fun i => .derived id (k + i))
  | [], _ => rfl
  | a :: as, k => by
    simp only [Entity.setActions, orderAll, Entity.order, ActKind.order, setActions_order id as (k + 1)]
    rw [List.length_cons, List.range_succ_eq_map]
    simp only [List.map_cons, List.map_map]
    simp only [List.cons_append, List.nil_append, Nat.add_zero]
    congr 1
    apply List.map_congr_left
    intro i _
    simp [Nat.add_assoc, Nat.add_comm 1]

theorem group_static (id : ActId) (s f : Bool) (cfg : List (List Sub × List Sub)) (as : List Entity)
    (h : staticAll as = true) : staticAll (Entity.groupSubEntities id s f cfg as) = true := by
  unfold Entity.groupSubEntities
  cases s <;> cases f <;>
    simp [staticAll, staticAll_append, Entity.static, ActKind.static, h] <;>
    simpa [staticAll] using setActions_static id cfg 4 []

theorem group_order (id : ActId) (s f : Bool) (cfg : List (List Sub × List Sub)) (as : List Entity) :
    orderAll (Entity.groupSubEntities id s f cfg as) = ActKind.order id (.group s f cfg as) := by
  unfold Entity.groupSubEntities
  cases s <;> cases f <;>
    simp [orderAll, orderAll_append, Entity.order, ActKind.order, setActions_order]

/-- Static actions other than groups return no sub-entities. -/
theorem execute_leaf {P : Prog} {O : Oracle} {n : Nat} {id : ActId} {kind : ActKind} {c c' : Ctx}
    {subs : List Entity} (hs : kind.static = true) (hg : ∀ s f cfg as, kind ≠ .group s f cfg as)
    (h : execute P O n id kind c = some (c', .ok subs)) : subs = [] := by
  have map_nil : ∀ {r : Res Unit} {l : List Entity}, r.map (fun _ => ([] : List Entity)) = .ok l → l = [] := by
    intro r l h
    cases r with
    | error e => simp [Except.map] at h
    | ok u => simp [Except.map] at h; exact h
  have fin : ∀ (m : M (List Entity)), (∀ c l c', m c = (c', .ok l) → l = []) →
      some (m c) = some (c', .ok subs) → subs = [] := fun m hm he => hm c _ _ (Option.some.inj he)
  have bnd : ∀ {α : Type} (m : M α) (f : α → M (List Entity)),
      (∀ a c l c', f a c = (c', .ok l) → l = []) → ∀ c l c', M.bind m f c = (c', .ok l) → l = [] := by
    intro α m f hf c l c' h
    unfold M.bind at h
    split at h
    · cases h
    · exact hf _ _ _ _ h
  cases kind with
  | group s f cfg as => exact absurd rfl (hg s f cfg as)
  | includeLD src args => simp [ActKind.static] at hs
  | custom fn d => simp [ActKind.static] at hs
  | setLC n v =>
    exact fin _ (bnd _ _ fun _ => bnd _ _ fun _ c l c' h => by cases h; rfl) h
  | unsetLC n => exact fin _ (bnd _ _ fun _ c l c' h => by cases h; rfl) h
  | pushLC => simp [execute] at h; exact h.2
  | popLC => simp [execute] at h; exact map_nil h.2
  | pushEnv => simp [execute] at h; exact h.2
  | popEnv => simp [execute] at h; exact map_nil h.2
  | resetEnv => simp [execute] at h; exact h.2
  | resetLC k =>
    cases k with
    | none => simp [execute] at h; exact h.2
    | some k => exact fin _ (bnd _ _ fun _ c l c' h => by cases h; rfl) h
  | setEnv n v =>
    exact fin _ (bnd _ _ fun _ => bnd _ _ fun _ c l c' h => by
      simp at h; exact map_nil h.2) h
  | unsetEnv n => exact fin _ (bnd _ _ fun _ c l c' h => by cases h; rfl) h
  | appendEnv n v p s =>
    exact fin _ (bnd _ _ fun _ => bnd _ _ fun _ => bnd _ _ fun _ => bnd _ _ fun _ c l c' h => by
      simp at h; exact map_nil h.2) h
  | declareArg name d ch =>
    refine fin _ (bnd _ _ fun _ c l c' h => ?_) h
    repeat' split at h
    all_goals first | (cases h; rfl) | (cases h)
  | logInfo m => exact fin _ (bnd _ _ fun _ c l c' h => by cases h; rfl) h
  | emitEvent e => simp [execute] at h; exact h.2
  | registerHandler hh d => simp [execute] at h; exact h.2
  | unregisterHandler hh => simp [execute] at h; exact map_nil h.2

theorem enter_static {P : Prog} {O : Oracle} {n : Nat} {e : Entity} {c c1 : Ctx} {subs : List Entity}
    (hs : e.static = true) (h : enter P O n e c = some (c1, .ok subs)) :
    staticAll subs = true ∧ e.order = (executedId P O e c).toList ++ orderAll subs := by
  cases e with
  | desc es =>
    simp [enter] at h
    obtain ⟨rfl, rfl⟩ := h
    exact ⟨by simpa [Entity.static] using hs, by simp [executedId, Entity.order]⟩
  | act id cond kind =>
    simp only [Entity.static, Bool.and_eq_true, Option.isNone_iff_eq_none] at hs
    obtain ⟨rfl, hk⟩ := hs
    simp only [enter, condEval, M.pure] at h
    cases hx : execute P O n id kind { c with trace := c.trace ++ [id] } with
    | none => rw [hx] at h; simp at h
    | some x =>
      obtain ⟨c2, r⟩ := x
      rw [hx] at h
      simp at h
      obtain ⟨_, rfl⟩ := h
      have hid : executedId P O (.act id none kind) c = some id := rfl
      rw [hid]
      cases kind with
      | group s f cfg as =>
        simp [execute] at hx
        obtain ⟨_, rfl⟩ := hx
        refine ⟨group_static id s f cfg as (by simpa [ActKind.static] using hk), ?_⟩
        rw [group_order]; rfl
      | _ =>
        have := execute_leaf hk (by intros; simp) hx
        subst this
        exact ⟨rfl, by simp [Entity.order, ActKind.order, orderAll]⟩

mutual
theorem Visits.static_order {P : Prog} {O : Oracle} {e : Entity} {c c' : Ctx} {t : VTree} {fs : List Fut} :
    ∀ {r}, Visits P O e c c' r t → r = .ok fs → e.static = true → t.preorder = e.order
  | _, .raises n h, hr, hs => by cases hr
  | _, .descends (r := .error _) n h hs, hr, _ => by simp [Except.map] at hr
  | _, .descends (r := .ok gs) n h hsub, _, hs => by
    obtain ⟨h1, h2⟩ := enter_static hs h
    rw [h2, VTree.preorder, VisitsAll.static_order hsub rfl h1]

theorem VisitsAll.static_order {P : Prog} {O : Oracle} {es : List Entity} {c c' : Ctx} {ts : List VTree}
    {fs : List Fut} :
    ∀ {r}, VisitsAll P O es c c' r ts → r = .ok fs → staticAll es = true → preorderAll ts = orderAll es
  | _, .nil, _, _ => rfl
  | _, .stop h, hr, _ => by cases hr
  | _, .next (r := .error _) h hs, hr, _ => by simp [Except.map] at hr
  | _, .next (r := .ok gs) h hsub, _, hs => by
    simp only [staticAll, Bool.and_eq_true] at hs
    rw [preorderAll, orderAll, Visits.static_order h rfl hs.1, VisitsAll.static_order hsub rfl hs.2]
end

/-- C06 for trees without user code: a visit that ends without an exception executes exactly the actions of the text
in depth-first order. -/
theorem C06_static_order (P : Prog) (O : Oracle) (n : Nat) (e : Entity) (c c' : Ctx) (fs : List Fut)
    (hs : e.static = true) (h : visit P O n e c = some (c', .ok fs)) :
    c'.trace = c.trace ++ e.order := by
  obtain ⟨t, ht⟩ := visit_visits n e c c' _ h
  rw [ht.trace, ht.static_order rfl hs]

/-- The outcome does not depend on the fuel. -/
theorem C06_deterministic (P : Prog) (O : Oracle) (n m : Nat) (e : Entity) (c : Ctx) (x y)
    (h1 : visit P O n e c = some x) (h2 : visit P O m e c = some y) : x = y := by
  have a := visit_fuel_le (Nat.le_max_left n m) h1
  have b := visit_fuel_le (Nat.le_max_right n m) h2
  rw [a] at b
  exact Option.some.inj b

/-- A static tree with two levels. -/
def sampleStatic : Entity :=
  .desc [.act (.user 1) none (.group true true [([.text "a"], [.text "1"])]
      [.act (.user 2) none (.setLC [.text "b"] [.launchConfig [.text "a"] none]),
       .desc [.act (.user 3) none (.logInfo [.text "x"])]]),
    .act (.user 4) none (.logInfo [.text "y"])]

example : sampleStatic.static = true ∧
    (visit sampleProg sampleOracle 10 sampleStatic {}).succeeds = true := by
  constructor
  · decide
  · decide +kernel

example : sampleStatic.order = [.user 1, .derived (.user 1) 0, .derived (.user 1) 1, .derived (.user 1) 4,
    .user 2, .user 3, .derived (.user 1) 2, .derived (.user 1) 3, .user 4] := by rfl

/-! ## C07 -/

/-- C07: an action whose condition is false does nothing: the context is the one the condition left, which differs
at most by AnonName memo entries; nothing is executed, no event queued, no sub-entity visited. -/
theorem C07_false_no_effect (P : Prog) (O : Oracle) (n : Nat) (id : ActId) (cond : Option Cond) (kind : ActKind)
    (c c1 : Ctx) (h : condEval O P.preds cond c = (c1, .ok false)) :
    visit P O (n + 1) (.act id cond kind) c = some (c1, .ok (ownFuture (.act id cond kind) c)) ∧
    c1 = { c with lc := c1.lc, rng := c1.rng } ∧
    (∀ k v, c.lc.get? k = some v → c1.lc.get? k = some v) ∧
    (∀ k, c.lc.get? k = none → c1.lc.get? k ≠ none → ∃ m : String, k = "anon" ++ m) := by
  have hf := condEval_frames O P.preds cond c
  rw [h] at hf
  refine ⟨?_, hf.rest, hf.keep, hf.new⟩
  have hfut : c1.futures = c.futures := by have h1 : c1 = _ := hf.rest; rw [h1]
  simp [visit, enter, h, visitList, ownFuture, hfut]

/-- C07: with a condition free of AnonName the context is not changed at all. -/
theorem C07_false_unchanged (P : Prog) (O : Oracle) (n : Nat) (id : ActId) (expr : List Sub) (kind : ActKind)
    (c : Ctx) (ha : anonFreeAll expr = true) (hf : c.futures.lookup id = none)
    (h : (condEval O P.preds (some (.ifC expr)) c).2 = .ok false) :
    visit P O (n + 1) (.act id (some (.ifC expr)) kind) c = some (c, .ok []) := by
  have hq : (condEval O P.preds (some (.ifC expr)) c).1 = c :=
    Quiet.bind (Quiet.joined (performAll_quiet O expr ha)) (fun _ => Quiet.lift _) c
  have hc : condEval O P.preds (some (.ifC expr)) c = (c, .ok false) := Prod.ext hq h
  have := (C07_false_no_effect P O n id _ kind c c hc).1
  rw [this]
  simp [ownFuture, hf]

/-- C07: an exception from the condition is the outcome; nothing is executed. -/
theorem C07_condition_error (P : Prog) (O : Oracle) (n : Nat) (id : ActId) (cond : Option Cond) (kind : ActKind)
    (c c1 : Ctx) (e : Err) (h : condEval O P.preds cond c = (c1, .error e)) :
    visit P O (n + 1) (.act id cond kind) c = some (c1, .error e) ∧ c1.trace = c.trace ∧ c1.queue = c.queue := by
  have hf := condEval_frames O P.preds cond c
  rw [h] at hf
  have h1 : c1 = _ := hf.rest
  exact ⟨by simp [visit, enter, h], by rw [h1], by rw [h1]⟩

/-- C07: with a true or absent condition the action is executed exactly once before its sub-entities are visited, and
these are what it returned. -/
theorem C07_true_executes (P : Prog) (O : Oracle) (n : Nat) (id : ActId) (cond : Option Cond) (kind : ActKind)
    (c c1 c2 : Ctx) (r : Res (List Entity)) (h : condEval O P.preds cond c = (c1, .ok true))
    (hx : execute P O n id kind { c1 with trace := c1.trace ++ [id] } = some (c2, r)) :
    enter P O n (.act id cond kind) c = some (announce P id c2, r) ∧
    (announce P id c2).trace = c.trace ++ [id] := by
  constructor
  · simp [enter, h, hx]
  · have hf := condEval_frames O P.preds cond c
    rw [h] at hf
    have h1 : c1 = _ := hf.rest
    have hcore := execute_core hx
    rw [announce_trace, hcore.trace, h1]

/-- C07: an action without a condition is always executed, once, in the context it is visited in. -/
theorem C07_unconditional (P : Prog) (O : Oracle) (n : Nat) (id : ActId) (kind : ActKind) (c c2 : Ctx)
    (r : Res (List Entity))
    (hx : execute P O n id kind { c with trace := c.trace ++ [id] } = some (c2, r)) :
    enter P O n (.act id none kind) c = some (announce P id c2, r) ∧
    (announce P id c2).trace = c.trace ++ [id] :=
  C07_true_executes P O n id none kind c c c2 r rfl hx

/-- C07: IfCondition and UnlessCondition on the same expression are complements, with the same exceptions and the
same context afterwards. -/
theorem C07_if_unless (O : Oracle) (preds : Nat → Ctx → Res Bool) (e : List Sub) (c : Ctx) :
    (Cond.unlessC e).eval O preds c =
      (((Cond.ifC e).eval O preds c).1, ((Cond.ifC e).eval O preds c).2.map (!·)) := by
  simp only [Cond.eval, M.bind]
  cases evalConditionExpr O e c with
  | mk c1 r => cases r <;> rfl

theorem dropWhile_all {p : Char → Bool} : ∀ (a l : List Char), (∀ x ∈ a, p x = true) →
    (a ++ l).dropWhile p = l.dropWhile p
  | [], l, _ => rfl
  | x :: a, l, h => by
    simp only [List.cons_append, List.dropWhile_cons, h x (by simp), if_true]
    exact dropWhile_all a l fun y hy => h y (by simp [hy])

theorem dropWhile_keep {p : Char → Bool} (l r : List Char) (hne : l ≠ []) (h : ∀ x ∈ l, p x = false) :
    (l ++ r).dropWhile p = l ++ r := by
  cases l with
  | nil => exact absurd rfl hne
  | cons x l => simp [List.dropWhile_cons, h x (by simp)]

theorem space_lower {x : Char} (h : isSpace x = true) : lowerChar x = x := by
  unfold lowerChar
  split
  · rename_i hx
    exfalso
    obtain ⟨h1, h2⟩ := hx
    have h1' : (65 : Nat) ≤ x.toNat := h1
    simp only [isSpace, Bool.or_eq_true, beq_iff_eq, Bool.and_eq_true, decide_eq_true_eq] at h
    have h2' : x.toNat ≤ 90 := h2
    rcases h with ((h | h) | h) | h
    · subst h; exact absurd h1' (by decide)
    · omega
    · omega
    · omega
  · rfl

theorem readsAs_iff (s w : String) (hne : w.toList ≠ []) (hw : ∀ x ∈ w.toList, isSpace x = false) :
    ReadsAs s w ↔ stripLower s = w.toList := by
  constructor
  · rintro ⟨a, core, b, hs, ha, hb, hc⟩
    have hcore : ∀ x ∈ core, isSpace x = false := by
      intro x hx
      cases hsp : isSpace x with
      | false => rfl
      | true =>
        have hm : lowerChar x ∈ w.toList := by rw [← hc]; exact List.mem_map_of_mem hx
        rw [space_lower hsp] at hm
        rw [hw x hm] at hsp; cases hsp
    have hcne : core ≠ [] := by intro h0; subst h0; exact hne hc.symm
    unfold stripLower stripChars
    rw [hs, List.append_assoc, dropWhile_all a _ ha, dropWhile_keep core b hcne hcore, List.reverse_append,
      dropWhile_all b.reverse _ (fun x hx => hb x (by simpa using hx))]
    have := dropWhile_keep core.reverse [] (by simpa using hcne) (fun x hx => hcore x (by simpa using hx))
    rw [List.append_nil] at this
    rw [this, List.reverse_reverse, hc]
  · intro h
    refine ⟨s.toList.takeWhile isSpace, stripChars s.toList,
      ((s.toList.dropWhile isSpace).reverse.takeWhile isSpace).reverse, ?_, ?_, ?_, h⟩
    · unfold stripChars
      rw [List.append_assoc, ← List.reverse_append, List.takeWhile_append_dropWhile, List.reverse_reverse,
        List.takeWhile_append_dropWhile]
    · intro x hx; exact List.all_eq_true.mp (List.all_takeWhile) x hx
    · intro x hx
      rw [List.mem_reverse] at hx
      exact List.all_eq_true.mp (List.all_takeWhile) x hx

/-- C07: the texts accepted by IfCondition: up to surrounding whitespace and letter case `true` or `1` are true,
`false` or `0` are false, every other text raises InvalidConditionExpressionError. -/
theorem C07_accepted_texts (s : String) :
    (evalConditionText s = .ok true ↔ ReadsAs s "true" ∨ ReadsAs s "1") ∧
    (evalConditionText s = .ok false ↔ ReadsAs s "false" ∨ ReadsAs s "0") ∧
    (evalConditionText s = .error .invalidCondition ↔
      ¬ (ReadsAs s "true" ∨ ReadsAs s "1" ∨ ReadsAs s "false" ∨ ReadsAs s "0")) := by
  rw [readsAs_iff s "true" (by decide) (by decide), readsAs_iff s "1" (by decide) (by decide),
    readsAs_iff s "false" (by decide) (by decide), readsAs_iff s "0" (by decide) (by decide)]
  have hx : ∀ a b : String, a.toList ≠ b.toList → stripLower s = a.toList → stripLower s ≠ b.toList :=
    fun a b hab h1 h2 => hab (h1.symm.trans h2)
  by_cases ht : stripLower s = "true".toList
  · have a := hx _ "false" (by decide) ht
    have b := hx _ "0" (by decide) ht
    simp [evalConditionText, ht]
  · by_cases h1 : stripLower s = "1".toList
    · simp [evalConditionText, h1]
    · by_cases hf : stripLower s = "false".toList
      · simp [evalConditionText, hf]
      · by_cases h0 : stripLower s = "0".toList
        · simp [evalConditionText, h0]
        · have e : evalConditionText s = .error .invalidCondition := by
            unfold evalConditionText
            simp only [ht, h1, hf, h0, or_self, if_false]
          rw [e]
          refine ⟨⟨by simp, ?_⟩, ⟨by simp, ?_⟩, ⟨fun _ => ?_, by simp⟩⟩
          · rintro (h | h) <;> contradiction
          · rintro (h | h) <;> contradiction
          · rintro (h | h | h | h) <;> contradiction

example : ReadsAs "  TrUe\n" "true" :=
  ⟨[' ', ' '], ['T', 'r', 'U', 'e'], ['\n'], by decide, by decide, by decide, by decide⟩

example : (condEval sampleOracle (fun _ _ => .ok false) (some (.ifC [.launchConfig [.text "a"] none]))
    { lc := [("a", " False ")] }).2 = .ok false := by rfl

/-! ## C08 -/

/-- C08: LaunchConfigurationEquals holds exactly when the configuration's value (or its absence) equals the performed
expected value (or None), and LaunchConfigurationNotEquals is its negation. -/
theorem C08_equals (O : Oracle) (preds : Nat → Ctx → Res Bool) (name : String) (v : Option (List Sub))
    (c c1 : Ctx) (expected : Option String) (h : performOpt O v c = (c1, .ok expected)) :
    (Cond.lcEquals name v).eval O preds c = (c1, .ok (decide (c1.lc.get? name = expected))) ∧
    (Cond.lcNotEquals name v).eval O preds c = (c1, .ok (decide (c1.lc.get? name ≠ expected))) := by
  have key : lcEqualsEval O name v c = (c1, .ok (decide (c1.lc.get? name = expected))) := by
    simp only [lcEqualsEval, M.bind, h]
    cases hg : c1.lc.get? name with
    | none => cases expected <;> simp
    | some x =>
      simp only
      congr 2
      by_cases hx : some x = expected <;> simp [hx]
  refine ⟨key, ?_⟩
  simp only [Cond.eval, M.bind, key, M.pure]
  congr 2
  simp

/-- C08: the configuration tested is the one of the context before, unless the expected value itself memoises an
anonymous name. -/
theorem C08_same_context (O : Oracle) (v : Option (List Sub)) (c c1 : Ctx) (x : Res (Option String))
    (h : performOpt O v c = (c1, x)) (ha : anonFreeOpt v = true) : c1 = c := by
  have := performOpt_quiet O v ha c
  rw [h] at this
  exact this

/-- C08: None expects the configuration to be unset; a text expects exactly that text. -/
theorem C08_none_and_text (O : Oracle) (preds : Nat → Ctx → Res Bool) (name t : String) (c : Ctx) :
    (Cond.lcEquals name none).eval O preds c = (c, .ok (decide (c.lc.get? name = none))) ∧
    (Cond.lcEquals name (some [.text t])).eval O preds c = (c, .ok (decide (c.lc.get? name = some t))) :=
  ⟨(C08_equals O preds name none c c none rfl).1,
   (C08_equals O preds name (some [.text t]) c c (some t) (by
      simp [performOpt, performAll, perform, M.bind, M.pure, joinStrs])).1⟩

example : (performOpt sampleOracle (some [.text "on", .launchConfig [.text "b"] none])
    { lc := [("a", "on1"), ("b", "1")] }).2 = .ok (some "on1") := by rfl

/-! ## C25 -/

/-- C25: after an action executed, whether it returned or raised, exactly one ExecutionComplete for it is queued if
some handler registered at that time matches it and the action is synchronous; if the action is asynchronous the
announcement is attached to its future instead, once; if nobody listens nothing is announced. -/
theorem C25_announced_once (P : Prog) (O : Oracle) (n : Nat) (id : ActId) (cond : Option Cond) (kind : ActKind)
    (c c1 c2 c' : Ctx) (r r' : Res (List Entity)) (h : condEval O P.preds cond c = (c1, .ok true))
    (hx : execute P O n id kind { c1 with trace := c1.trace ++ [id] } = some (c2, r))
    (he : enter P O n (.act id cond kind) c = some (c', r')) :
    r' = r ∧
    ((∃ h ∈ c2.handlers, P.matchesEv h (.executionComplete id) = true) → c2.futures.lookup id = none →
      c'.queue = c2.queue ++ [.executionComplete id] ∧ c'.onDone = c2.onDone) ∧
    (∀ f, (∃ h ∈ c2.handlers, P.matchesEv h (.executionComplete id) = true) → c2.futures.lookup id = some f →
      c'.queue = c2.queue ∧ c'.onDone = c2.onDone ++ [(f, id)]) ∧
    ((∀ h ∈ c2.handlers, P.matchesEv h (.executionComplete id) = false) →
      c'.queue = c2.queue ∧ c'.onDone = c2.onDone) := by
  have e1 : c' = announce P id c2 ∧ r' = r := by
    rw [(C07_true_executes P O n id cond kind c c1 c2 r h hx).1] at he
    have := Option.some.inj he
    exact ⟨(congrArg Prod.fst this).symm, (congrArg Prod.snd this).symm⟩
  obtain ⟨rfl, rfl⟩ := e1
  refine ⟨rfl, ?_, ?_, ?_⟩
  · intro hl hf
    have : c2.wouldHandle P.matchesEv (.executionComplete id) = true := by
      simpa [Ctx.wouldHandle, List.any_eq_true] using hl
    simp [announce, this, hf, Ctx.emit]
  · intro f hl hf
    have : c2.wouldHandle P.matchesEv (.executionComplete id) = true := by
      simpa [Ctx.wouldHandle, List.any_eq_true] using hl
    simp [announce, this, hf]
  · intro hl
    have : c2.wouldHandle P.matchesEv (.executionComplete id) = false := by
      simpa [Ctx.wouldHandle] using hl
    simp [announce, this]

/-- C25: executing an action does not attach announcements by itself, so the one above is the only one made by
visiting it. -/
theorem C25_only_announcement (P : Prog) (O : Oracle) (n : Nat) (id : ActId) (kind : ActKind) (c c' : Ctx)
    (r : Res (List Entity)) (h : execute P O n id kind c = some (c', r)) : c'.onDone = c.onDone :=
  (execute_core h).onDone

example : ∃ c' r, enter { sampleProg with matchesEv := fun _ _ => true } sampleOracle 5
    (.act (.user 1) none (.declareArg "x" none none)) { handlers := [3] } = some (c', r) ∧
    c'.queue = [.executionComplete (.user 1)] ∧ r = .error .runtimeError :=
  ⟨_, _, rfl, rfl, rfl⟩

end Verif
