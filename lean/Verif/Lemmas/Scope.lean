import Verif.Spec.Scope
import Verif.Lemmas.Visit

/-! # Lemmas about scopes -/

namespace Verif

theorem balancedFrom_cons {d e : Nat} {x : Entity} {xs : List Entity}
    (h : balancedFrom d e (x :: xs) = true) :
    (∃ id, x = .act id none .pushLC ∧ balancedFrom (d + 1) e xs = true) ∨
    (∃ id d', x = .act id none .popLC ∧ d = d' + 1 ∧ balancedFrom d' e xs = true) ∨
    (∃ id, x = .act id none .pushEnv ∧ balancedFrom d (e + 1) xs = true) ∨
    (∃ id e', x = .act id none .popEnv ∧ e = e' + 1 ∧ balancedFrom d e' xs = true) ∨
    (x.balanced = true ∧ balancedFrom d e xs = true) := by
  unfold balancedFrom at h
  split at h
  · exact .inl ⟨_, rfl, h⟩
  · exact .inr (.inl ⟨_, _, rfl, rfl, h⟩)
  · exact .inr (.inr (.inl ⟨_, rfl, h⟩))
  · exact .inr (.inr (.inr (.inl ⟨_, _, rfl, rfl, h⟩)))
  · simp only [Bool.and_eq_true] at h
    exact .inr (.inr (.inr (.inr h)))

theorem bal_pushLC (id : ActId) (d e : Nat) (xs : List Entity) :
    balancedFrom d e (.act id none .pushLC :: xs) = balancedFrom (d + 1) e xs := by
  conv => lhs; unfold balancedFrom

theorem bal_pushEnv (id : ActId) (d e : Nat) (xs : List Entity) :
    balancedFrom d e (.act id none .pushEnv :: xs) = balancedFrom d (e + 1) xs := by
  conv => lhs; unfold balancedFrom

theorem bal_resetEnv (id : ActId) (d e : Nat) (xs : List Entity) :
    balancedFrom d e (.act id none .resetEnv :: xs) = balancedFrom d e xs := by
  conv => lhs; unfold balancedFrom
  simp [Entity.balanced, ActKind.balanced]

theorem bal_resetLC (id : ActId) (k : Option (List (List Sub × List Sub))) (d e : Nat) (xs : List Entity) :
    balancedFrom d e (.act id none (.resetLC k) :: xs) = balancedFrom d e xs := by
  conv => lhs; unfold balancedFrom
  simp [Entity.balanced, ActKind.balanced]

/-- The stacks end up with the part below the scopes opened. -/
structure Below (c c' : Ctx) : Prop where
  lc : ∃ X, c'.lcStack = X ++ c.lcStack
  env : ∃ X, c'.envStack = X ++ c.envStack

theorem SameStacks.below {c c' : Ctx} (h : SameStacks c c') : Below c c' :=
  ⟨⟨[], by simp [h.lc]⟩, ⟨[], by simp [h.env]⟩⟩

/-- What is shown about visiting an entity. -/
def ScopeOK (c c' : Ctx) (r : Res (List Fut)) : Prop :=
  Below c c' ∧ (∀ fs, r = .ok fs → SameStacks c c')

theorem balanced_notScope {id : ActId} {cond : Option Cond} {kind : ActKind}
    (h : Entity.balanced (.act id cond kind) = true) : kind.isScope = false := by
  unfold Entity.balanced at h
  cases kind <;> simp [ActKind.balanced] at h <;> rfl

theorem setActions_balanced (id : ActId) (d e : Nat) (rest : List Entity) :
    ∀ (args : List (List Sub × List Sub)) (k : Nat),
      balancedFrom d e (Entity.setActions id k args ++ rest) = balancedFrom d e rest
  | [], k => rfl
  | (n, v) :: args, k => by
    have ih := setActions_balanced id d e rest args (k + 1)
    unfold Entity.setActions
    rw [List.cons_append]
    conv => lhs; unfold balancedFrom
    simp [Entity.balanced, ActKind.balanced, ih]

theorem balancedFrom_append_closed {ys : List Entity} {d' e' : Nat} :
    ∀ (xs : List Entity) (d e : Nat), balancedFrom d e xs = true → balancedFrom d' e' ys = true →
      balancedFrom (d + d') (e + e') (xs ++ ys) = true := by
  intro xs
  induction xs with
  | nil =>
    intro d e h hy
    unfold balancedFrom at h
    simp at h
    simp [h, hy]
  | cons x xs ih =>
    intro d e h hy
    rw [List.cons_append]
    rcases balancedFrom_cons h with ⟨id, rfl, h1⟩ | ⟨id, d1, rfl, rfl, h1⟩ | ⟨id, rfl, h1⟩ | ⟨id, e1, rfl, rfl, h1⟩ | ⟨hb, h1⟩
    · unfold balancedFrom
      have := ih _ _ h1 hy
      rw [show d + 1 + d' = d + d' + 1 by omega] at this
      exact this
    · rw [show d1 + 1 + d' = d1 + d' + 1 by omega]
      unfold balancedFrom
      exact ih _ _ h1 hy
    · unfold balancedFrom
      have := ih _ _ h1 hy
      rw [show e + 1 + e' = e + e' + 1 by omega] at this
      exact this
    · rw [show e1 + 1 + e' = e1 + e' + 1 by omega]
      unfold balancedFrom
      exact ih _ _ h1 hy
    · have h2 := ih _ _ h1 hy
      unfold balancedFrom
      split
      · simp [Entity.balanced, ActKind.balanced] at hb
      · simp [Entity.balanced, ActKind.balanced] at hb
      · simp [Entity.balanced, ActKind.balanced] at hb
      · simp [Entity.balanced, ActKind.balanced] at hb
      · simp [hb, h2]

theorem groupSub_balanced {id : ActId} {s f : Bool} {cfg : List (List Sub × List Sub)} {as : List Entity}
    (h : balancedFrom 0 0 as = true) : balancedFrom 0 0 (Entity.groupSubEntities id s f cfg as) = true := by
  unfold Entity.groupSubEntities
  have hpops : balancedFrom 1 1 [.act (.derived id 2) none .popEnv, .act (.derived id 3) none .popLC] = true := by
    simp [balancedFrom]
  have h1 := balancedFrom_append_closed as 0 0 h hpops
  simp only [Nat.zero_add] at h1
  split
  · split
    · simp only [List.cons_append, List.nil_append, List.append_assoc]
      rw [bal_pushLC, bal_pushEnv, setActions_balanced]
      exact h1
    · simp only [List.cons_append, List.nil_append]
      rw [bal_pushLC, bal_pushEnv, bal_resetEnv, bal_resetLC]
      exact h1
  · rw [setActions_balanced]; exact h

theorem enter_balanced {P : Prog} {O : Oracle} {n : Nat} {e : Entity} {c c' : Ctx}
    {r : Res (List Entity)} (hP : P.Balanced) (hb : e.balanced = true)
    (h : enter P O n e c = some (c', r)) :
    SameStacks c c' ∧ ∀ subs, r = .ok subs → balancedFrom 0 0 subs = true := by
  cases e with
  | desc es =>
    simp [enter] at h
    refine ⟨by rw [← h.1]; exact SameStacks.refl c, fun subs hs => ?_⟩
    rw [← h.2] at hs
    cases hs
    unfold Entity.balanced at hb
    exact hb
  | act id cond kind =>
    have hk := balanced_notScope hb
    simp only [enter] at h
    have hf := condEval_frames O P.preds cond c
    cases hc : condEval O P.preds cond c with
    | mk c1 r1 =>
      rw [hc] at h hf
      have hs1 : SameStacks c c1 := hf.stacks
      cases r1 with
      | error e =>
        simp at h
        exact ⟨by rw [← h.1]; exact hs1, fun subs hs => by rw [← h.2] at hs; cases hs⟩
      | ok b =>
        cases b with
        | false =>
          simp at h
          exact ⟨by rw [← h.1]; exact hs1, fun subs hs => by rw [← h.2] at hs; cases hs; rfl⟩
        | true =>
          simp only at h
          cases hx : execute P O n id kind { c1 with trace := c1.trace ++ [id] } with
          | none => rw [hx] at h; simp at h
          | some x =>
            obtain ⟨c2, r2⟩ := x
            rw [hx] at h; simp at h
            have hs2 : SameStacks c1 c2 :=
              (trace_step c1 [id]).toSameStacks.trans (execute_step hk hx).toSameStacks
            refine ⟨by rw [← h.1]; exact hs1.trans (hs2.trans (announce_step P id c2).toSameStacks), ?_⟩
            intro subs hs
            rw [← h.2] at hs
            subst hs
            unfold Entity.balanced at hb
            cases kind with
            | group s f cfg as =>
              simp [execute] at hx
              rw [← hx.2]
              simp only [ActKind.balanced] at hb
              exact groupSub_balanced hb
            | includeLD src args =>
              simp only [execute, executeInclude] at hx
              cases hg : getDescription P O src { c1 with trace := c1.trace ++ [id] } with
              | mk c3 r3 =>
                rw [hg] at hx
                cases r3 with
                | error e => simp at hx
                | ok es =>
                  have hes : balancedFrom 0 0 es = true := by
                    unfold getDescription at hg
                    split at hg
                    · simp at hg
                    · split at hg
                      · simp at hg
                      · rename_i hl
                        simp at hg
                        rw [← hg.2]
                        exact hP.load _ _ _ hl
                  simp only at hx
                  repeat' split at hx
                  all_goals first | (simp at hx; done) | skip
                  simp at hx
                  rw [← hx.2, setActions_balanced]
                  simp [balancedFrom, Entity.balanced, hes]
            | custom f d =>
              simp [execute] at hx
              exact hP.fn _ _ _ hx.2
            | pushLC => simp [ActKind.isScope] at hk
            | popLC => simp [ActKind.isScope] at hk
            | pushEnv => simp [ActKind.isScope] at hk
            | popEnv => simp [ActKind.isScope] at hk
            | setLC n v =>
              simp only [execute, M.bind] at hx
              repeat' split at hx
              all_goals (simp at hx; try (obtain ⟨_, rfl⟩ := hx; rfl))
            | unsetLC n =>
              simp only [execute, M.bind] at hx
              repeat' split at hx
              all_goals (simp at hx; try (obtain ⟨_, rfl⟩ := hx; rfl))
            | resetLC k =>
              cases k with
              | none => simp [execute] at hx; obtain ⟨_, rfl⟩ := hx; rfl
              | some k =>
                simp only [execute, M.bind] at hx
                repeat' split at hx
                all_goals (simp at hx; try (obtain ⟨_, rfl⟩ := hx; rfl))
            | setEnv n v =>
              simp only [execute, M.bind, Ctx.envSet] at hx
              repeat' split at hx
              all_goals (simp [Except.map] at hx; try (obtain ⟨_, rfl⟩ := hx; rfl))
            | unsetEnv n =>
              simp only [execute, M.bind] at hx
              repeat' split at hx
              all_goals (simp at hx; try (obtain ⟨_, rfl⟩ := hx; rfl))
            | appendEnv n v p sep =>
              simp only [execute, M.bind, Ctx.envSet] at hx
              repeat' split at hx
              all_goals (simp [Except.map] at hx; try (obtain ⟨_, rfl⟩ := hx; rfl))
            | resetEnv => simp [execute] at hx; obtain ⟨_, rfl⟩ := hx; rfl
            | declareArg name d ch =>
              simp only [execute, M.bind] at hx
              repeat' split at hx
              all_goals (simp at hx; try (obtain ⟨_, rfl⟩ := hx; rfl))
            | logInfo m =>
              simp only [execute, M.bind, M.pure] at hx
              repeat' split at hx
              all_goals (simp at hx; try (obtain ⟨_, rfl⟩ := hx; rfl))
            | emitEvent e => simp [execute] at hx; obtain ⟨_, rfl⟩ := hx; rfl
            | registerHandler hh d => simp [execute] at hx; obtain ⟨_, rfl⟩ := hx; rfl
            | unregisterHandler hh =>
              simp only [execute, Ctx.unregisterHandler] at hx
              repeat' split at hx
              all_goals (simp [Except.map] at hx; try (obtain ⟨_, rfl⟩ := hx; rfl))

/-- Entering one of the unconditional scope actions. -/
theorem visit_scope {P : Prog} {O : Oracle} {n : Nat} {id : ActId} {kind : ActKind} {c c' : Ctx}
    {r : Res (List Fut)} (hk : kind.isScope = true)
    (h : visit P O n (.act id none kind) c = some (c', r)) :
    ∃ c2 r2, execute P O 0 id kind { c with trace := c.trace ++ [id] } = some (c2, r2) ∧
      SameStacks c2 c' ∧ c'.lc = c2.lc ∧ c'.env = c2.env ∧ (∀ fs, r = .ok fs → r2 = .ok []) ∧
      (∀ e, r = .error e → r2 = .error e) := by
  cases n with
  | zero => simp [visit] at h
  | succ n =>
    have hfuel : execute P O n id kind { c with trace := c.trace ++ [id] } =
        execute P O 0 id kind { c with trace := c.trace ++ [id] } := by
      cases kind <;> simp [ActKind.isScope] at hk <;> rfl
    unfold visit at h
    simp only [enter, condEval, M.pure, hfuel] at h
    cases hx : execute P O 0 id kind { c with trace := c.trace ++ [id] } with
    | none => rw [hx] at h; simp at h
    | some x =>
      obtain ⟨c2, r2⟩ := x
      refine ⟨c2, r2, rfl, ?_⟩
      have hr2 : ∀ es, r2 = .ok es → es = [] := by
        intro es he
        subst he
        cases kind <;> simp [ActKind.isScope] at hk
        · simp [execute] at hx; rw [hx.2]
        · simp only [execute, Ctx.popLC] at hx
          split at hx <;> simp [Except.map] at hx
          rw [hx.2]
        · simp [execute] at hx; rw [hx.2]
        · simp only [execute, Ctx.popEnv] at hx
          split at hx <;> simp [Except.map] at hx
          rw [hx.2]
      have hann : SameStacks c2 (announce P id c2) := (announce_step P id c2).toSameStacks
      have hann2 : (announce P id c2).lc = c2.lc ∧ (announce P id c2).env = c2.env := by
        unfold announce
        split
        · split <;> exact ⟨rfl, rfl⟩
        · exact ⟨rfl, rfl⟩
      rw [hx] at h
      cases r2 with
      | error e =>
        simp at h
        rw [← h.1, ← h.2]
        exact ⟨hann, hann2.1, hann2.2, by simp, by simp⟩
      | ok es =>
        have he := hr2 es rfl
        subst he
        simp [visitList] at h
        rw [← h.1, ← h.2]
        exact ⟨hann, hann2.1, hann2.2, by simp, by simp⟩

theorem visitList_scope {v : Entity → Ctx → Outcome (List Fut)}
    (hbal : ∀ e c c' r, e.balanced = true → v e c = some (c', r) → ScopeOK c c' r)
    (hsc : ∀ id kind c c' r, kind.isScope = true → v (.act id none kind) c = some (c', r) →
      ∃ c2 r2, (∀ (P : Prog) (O : Oracle), execute P O 0 id kind { c with trace := c.trace ++ [id] } = some (c2, r2)) ∧
        SameStacks c2 c' ∧ (∀ fs, r = .ok fs → r2 = .ok [])) :
    ∀ (xs : List Entity) (d e : Nat) (c c' : Ctx) (r : Res (List Fut)) (F G B B' : List (Dict String)),
      balancedFrom d e xs = true → visitList v xs c = some (c', r) →
      c.lcStack = F ++ B → F.length = d → c.envStack = G ++ B' → G.length = e →
      (∃ X, c'.lcStack = X ++ B) ∧ (∃ X, c'.envStack = X ++ B') ∧
      (∀ fs, r = .ok fs → c'.lcStack = B ∧ c'.envStack = B') := by
  intro xs
  induction xs with
  | nil =>
    intro d e c c' r F G B B' hb h hF hd hG he
    unfold balancedFrom at hb
    simp at hb
    simp [visitList] at h
    rw [← h.1]
    have hF0 : F = [] := List.length_eq_zero_iff.mp (by omega)
    have hG0 : G = [] := List.length_eq_zero_iff.mp (by omega)
    subst hF0 hG0
    exact ⟨⟨[], hF⟩, ⟨[], hG⟩, fun _ _ => ⟨hF, hG⟩⟩
  | cons x xs ih =>
    intro d e c c' r F G B B' hb h hF hd hG he
    -- first visit
    cases h1 : v x c with
    | none => simp [visitList, h1] at h
    | some y =>
      obtain ⟨c1, r1⟩ := y
      -- stacks after the first visit
      have main : ∀ (F1 G1 : List (Dict String)) (d1 e1 : Nat),
          c1.lcStack = F1 ++ B → c1.envStack = G1 ++ B' →
          (∀ fs, r1 = .ok fs → F1.length = d1 ∧ G1.length = e1 ∧ balancedFrom d1 e1 xs = true) →
          (∃ X, c'.lcStack = X ++ B) ∧ (∃ X, c'.envStack = X ++ B') ∧
          (∀ fs, r = .ok fs → c'.lcStack = B ∧ c'.envStack = B') := by
        intro F1 G1 d1 e1 hF1 hG1 hok
        unfold visitList at h
        rw [h1] at h
        cases r1 with
        | error err =>
          simp at h
          rw [← h.1, ← h.2]
          exact ⟨⟨_, hF1⟩, ⟨_, hG1⟩, by simp⟩
        | ok fs =>
          obtain ⟨hl1, hl2, hb1⟩ := hok fs rfl
          simp only at h
          cases h2 : visitList v xs c1 with
          | none => rw [h2] at h; simp at h
          | some z =>
            obtain ⟨c2, r2⟩ := z
            rw [h2] at h
            have := ih d1 e1 c1 c2 r2 F1 G1 B B' hb1 h2 hF1 hl1 hG1 hl2
            cases r2 with
            | error err =>
              simp at h
              rw [← h.1, ← h.2]
              exact ⟨this.1, this.2.1, by simp⟩
            | ok gs =>
              simp at h
              rw [← h.1]
              exact ⟨this.1, this.2.1, fun _ _ => this.2.2 gs rfl⟩
      let P0 : Prog := {}
      let O0 : Oracle := sampleOracle
      rcases balancedFrom_cons hb with ⟨id, rfl, hb1⟩ | ⟨id, d', rfl, rfl, hb1⟩ | ⟨id, rfl, hb1⟩ | ⟨id, e', rfl, rfl, hb1⟩ | ⟨hx, hb1⟩
      · obtain ⟨c2, r2, hex, hss, hr⟩ := hsc _ _ _ _ _ rfl h1
        have hex := hex P0 O0
        simp [execute, Ctx.pushLC] at hex
        have hl : c1.lcStack = (c.lc :: F) ++ B := by rw [hss.lc, ← hex.1]; simp [hF]
        have hv : c1.envStack = G ++ B' := by rw [hss.env, ← hex.1]; exact hG
        exact main _ _ _ _ hl hv fun _ _ => ⟨by simp [hd], he, hb1⟩
      · obtain ⟨c2, r2, hex, hss, hr⟩ := hsc _ _ _ _ _ rfl h1
        have hex := hex P0 O0
        obtain ⟨f0, F', rfl⟩ : ∃ f0 F', F = f0 :: F' := by
          cases F with
          | nil => simp at hd
          | cons a b => exact ⟨a, b, rfl⟩
        simp [execute, Ctx.popLC, hF, Except.map] at hex
        have hl : c1.lcStack = F' ++ B := by rw [hss.lc, ← hex.1]
        have hv : c1.envStack = G ++ B' := by rw [hss.env, ← hex.1]; exact hG
        exact main _ _ _ _ hl hv fun _ _ => ⟨by simpa using hd, he, hb1⟩
      · obtain ⟨c2, r2, hex, hss, hr⟩ := hsc _ _ _ _ _ rfl h1
        have hex := hex P0 O0
        simp [execute, Ctx.pushEnv] at hex
        have hl : c1.lcStack = F ++ B := by rw [hss.lc, ← hex.1]; exact hF
        have hv : c1.envStack = (c.env :: G) ++ B' := by rw [hss.env, ← hex.1]; simp [hG]
        exact main _ _ _ _ hl hv fun _ _ => ⟨hd, by simp [he], hb1⟩
      · obtain ⟨c2, r2, hex, hss, hr⟩ := hsc _ _ _ _ _ rfl h1
        have hex := hex P0 O0
        obtain ⟨g0, G', rfl⟩ : ∃ f0 F', G = f0 :: F' := by
          cases G with
          | nil => simp at he
          | cons a b => exact ⟨a, b, rfl⟩
        simp [execute, Ctx.popEnv, hG, Except.map] at hex
        have hl : c1.lcStack = F ++ B := by rw [hss.lc, ← hex.1]; exact hF
        have hv : c1.envStack = G' ++ B' := by rw [hss.env, ← hex.1]
        exact main _ _ _ _ hl hv fun _ _ => ⟨hd, by simpa using he, hb1⟩
      · have hs := hbal _ _ _ _ hx h1
        obtain ⟨⟨⟨X, hX⟩, ⟨Y, hY⟩⟩, hok⟩ := hs
        cases r1 with
        | error err =>
          exact main (X ++ F) (Y ++ G) d e (by rw [hX, hF, List.append_assoc])
            (by rw [hY, hG, List.append_assoc]) (by simp)
        | ok fs =>
          have hss := hok fs rfl
          exact main F G d e (by rw [hss.lc, hF]) (by rw [hss.env, hG]) fun _ _ => ⟨hd, he, hb1⟩

theorem scope_execute_indep {P P' : Prog} {O O' : Oracle} {id : ActId} {kind : ActKind} {c : Ctx}
    (hk : kind.isScope = true) : execute P O 0 id kind c = execute P' O' 0 id kind c := by
  cases kind <;> simp [ActKind.isScope] at hk <;> rfl

/-- Visiting balanced entities keeps the scope stacks. -/
theorem visit_scopeOK {P : Prog} {O : Oracle} (hP : P.Balanced) :
    ∀ (n : Nat) (e : Entity) (c c' : Ctx) (r), e.balanced = true →
      visit P O n e c = some (c', r) → ScopeOK c c' r
  | 0, _, _, _, _, _, h => by simp [visit] at h
  | n + 1, e, c, c', r, hb, h => by
    unfold visit at h
    cases h1 : enter P O n e c with
    | none => rw [h1] at h; simp at h
    | some x =>
      obtain ⟨c1, r1⟩ := x
      obtain ⟨hs1, hsub⟩ := enter_balanced hP hb h1
      rw [h1] at h
      cases r1 with
      | error err =>
        simp at h; rw [← h.1, ← h.2]
        exact ⟨hs1.below, by simp⟩
      | ok subs =>
        simp only at h
        cases h2 : visitList (visit P O n) subs c1 with
        | none => rw [h2] at h; simp at h
        | some y =>
          obtain ⟨c2, r2⟩ := y
          have hl := visitList_scope (visit_scopeOK hP n)
            (fun id kind c c' r hk hv => by
              obtain ⟨c2, r2, hx, hss, _, _, hr, _⟩ := visit_scope hk hv
              exact ⟨c2, r2, fun P' O' => by rw [scope_execute_indep hk]; exact hx, hss, hr⟩)
            subs 0 0 c1 c2 r2 [] [] c1.lcStack c1.envStack (hsub subs rfl) h2 rfl rfl rfl rfl
          rw [h2] at h
          have hb2 : Below c c2 := ⟨by rw [← hs1.lc]; exact hl.1, by rw [← hs1.env]; exact hl.2.1⟩
          cases r2 with
          | error err => simp at h; rw [← h.1, ← h.2]; exact ⟨hb2, by simp⟩
          | ok gs =>
            simp at h
            rw [← h.1]
            have := hl.2.2 gs rfl
            exact ⟨hb2, fun _ _ => ⟨this.1.trans hs1.lc, this.2.trans hs1.env⟩⟩

theorem visitList_scopeOK {P : Prog} {O : Oracle} (hP : P.Balanced) {n : Nat} {xs : List Entity}
    {c c' : Ctx} {r : Res (List Fut)} (hb : balancedFrom 0 0 xs = true)
    (h : visitList (visit P O n) xs c = some (c', r)) : ScopeOK c c' r := by
  have hl := visitList_scope (visit_scopeOK (O := O) hP n)
    (fun id kind c c' r hk hv => by
      obtain ⟨c2, r2, hx, hss, _, _, hr, _⟩ := visit_scope hk hv
      exact ⟨c2, r2, fun P' O' => by rw [scope_execute_indep hk]; exact hx, hss, hr⟩)
    xs 0 0 c c' r [] [] c.lcStack c.envStack hb h rfl rfl rfl rfl
  exact ⟨⟨hl.1, hl.2.1⟩, fun fs hfs => ⟨(hl.2.2 fs hfs).1, (hl.2.2 fs hfs).2⟩⟩

theorem visitList_nil_ok {v : Entity → Ctx → Outcome (List Fut)} {c c' : Ctx} {fs : List Fut}
    (h : visitList v [] c = some (c', .ok fs)) : c' = c := by
  simp [visitList] at h; exact h.1.symm

/-- A push/pop pair of both kinds around balanced entities restores configurations and environment. -/
theorem bracket_restores {P : Prog} {O : Oracle} (hP : P.Balanced) {n : Nat} {a b d e : ActId}
    {mid : List Entity} {c c' : Ctx} {fs : List Fut} (hb : balancedFrom 0 0 mid = true)
    (h : visitList (visit P O n) ([.act a none .pushLC, .act b none .pushEnv] ++ mid ++
      [.act d none .popEnv, .act e none .popLC]) c = some (c', .ok fs)) :
    c'.lc = c.lc ∧ c'.env = Dict.update [] c.env ∧ SameStacks c c' := by
  rw [List.append_assoc] at h
  obtain ⟨c2, g1, h1, hp, hrest, _⟩ := visitList_append_ok h
  obtain ⟨c3, g2, h2, hmid, hpops, _⟩ := visitList_append_ok hrest
  obtain ⟨a1, _, _, va1, vr, _⟩ := visitList_cons_ok hp
  obtain ⟨a2, _, _, va2, vr2, _⟩ := visitList_cons_ok vr
  have e2 := visitList_nil_ok vr2
  subst e2
  obtain ⟨b1, _, _, vb1, vr3, _⟩ := visitList_cons_ok hpops
  obtain ⟨b2, _, _, vb2, vr4, _⟩ := visitList_cons_ok vr3
  have e4 := visitList_nil_ok vr4
  subst e4
  obtain ⟨x1, r1, ex1, s1, l1, v1, _, _⟩ := visit_scope rfl va1
  obtain ⟨x2, r2, ex2, s2, l2, v2, _, _⟩ := visit_scope rfl va2
  have hm := (visitList_scopeOK hP hb hmid).2 _ rfl
  obtain ⟨x3, r3, ex3, s3, l3, v3, _, _⟩ := visit_scope rfl vb1
  obtain ⟨x4, r4, ex4, s4, l4, v4, ok4, _⟩ := visit_scope rfl vb2
  simp [execute, Ctx.pushLC] at ex1
  simp [execute, Ctx.pushEnv] at ex2
  have hL : c3.lcStack = c.lc :: c.lcStack := by
    rw [hm.lc, s2.lc, ← ex2.1]; show a1.lcStack = _; rw [s1.lc, ← ex1.1]
  have hE : c3.envStack = c.env :: c.envStack := by
    rw [hm.env, s2.env, ← ex2.1]
    show a1.env :: a1.envStack = _
    rw [s1.env, v1, ← ex1.1]
  simp [execute, Ctx.popEnv, hE, Except.map] at ex3
  have hL4 : b1.lcStack = c.lc :: c.lcStack := by rw [s3.lc, ← ex3.1]; exact hL
  simp [execute, Ctx.popLC, hL4, Except.map] at ex4
  refine ⟨?_, ?_, ?_, ?_⟩
  · rw [l4, ← ex4.1]
  · rw [v4, ← ex4.1]; show b1.env = _; rw [v3, ← ex3.1]
  · rw [s4.lc, ← ex4.1]
  · rw [s4.env, ← ex4.1]; show b1.envStack = _; rw [s3.env, ← ex3.1]

theorem announce_lc_env (P : Prog) (id : ActId) (c : Ctx) :
    (announce P id c).lc = c.lc ∧ (announce P id c).env = c.env := by
  unfold announce
  split
  · split <;> exact ⟨rfl, rfl⟩
  · exact ⟨rfl, rfl⟩

theorem performPairs_frames (O : Oracle) (ks : List (List Sub × List Sub)) :
    Frames (performPairs O ks) := by
  induction ks with
  | nil => exact Frames.pure _
  | cons a as ih =>
    exact (performSubs_frames O a.1).bind fun _ => (performSubs_frames O a.2).bind fun _ =>
      ih.bind fun _ => Frames.pure _

theorem evalKeep_eq (O : Oracle) (ks : List (List Sub × List Sub)) (acc : Dict String) (c : Ctx) :
    evalKeep O ks acc c =
      M.bind (performPairs O ks) (fun ps => M.pure (ps.foldl (fun d p => d.set p.1 p.2) acc)) c := by
  induction ks generalizing acc c with
  | nil => rfl
  | cons a as ih =>
    unfold evalKeep performPairs
    rw [M.bind_assoc]
    refine M.bind_congr rfl fun x c1 => ?_
    rw [M.bind_assoc]
    refine M.bind_congr rfl fun y c2 => ?_
    rw [M.bind_assoc, ih]
    rfl

theorem foldl_set_get (ps : List (String × String)) (acc : Dict String) (k : String) :
    (ps.foldl (fun d p => d.set p.1 p.2) acc).get? k = (lastValue ps k).or (acc.get? k) := by
  induction ps generalizing acc with
  | nil => simp [lastValue]
  | cons p ps ih =>
    rw [List.foldl_cons, ih, Dict.get?_set]
    simp only [lastValue, List.reverse_cons, List.lookup_append]
    cases hl : List.lookup k ps.reverse with
    | some v => simp
    | none =>
      by_cases hk : p.1 = k
      · subst hk; simp [List.lookup]
      · have hk' : (k == p.1) = false := by simp [Ne.symm hk]
        simp [List.lookup, hk, hk']

theorem foldl_set_wf (ps : List (String × String)) (acc : Dict String) (h : acc.Wf) :
    (ps.foldl (fun d p => d.set p.1 p.2) acc).Wf := by
  induction ps generalizing acc with
  | nil => exact h
  | cons p ps ih => exact ih _ (h.set _ _)

/-- The part of a context that scopes and performing substitutions are about. -/
structure View where
  lc : Dict String
  lcStack : List (Dict String)
  env : Dict String
  envStack : List (Dict String)
  envReset : Dict String
  locals : Locals
  rng : Nat

def Ctx.view (c : Ctx) : View := ⟨c.lc, c.lcStack, c.env, c.envStack, c.envReset, c.locals, c.rng⟩

theorem announce_view (P : Prog) (id : ActId) (c : Ctx) : (announce P id c).view = c.view := by
  unfold announce
  split
  · split <;> rfl
  · rfl

theorem visit_simple_ok {P : Prog} {O : Oracle} {n : Nat} {id : ActId} {kind : ActKind} {c c' : Ctx}
    {fs : List Fut} (h : visit P O (n + 1) (.act id none kind) c = some (c', .ok fs)) :
    ∃ c2 subs gs, execute P O n id kind { c with trace := c.trace ++ [id] } = some (c2, .ok subs) ∧
      visitList (visit P O n) subs (announce P id c2) = some (c', .ok gs) := by
  obtain ⟨c1, subs, gs, hent, hvl, _⟩ := visit_ok h
  simp only [enter, condEval, M.pure] at hent
  cases hx : execute P O n id kind { c with trace := c.trace ++ [id] } with
  | none => rw [hx] at hent; simp at hent
  | some x =>
    obtain ⟨c2, r2⟩ := x
    rw [hx] at hent
    simp at hent
    obtain ⟨rfl, rfl⟩ := hent
    exact ⟨c2, subs, gs, rfl, hvl⟩

theorem visit_leaf_view {P : Prog} {O : Oracle} {n : Nat} {id : ActId} {kind : ActKind} {c c' : Ctx}
    {fs : List Fut} (hk : ∀ c2 subs, execute P O n id kind { c with trace := c.trace ++ [id] } = some (c2, .ok subs) → subs = [])
    (h : visit P O (n + 1) (.act id none kind) c = some (c', .ok fs)) :
    ∃ c2, execute P O n id kind { c with trace := c.trace ++ [id] } = some (c2, .ok []) ∧ c'.view = c2.view := by
  obtain ⟨c2, subs, gs, hx, hvl⟩ := visit_simple_ok h
  have := hk c2 subs hx
  subst this
  have := visitList_nil_ok hvl
  subst this
  exact ⟨c2, hx, announce_view P id c2⟩

theorem visit_pushLC_view {P : Prog} {O : Oracle} {n : Nat} {id : ActId} {c c' : Ctx} {fs : List Fut}
    (h : visit P O n (.act id none .pushLC) c = some (c', .ok fs)) :
    c'.view = { c.view with lcStack := c.lc :: c.lcStack } := by
  cases n with
  | zero => simp [visit] at h
  | succ n =>
    obtain ⟨c2, hx, hv⟩ := visit_leaf_view (by intro c2 s hs; simp [execute] at hs; exact hs.2) h
    simp [execute, Ctx.pushLC] at hx
    rw [hv, ← hx]; rfl

theorem visit_pushEnv_view {P : Prog} {O : Oracle} {n : Nat} {id : ActId} {c c' : Ctx} {fs : List Fut}
    (h : visit P O n (.act id none .pushEnv) c = some (c', .ok fs)) :
    c'.view = { c.view with envStack := c.env :: c.envStack } := by
  cases n with
  | zero => simp [visit] at h
  | succ n =>
    obtain ⟨c2, hx, hv⟩ := visit_leaf_view (by intro c2 s hs; simp [execute] at hs; exact hs.2) h
    simp [execute, Ctx.pushEnv] at hx
    rw [hv, ← hx]; rfl

theorem visit_resetEnv_view {P : Prog} {O : Oracle} {n : Nat} {id : ActId} {c c' : Ctx} {fs : List Fut}
    (h : visit P O n (.act id none .resetEnv) c = some (c', .ok fs)) :
    c'.view = { c.view with env := Dict.update [] c.envReset } := by
  cases n with
  | zero => simp [visit] at h
  | succ n =>
    obtain ⟨c2, hx, hv⟩ := visit_leaf_view (by intro c2 s hs; simp [execute] at hs; exact hs.2) h
    simp [execute, Ctx.resetEnv] at hx
    rw [hv, ← hx]; rfl

theorem visit_resetLC_view {P : Prog} {O : Oracle} {n : Nat} {id : ActId} {c c' : Ctx} {fs : List Fut}
    {keep : List (List Sub × List Sub)}
    (h : visit P O n (.act id none (.resetLC (some keep))) c = some (c', .ok fs)) :
    ∃ c3 d, evalKeep O keep [] { c with trace := c.trace ++ [id] } = (c3, .ok d) ∧
      c'.view = { c3.view with lc := Dict.update [] d } := by
  cases n with
  | zero => simp [visit] at h
  | succ n =>
    have hres : ∀ c2 s, execute P O n id (.resetLC (some keep)) { c with trace := c.trace ++ [id] } = some (c2, .ok s) →
        s = [] ∧ ∃ c3 d, evalKeep O keep [] { c with trace := c.trace ++ [id] } = (c3, .ok d) ∧
          c2 = { c3 with lc := Dict.update [] d } := by
      intro c2 s hs
      simp only [execute, M.bind] at hs
      cases he : evalKeep O keep [] { c with trace := c.trace ++ [id] } with
      | mk c3 r3 =>
        rw [he] at hs
        cases r3 with
        | error e => simp at hs
        | ok d => simp at hs; exact ⟨hs.2, c3, d, rfl, hs.1.symm⟩
    obtain ⟨c2, hx, hv⟩ := visit_leaf_view (fun c2 s hs => (hres c2 s hs).1) h
    obtain ⟨_, c3, d, he, hc⟩ := hres _ _ hx
    exact ⟨c3, d, he, by rw [hv, hc]; rfl⟩

end Verif
