import Verif.Lemmas.EnvFree
import Verif.Props.Scope
import Verif.Props.Subst
import Verif.Props.SubstMore

/-! # C02, C15, C16, C17, C61: further theorems -/

namespace Verif

/-- C02, for entries that do not read the environment: the contents of a non-forwarding scoped group are visited from a context whose configurations are exactly
the entries of the group, performed in the enclosing scope, and whose environment is the one the context had when it was created. -/
theorem C02_environment_free (P : Prog) (O : Oracle) (n : Nat) (id : ActId) (cfg : List (List Sub × List Sub)) (as : List Entity) (c c' : Ctx) (fs : List Fut)
    (hwf : c.envReset.Wf) (hfree : ∀ p ∈ cfg, envFreeAll p.1 = true ∧ envFreeAll p.2 = true)
    (h : visit P O (n + 1) (.act id none (.group true false cfg as)) c = some (c', .ok fs)) :
    ∃ c1 c2 ps gs, (performPairs O cfg c).2 = .ok ps ∧ (∀ k, c1.lc.get? k = lastValue ps k) ∧ c1.env = c.envReset ∧
      visitList (visit P O n) as c1 = some (c2, .ok gs) := by
  obtain ⟨c0, c1, c2, ps, gs, ⟨h1, h2, h3, _⟩, h5, h6⟩ := C02_clean_slate_partial P O n id cfg as c c' fs hwf h
  exact ⟨c1, c2, ps, gs, by rw [← h5]; exact ((performPairs_blind O cfg hfree) c c0 ⟨h1.symm, h2.symm, h3.symm⟩).2, h6⟩

example : ∀ p ∈ [([Sub.text "a"], [Sub.launchConfig [.text "b"] (some [.text "x"]), .anonName [.text "n"]])], envFreeAll p.1 = true ∧ envFreeAll p.2 = true := by
  decide

/-- C15: the value of NotSubstitution when its operand performs to a text: the text of the negation if it reads as a boolean, SubstitutionFailure otherwise. -/
theorem C15_not_value (O : Oracle) (v : List Sub) (c c1 : Ctx) (s : String) (hv : v ≠ []) (h : performSubs O v c = (c1, .ok s)) :
    (∀ b, textAsBool O s = some b → perform O (.notS v) c = (c1, .ok (if b then "false" else "true"))) ∧
    (textAsBool O s = none → perform O (.notS v) c = (c1, .error .substitutionFailure)) := by
  rw [C15_not, M.bind, boolOperand, if_neg hv, h]
  refine ⟨fun b hb => ?_, fun hb => ?_⟩
  · simp only [hb]; cases b <;> rfl
  · simp only [hb]

/-- C15: the values of AndSubstitution and OrSubstitution when the operands perform to texts: those of the boolean functions if both read as booleans, SubstitutionFailure if one
of them does not. -/
theorem C15_and_or_value (O : Oracle) (l r : List Sub) (c c1 c2 : Ctx) (s t : String) (hl : l ≠ []) (hr : r ≠ []) (h1 : performSubs O l c = (c1, .ok s))
    (h2 : performSubs O r c1 = (c2, .ok t)) :
    (∀ a b, textAsBool O s = some a → textAsBool O t = some b →
      perform O (.andS l r) c = (c2, .ok (if a = true ∧ b = true then "true" else "false")) ∧
      perform O (.orS l r) c = (c2, .ok (if a = true ∨ b = true then "true" else "false"))) ∧
    (textAsBool O s = none ∨ textAsBool O t = none →
      (perform O (.andS l r) c).2 = .error .substitutionFailure ∧ (perform O (.orS l r) c).2 = .error .substitutionFailure) := by
  rw [(C15_and_or O l r c).1, (C15_and_or O l r c).2]
  simp only [M.bind, boolOperand, if_neg hl, if_neg hr, h1]
  refine ⟨fun a b ha hb => ?_, fun h => ?_⟩
  · simp only [ha, h2, hb]; cases a <;> cases b <;> exact ⟨rfl, rfl⟩
  · cases hs : textAsBool O s with
    | none => exact ⟨rfl, rfl⟩
    | some a =>
      have ht : textAsBool O t = none := by rcases h with h | h <;> simp_all
      simp only [h2, ht]
      exact ⟨trivial, trivial⟩

example : textAsBool sampleOracle "1" = some true ∧ textAsBool sampleOracle "maybe" = none := by decide +kernel

/-- C61: if the condition performs to a text that reads as a boolean, the value is that of the branch it selects, performed in the context the condition left,
whatever the other branch is; if the text is not a boolean, neither is performed and SubstitutionFailure is raised. -/
theorem C61_value (O : Oracle) (cond ifValue elseValue : List Sub) (c c1 : Ctx) (s : String) (hc : cond ≠ []) (h : performSubs O cond c = (c1, .ok s)) :
    (textAsBool O s = some true → perform O (.ifElse cond ifValue elseValue) c = performSubs O ifValue c1) ∧
    (textAsBool O s = some false → perform O (.ifElse cond ifValue elseValue) c = performSubs O elseValue c1) ∧
    (textAsBool O s = none → perform O (.ifElse cond ifValue elseValue) c = (c1, .error .substitutionFailure)) := by
  rw [C61_if_else, boolOperand, if_neg hc, h]
  exact ⟨fun hb => by simp only [hb], fun hb => by simp only [hb], fun hb => by simp only [hb]⟩

/-- C16: what operands stand for: a missing one for the empty text, a boolean for its lower-case text, another object for its text. -/
theorem C16_operands (O : Oracle) (c : Ctx) :
    performSubs O EqArg.none.norm c = (c, .ok "") ∧ performSubs O (EqArg.bool true).norm c = (c, .ok "true") ∧ performSubs O (EqArg.bool false).norm c = (c, .ok "false") ∧
    (∀ s, performSubs O (EqArg.obj s).norm c = (c, .ok s)) ∧ ∀ l, performSubs O (EqArg.subs l).norm c = performSubs O l c := by
  have ht : ∀ s, performSubs O [.text s] c = (c, .ok s) := (C13_single O (.text "") c).2.2
  exact ⟨ht "", ht "true", ht "false", ht, fun l => rfl⟩

/-- C17: between two uses of AnonName with the same name, anything may be done in a scoped group: the second use gives the same name, and does not change anything. -/
theorem C17_across_group (P : Prog) (O : Oracle) (hP : P.Balanced) (name : String) (c c1 c2 : Ctx) (v : String) (h : perform O (.anonName [.text name]) c = (c1, .ok v))
    (n : Nat) (id : ActId) (forwarding : Bool) (cfg : List (List Sub × List Sub)) (as : List Entity) (fs : List Fut) (hb : balancedFrom 0 0 as = true) (hwf : c1.env.Wf)
    (hv : visit P O n (.act id none (.group true forwarding cfg as)) c1 = some (c2, .ok fs)) :
    perform O (.anonName [.text name]) c2 = (c2, .ok v) := by
  have ht : ∀ x : Ctx, performSubs O [.text name] x = (x, .ok name) := fun x => (C13_single O (.text name) x).2.2 name
  obtain ⟨h1, h2⟩ := C17_stable O [.text name] name c c c1 v (ht c) h
  exact h2 c2 c2 (ht c2) (by rw [(C01_unconditional P O hP n id forwarding cfg as c1 c2 fs hb hwf hv).1]; exact h1)

/-- C17: a name that was first used inside of a scoped group is forgotten after it: the next use takes the next name from the random source. -/
theorem C17_forgotten_after_group (P : Prog) (O : Oracle) (hP : P.Balanced) (name : String) (c c2 : Ctx) (hn : c.lc.get? ("anon" ++ name) = none)
    (n : Nat) (id : ActId) (forwarding : Bool) (cfg : List (List Sub × List Sub)) (as : List Entity) (fs : List Fut) (hb : balancedFrom 0 0 as = true) (hwf : c.env.Wf)
    (hv : visit P O n (.act id none (.group true forwarding cfg as)) c = some (c2, .ok fs)) :
    (perform O (.anonName [.text name]) c2).2 = .ok (O.anonName c2.rng name) := by
  have := (C01_unconditional P O hP n id forwarding cfg as c c2 fs hb hwf hv).1
  have hj : joinStrs [name] = name := by simp [joinStrs]
  simp only [perform, performAll, M.bind, M.pure, hj]
  rw [this, hn]

theorem runScope_entry (k v : String) : ∀ (os : List ScopeOp) (d : Nat) (c c' : Ctx), KeepsEntry k d os → (c.lc :: c.lcStack)[d]?.bind (fun m => Dict.get? m k) = some v →
    runScope os c = (c', .ok ()) → c'.lc.get? k = some v
  | [], d, c, c', hk, hs, h => by
    simp only [KeepsEntry] at hk
    subst hk
    simp only [runScope, Prod.mk.injEq] at h
    rw [← h.1]
    simpa using hs
  | .pushLC :: os, d, c, c', hk, hs, h => by
    simp only [KeepsEntry] at hk
    simp only [runScope, ScopeOp.run] at h
    exact runScope_entry k v os (d + 1) _ c' hk (by simpa [Ctx.pushLC] using hs) h
  | .popLC :: os, d, c, c', hk, hs, h => by
    cases d with
    | zero => simp [KeepsEntry] at hk
    | succ d =>
      simp only [KeepsEntry] at hk
      simp only [runScope, ScopeOp.run, Ctx.popLC] at h
      cases he : c.lcStack with
      | nil => simp [he] at h
      | cons e es =>
        simp only [he] at h
        exact runScope_entry k v os d _ c' hk (by simpa [he] using hs) h
  | .pushEnv :: os, d, c, c', hk, hs, h => by
    simp only [KeepsEntry] at hk
    simp only [runScope, ScopeOp.run] at h
    exact runScope_entry k v os d _ c' hk (by simpa [Ctx.pushEnv] using hs) h
  | .popEnv :: os, d, c, c', hk, hs, h => by
    simp only [KeepsEntry] at hk
    simp only [runScope, ScopeOp.run, Ctx.popEnv] at h
    cases he : c.envStack with
    | nil => simp [he] at h
    | cons e es =>
      simp only [he] at h
      exact runScope_entry k v os d _ c' hk (by simpa using hs) h
  | .modify f g :: os, d, c, c', hk, hs, h => by
    simp only [runScope, ScopeOp.run] at h
    cases d with
    | zero =>
      simp only [KeepsEntry] at hk
      refine runScope_entry k v os 0 _ c' hk.2 ?_ h
      simp only [List.getElem?_cons_zero, Option.bind_some] at hs ⊢
      exact hk.1 _ _ hs
    | succ d =>
      simp only [KeepsEntry] at hk
      exact runScope_entry k v os (d + 1) _ c' hk (by simpa using hs) h

/-- C17: between two uses of AnonName with the same name, any scopes may be opened and closed, in which anything may happen, and outside of these the configurations may change in any way that
does not touch the memo: the second use gives the same name, and does not change anything. -/
theorem C17_across_operations (O : Oracle) (name : String) (os : List ScopeOp) (hk : KeepsEntry ("anon" ++ name) 0 os) (c c1 c2 : Ctx) (v : String)
    (h : perform O (.anonName [.text name]) c = (c1, .ok v)) (hr : runScope os c1 = (c2, .ok ())) :
    perform O (.anonName [.text name]) c2 = (c2, .ok v) := by
  have ht : ∀ x : Ctx, performSubs O [.text name] x = (x, .ok name) := fun x => (C13_single O (.text name) x).2.2 name
  obtain ⟨h1, h2⟩ := C17_stable O [.text name] name c c c1 v (ht c) h
  exact h2 c2 c2 (ht c2) (runScope_entry _ _ os 0 c1 c2 hk (by simpa using h1) hr)

example : KeepsEntry "anonx" 0 [.pushLC, .modify (fun _ => []) id, .popLC, .modify (fun m => m.set "a" "1") id] :=
  ⟨fun m v h => by rw [Dict.get?_set_ne]; exact h; decide, rfl⟩

end Verif
