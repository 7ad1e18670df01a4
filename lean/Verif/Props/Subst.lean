import Verif.Lemmas.SubstOps

/-!
# Properties C13-C17: substitutions
-/

namespace Verif

/-! ## C13 -/

/-- C13 (concatenation): performing `xs ++ ys` is performing `xs`, then `ys` in the resulting context, and
concatenating; the first failure is the failure of the whole and later members are not performed. -/
theorem C13_concat (O : Oracle) (xs ys : List Sub) (c : Ctx) :
    performSubs O (xs ++ ys) c =
      match performSubs O xs c with
      | (c1, .error e) => (c1, .error e)
      | (c1, .ok a) =>
        match performSubs O ys c1 with
        | (c2, .error e) => (c2, .error e)
        | (c2, .ok b) => (c2, .ok (a ++ b)) := by
  simp only [performSubs, M.bind, M.pure, performAll_append]
  cases h : performAll O xs c with
  | mk c1 r =>
    cases r with
    | error e => simp
    | ok a =>
      simp only
      cases h2 : performAll O ys c1 with
      | mk c2 r2 => cases r2 <;> simp [joinStrs_append]

/-- C13 (single member, empty list and text): with `C13_concat` these determine the result of every list. -/
theorem C13_single (O : Oracle) (s : Sub) (c : Ctx) :
    performSubs O [s] c = perform O s c ∧ performSubs O [] c = (c, .ok "") ∧
    (∀ t, performSubs O [.text t] c = (c, .ok t)) := by
  refine ⟨?_, ?_, ?_⟩
  · simp only [performSubs, performAll, M.bind, M.pure]
    cases h : perform O s c with
    | mk c1 r => cases r <;> simp [joinStrs]
  · simp [performSubs, performAll, M.bind, M.pure, joinStrs]
  · intro t; simp [performSubs, performAll, perform, M.bind, M.pure, joinStrs]

/-- C13 (effects): performing any list of substitutions, successfully or not, changes nothing in the context
but memo entries `anon…` of the launch configurations that did not exist before (and the random
source); in particular environment, scopes, handlers, event queue and every existing configuration
are untouched. -/
theorem C13_effects (O : Oracle) (ss : List Sub) (c : Ctx) :
    let c' := (performSubs O ss c).1
    (∀ k v, c.lc.get? k = some v → c'.lc.get? k = some v) ∧
    (∀ k, c.lc.get? k = none → c'.lc.get? k ≠ none → ∃ n : String, k = "anon" ++ n) ∧
    c' = { c with lc := c'.lc, rng := c'.rng } :=
  have h := performSubs_frames O ss c
  ⟨h.keep, h.new, h.rest⟩

/-- C13 (no effects): performing substitutions that contain no AnonName leaves the whole context
unchanged, even if a member fails. -/
theorem C13_no_effect (O : Oracle) (ss : List Sub) (c : Ctx) (h : anonFreeAll ss = true) :
    (performSubs O ss c).1 = c :=
  Quiet.joined (performAll_quiet O ss h) c

example : anonFreeAll [.launchConfig [.text "a"] (some [.envVar [.text "X"] none]), .text "b"] = true := by
  decide

example : (performSubs sampleOracle [.text "x", .launchConfig [.text "a"] none]
    { lc := [("a", "1")] }).2 = .ok "x1" := by rfl

/-! ## C14 -/

/-- C14 for LaunchConfiguration: once the name performs to `n`, the result is the value currently set for `n`
(even the empty string), otherwise the performed default, otherwise SubstitutionFailure. -/
theorem C14_launch_configuration (O : Oracle) (name : List Sub) (default : Option (List Sub))
    (c c1 : Ctx) (n : String) (hname : performSubs O name c = (c1, .ok n)) :
    perform O (.launchConfig name default) c =
      match c1.lc.get? n, default with
      | some v, _ => (c1, .ok v)
      | none, some d => performSubs O d c1
      | none, none => (c1, .error .substitutionFailure) := by
  have hn : ∃ ns, performAll O name c = (c1, .ok ns) ∧ n = joinStrs ns := by
    simp only [performSubs, M.bind, M.pure] at hname
    cases h : performAll O name c with
    | mk c2 r => cases r <;> simp_all
  obtain ⟨ns, h1, h2⟩ := hn
  simp only [perform, M.bind, h1, ← h2]
  cases hg : c1.lc.get? n with
  | some v => simp
  | none =>
    cases default with
    | none => simp [performOpt, M.pure, M.raise]
    | some d =>
      simp only [performOpt, performSubs, M.bind, M.pure]
      cases h : performAll O d c1 with
      | mk c2 r => cases r <;> simp [M.pure]

/-- C14 for EnvironmentVariable: the default, if any, is performed first and must succeed; then the value of
the variable is used if it is set, the default otherwise, and SubstitutionFailure is raised when
there is neither.  Partial: the English property says nothing is raised when the variable is set; see
`C14_environment_default_violated`. -/
theorem C14_environment_variable_partial (O : Oracle) (name : List Sub) (default : Option (List Sub))
    (c c1 c2 : Ctx) (d : Option String) (n : String)
    (hdef : performOpt O default c = (c1, .ok d)) (hname : performSubs O name c1 = (c2, .ok n)) :
    perform O (.envVar name default) c =
      match c2.env.get? n, d with
      | some v, _ => (c2, .ok v)
      | none, some dv => (c2, .ok dv)
      | none, none => (c2, .error .substitutionFailure) := by
  have hn : ∃ ns, performAll O name c1 = (c2, .ok ns) ∧ n = joinStrs ns := by
    simp only [performSubs, M.bind, M.pure] at hname
    cases h : performAll O name c1 with
    | mk c3 r => cases r <;> simp_all
  obtain ⟨ns, h1, h2⟩ := hn
  simp only [perform, M.bind, hdef, h1, ← h2]
  cases c2.env.get? n <;> cases d <;> simp

/-- C14 is violated for EnvironmentVariable: with the variable set, a default that cannot be performed makes
the substitution fail although the default is not needed (environment_variable.py:91-94 performs it
eagerly).  For every oracle and every environment in which `HOME` is set. -/
theorem C14_environment_default_violated (O : Oracle) (c : Ctx) (v : String)
    (_hset : c.env.get? "HOME" = some v) (hlc : c.lc.get? "nope" = none) :
    (perform O (.envVar [.text "HOME"] (some [.launchConfig [.text "nope"] none])) c).2
      = .error .substitutionFailure := by
  simp [perform, performOpt, performAll, M.bind, M.pure, M.raise, joinStrs, hlc]

example : ∃ c : Ctx, c.env.get? "HOME" = some "/root" ∧ c.lc.get? "nope" = none :=
  ⟨{ env := [("HOME", "/root")] }, by decide, by decide⟩

example : performSubs sampleOracle [.text "a"] { lc := [("a", "")] } =
    ({ lc := [("a", "")] }, .ok "a") := by rfl

/-! ## C15 -/

/-- C15 (Not): NotSubstitution performs to the text of the negation. -/
theorem C15_not (O : Oracle) (v : List Sub) (c : Ctx) :
    perform O (.notS v) c = M.bind (boolOperand O v) (fun b => M.pure (boolText (!b))) c := by
  simp only [perform, M.bind, operand_eq]

/-- C15 (And/Or): both operands are evaluated, left first. -/
theorem C15_and_or (O : Oracle) (l r : List Sub) (c : Ctx) :
    perform O (.andS l r) c =
      M.bind (boolOperand O l) (fun a => M.bind (boolOperand O r) fun b => M.pure (boolText (a && b))) c ∧
    perform O (.orS l r) c =
      M.bind (boolOperand O l) (fun a => M.bind (boolOperand O r) fun b => M.pure (boolText (a || b))) c := by
  constructor <;> simp only [perform, M.bind, operand_eq]

/-- C15 (Any/All): the text of the disjunction / conjunction of all operands. -/
theorem C15_any_all (O : Oracle) (as : List (List Sub)) (c : Ctx) :
    perform O (.anyS as) c =
      M.bind (boolOperands O as) (fun bs => M.pure (boolText (decide (true ∈ bs)))) c ∧
    perform O (.allS as) c =
      M.bind (boolOperands O as) (fun bs => M.pure (boolText (decide (false ∉ bs)))) c := by
  have h1 : ∀ bs : List Bool, bs.any id = decide (true ∈ bs) := by
    intro bs; induction bs with
    | nil => rfl
    | cons b bs ih => cases b <;> simp_all
  have h2 : ∀ bs : List Bool, bs.all id = decide (false ∉ bs) := by
    intro bs; induction bs with
    | nil => rfl
    | cons b bs ih => cases b <;> simp_all
  constructor <;> simp only [perform, M.bind, performBools_eq, h1, h2]

/-- C15 (De Morgan): for every pair of operand lists, oracle with ordinary YAML booleans and context,
`not (and l r)` and `or (not l) (not r)` give the same result (value or exception) and the same final
context; likewise with `and` and `or` exchanged. -/
theorem C15_de_morgan (O : Oracle) (hy : YamlBools O) (l r : List Sub) (c : Ctx) :
    perform O (.notS [.andS l r]) c = perform O (.orS [.notS l] [.notS r]) c ∧
    perform O (.notS [.orS l r]) c = perform O (.andS [.notS l] [.notS r]) c := by
  have hcl : ∀ f : Bool → Bool → Bool, Clean
      (M.bind (boolOperand O l) fun a => M.bind (boolOperand O r) fun b => M.pure (f a b)) := fun f =>
    (boolOperand_clean O l).bind fun a => (boolOperand_clean O r).bind fun b => Clean.pure _
  constructor
  · rw [C15_not, M.bind_congr (operand_of_bool hy (hcl and) c ?_) (fun _ _ => rfl),
      (C15_and_or O [.notS l] [.notS r] c).2, M.bind_congr (operand_not hy l c) (fun _ _ => rfl),
      M.bind_assoc, M.bind_assoc]
    · refine M.bind_congr rfl fun a c' => ?_
      rw [M.pure_bind, M.bind_congr (operand_not hy r c') (fun _ _ => rfl), M.bind_assoc, M.bind_assoc]
      refine M.bind_congr rfl fun b c' => ?_
      simp [M.pure_bind, Bool.not_and]
    · rw [(C15_and_or O l r c).1, M.bind_assoc]
      refine M.bind_congr rfl fun a c' => ?_
      rw [M.bind_assoc]; rfl
  · rw [C15_not, M.bind_congr (operand_of_bool hy (hcl or) c ?_) (fun _ _ => rfl),
      (C15_and_or O [.notS l] [.notS r] c).1, M.bind_congr (operand_not hy l c) (fun _ _ => rfl),
      M.bind_assoc, M.bind_assoc]
    · refine M.bind_congr rfl fun a c' => ?_
      rw [M.pure_bind, M.bind_congr (operand_not hy r c') (fun _ _ => rfl), M.bind_assoc, M.bind_assoc]
      refine M.bind_congr rfl fun b c' => ?_
      simp [M.pure_bind, Bool.not_or]
    · rw [(C15_and_or O l r c).2, M.bind_assoc]
      refine M.bind_congr rfl fun a c' => ?_
      rw [M.bind_assoc]; rfl

/-- C15 (De Morgan, n-ary): `not (any as)` and `all (not as)` agree, for any number of operands. -/
theorem C15_de_morgan_any (O : Oracle) (hy : YamlBools O) (as : List (List Sub)) (c : Ctx) :
    perform O (.notS [.anyS as]) c = perform O (.allS (as.map fun a => [.notS a])) c ∧
    perform O (.notS [.allS as]) c = perform O (.anyS (as.map fun a => [.notS a])) c := by
  have hcl : ∀ f : List Bool → Bool, Clean (M.bind (boolOperands O as) fun bs => M.pure (f bs)) :=
    fun f => (boolOperands_clean O as).bind fun _ => Clean.pure _
  constructor
  · rw [C15_not, M.bind_congr (operand_of_bool hy (hcl fun bs => decide (true ∈ bs)) c ?_)
      (fun _ _ => rfl), (C15_any_all O _ c).2, M.bind_congr (operands_not hy as c) (fun _ _ => rfl),
      M.bind_assoc, M.bind_assoc]
    · refine M.bind_congr rfl fun bs c' => ?_
      simp [M.pure_bind]
    · rw [(C15_any_all O as c).1, M.bind_assoc]; rfl
  · rw [C15_not, M.bind_congr (operand_of_bool hy (hcl fun bs => decide (false ∉ bs)) c ?_)
      (fun _ _ => rfl), (C15_any_all O _ c).1, M.bind_congr (operands_not hy as c) (fun _ _ => rfl),
      M.bind_assoc, M.bind_assoc]
    · refine M.bind_congr rfl fun bs c' => ?_
      simp [M.pure_bind]
    · rw [(C15_any_all O as c).2, M.bind_assoc]; rfl

example : YamlBools sampleOracle := ⟨by rfl, by rfl⟩

example : boolOperand sampleOracle [.launchConfig [.text "a"] none] { lc := [("a", "1")] } =
    ({ lc := [("a", "1")] }, .ok true) := by rfl

/-! ## C16 -/

/-- C16 (complement): for all operands and contexts, EqualsSubstitution performs to `true` or `false`
or propagates the exception of an operand, and NotEqualsSubstitution performs to the other one
(or the same exception), leaving the same context. -/
theorem C16_complement (O : Oracle) (l r : List Sub) (c : Ctx) :
    ∃ c' x, perform O (.equals l r) c = (c', x) ∧
      ((x = .ok "true" ∧ perform O (.notEquals l r) c = (c', .ok "false")) ∨
       (x = .ok "false" ∧ perform O (.notEquals l r) c = (c', .ok "true")) ∨
       (∃ e, x = .error e ∧ perform O (.notEquals l r) c = (c', .error e))) := by
  simp only [perform, M.bind, M.pure]
  cases h1 : performAll O l c with
  | mk c1 r1 =>
    cases r1 with
    | error e => exact ⟨c1, .error e, rfl, .inr (.inr ⟨e, rfl, rfl⟩)⟩
    | ok a =>
      simp only
      cases h2 : performAll O r c1 with
      | mk c2 r2 =>
        cases r2 with
        | error e => exact ⟨c2, .error e, rfl, .inr (.inr ⟨e, rfl, rfl⟩)⟩
        | ok b =>
          refine ⟨c2, _, rfl, ?_⟩
          simp only
          cases equalsTexts O (joinStrs a) (joinStrs b)
          · exact .inr (.inl ⟨rfl, rfl⟩)
          · exact .inl ⟨rfl, rfl⟩

theorem spellsBool_iff (a : String) (x : Bool) : SpellsBool a x ↔ strIsBool a = true ∧ strIsTrue a = x := by
  constructor
  · intro h
    cases h with
    | true h => simp [strIsBool, strIsTrue, h]
    | one h => simp [strIsBool, strIsTrue, h]
    | false h => simp [strIsBool, strIsTrue, h]
    | zero h => simp [strIsBool, strIsTrue, h]
  · rintro ⟨h, rfl⟩
    simp only [strIsBool, Bool.or_eq_true, beq_iff_eq] at h
    rcases h with ((h | h) | h) | h
    · have : strIsTrue a = true := by simp [strIsTrue, h]
      rw [this]; exact .true h
    · have : strIsTrue a = false := by simp [strIsTrue, h]
      rw [this]; exact .false h
    · have : strIsTrue a = true := by simp [strIsTrue, h]
      rw [this]; exact .one h
    · have : strIsTrue a = false := by simp [strIsTrue, h]
      rw [this]; exact .zero h

theorem spellsBool_both (a b : String) : (∃ x y, SpellsBool a x ∧ SpellsBool b y) ↔ (strIsBool a && strIsBool b) = true := by
  simp only [spellsBool_iff, Bool.and_eq_true]
  exact ⟨fun ⟨_, _, h1, h2⟩ => ⟨h1.1, h2.1⟩, fun ⟨h1, h2⟩ => ⟨_, _, ⟨h1, rfl⟩, ⟨h2, rfl⟩⟩⟩

theorem equalsTexts_iff (O : Oracle) (a b : String) (x : Bool) : EqualsSpec O a b x ↔ equalsTexts O a b = x := by
  constructor
  · intro h
    cases h with
    | bools h1 h2 =>
      have hb := (spellsBool_both a b).1 ⟨_, _, h1, h2⟩
      simp only [equalsTexts, hb, if_true, ((spellsBool_iff _ _).1 h1).2, ((spellsBool_iff _ _).1 h2).2]
      rename_i u v
      cases u <;> cases v <;> rfl
    | nums h hx hy =>
      rw [spellsBool_both] at h
      simp [equalsTexts, h, hx, hy]
    | texts h hxy =>
      rw [spellsBool_both] at h
      have hd : (a == b) = decide (a = b) := by
        by_cases hab : a = b
        · simp [hab]
        · simp [hab]
      rcases hxy with h1 | h1
      · simp [equalsTexts, h, h1, hd]
      · cases h2 : O.parseFloat a <;> simp [equalsTexts, h, h1, hd]
  · rintro rfl
    by_cases h : (strIsBool a && strIsBool b) = true
    · obtain ⟨x, y, h1, h2⟩ := (spellsBool_both a b).2 h
      have : equalsTexts O a b = decide (x = y) := by
        simp only [equalsTexts, h, if_true, ((spellsBool_iff _ _).1 h1).2, ((spellsBool_iff _ _).1 h2).2]
        cases x <;> cases y <;> rfl
      rw [this]; exact .bools h1 h2
    · have h' : ¬ (∃ x y, SpellsBool a x ∧ SpellsBool b y) := fun hh => h ((spellsBool_both a b).1 hh)
      have hd : (a == b) = decide (a = b) := by
        by_cases hab : a = b
        · simp [hab]
        · simp [hab]
      cases hx : O.parseFloat a with
      | none =>
        have : equalsTexts O a b = decide (a = b) := by simp [equalsTexts, h, hx, hd]
        rw [this]; exact .texts h' (.inl hx)
      | some x =>
        cases hy : O.parseFloat b with
        | none =>
          have : equalsTexts O a b = decide (a = b) := by simp [equalsTexts, h, hx, hy, hd]
          rw [this]; exact .texts h' (.inr hy)
        | some y =>
          have : equalsTexts O a b = O.isClose x y := by simp [equalsTexts, h, hx, hy]
          rw [this]; exact .nums h' hx hy

theorem perform_equals (O : Oracle) (l r : List Sub) (c c1 c2 : Ctx) (a b : String)
    (hl : performSubs O l c = (c1, .ok a)) (hr : performSubs O r c1 = (c2, .ok b)) :
    perform O (.equals l r) c = (c2, .ok (boolText (equalsTexts O a b))) := by
  simp only [performSubs, M.bind, M.pure] at hl hr
  simp only [perform, M.bind, M.pure]
  cases h1 : performAll O l c with
  | mk d1 r1 =>
    rw [h1] at hl
    cases r1 with
    | error e => simp at hl
    | ok xs =>
      simp only [Prod.mk.injEq, Except.ok.injEq] at hl
      obtain ⟨rfl, rfl⟩ := hl
      simp only
      cases h2 : performAll O r d1 with
      | mk d2 r2 =>
        rw [h2] at hr
        cases r2 with
        | error e => simp at hr
        | ok ys =>
          simp only [Prod.mk.injEq, Except.ok.injEq] at hr
          obtain ⟨rfl, rfl⟩ := hr
          rfl

/-- C16 (comparison): if the operands perform to the texts `a` and `b`, EqualsSubstitution performs to `true` exactly if these are equal in
the sense of `EqualsSpec`, and to `false` otherwise. -/
theorem C16_decision (O : Oracle) (l r : List Sub) (c c1 c2 : Ctx) (a b : String)
    (hl : performSubs O l c = (c1, .ok a)) (hr : performSubs O r c1 = (c2, .ok b)) :
    ∃ x, EqualsSpec O a b x ∧ (∀ y, EqualsSpec O a b y → y = x) ∧
      perform O (.equals l r) c = (c2, .ok (if x then "true" else "false")) := by
  refine ⟨equalsTexts O a b, (equalsTexts_iff O a b _).2 rfl, fun y hy => ((equalsTexts_iff O a b y).1 hy).symm, ?_⟩
  rw [perform_equals O l r c c1 c2 a b hl hr]
  cases equalsTexts O a b <;> rfl

/-- C16 (symmetry): comparison of two texts is symmetric when `math.isclose` is (it is, by its definition). -/
theorem C16_symmetric (O : Oracle) (hs : ∀ x y, O.isClose x y = O.isClose y x) (l r : List Sub) (c : Ctx) (a b : String)
    (hl : performSubs O l c = (c, .ok a)) (hr : performSubs O r c = (c, .ok b)) :
    perform O (.equals l r) c = perform O (.equals r l) c := by
  rw [perform_equals O l r c c c a b hl hr, perform_equals O r l c c c b a hr hl]
  have hb : (strIsTrue a == strIsTrue b) = (strIsTrue b == strIsTrue a) := by
    cases strIsTrue a <;> cases strIsTrue b <;> rfl
  have he : (a == b) = (b == a) := Bool.beq_comm
  have : equalsTexts O a b = equalsTexts O b a := by
    simp only [equalsTexts, Bool.and_comm (strIsBool b), hb, he]
    split
    · rfl
    · cases O.parseFloat a <;> cases O.parseFloat b <;> simp [hs]
  rw [this]

/-- C16 (reflexivity): a text equals itself unless it reads as a number that is not close to itself (`nan`).
Partial: the exception is real, see `C16_reflexivity_violated`. -/
theorem C16_reflexive_partial (O : Oracle) (l r : List Sub) (c c1 c2 : Ctx) (a : String)
    (hl : performSubs O l c = (c1, .ok a)) (hr : performSubs O r c1 = (c2, .ok a))
    (h : ∀ x, O.parseFloat a = some x → O.isClose x x = true) : perform O (.equals l r) c = (c2, .ok "true") := by
  rw [perform_equals O l r c c1 c2 a a hl hr]
  have : equalsTexts O a a = true := by
    simp only [equalsTexts]
    split
    · simp
    · cases hp : O.parseFloat a with
      | none => simp
      | some x => simp [h x hp]
  rw [this]; rfl

example : performSubs sampleOracle [.launchConfig [.text "a"] none] { lc := [("a", "1")] } = ({ lc := [("a", "1")] }, .ok "1") ∧
    EqualsSpec sampleOracle "1" "TRUE" true ∧ EqualsSpec sampleOracle "a" "A" false :=
  ⟨by rfl, (equalsTexts_iff _ _ _ _).2 (by decide), (equalsTexts_iff _ _ _ _).2 (by decide)⟩

/-- C16 is violated at `nan`: with any oracle that reads `nan` as a number that is not close to itself (as
Python's `float` and `math.isclose` do), EqualsSubstitution('nan', 'nan') performs to `false`. -/
theorem C16_reflexivity_violated (O : Oracle) (x : Flt) (hp : O.parseFloat "nan" = some x)
    (hx : O.isClose x x = false) (c : Ctx) :
    perform O (.equals [.text "nan"] [.text "nan"]) c = (c, .ok "false") := by
  have hb : strIsBool "nan" = false := by decide
  simp [perform, performAll, M.bind, M.pure, joinStrs, equalsTexts, hb, hp, hx, boolText]

example : ∃ x, sampleOracle.parseFloat "nan" = some x ∧ sampleOracle.isClose x x = false :=
  ⟨⟨"nan"⟩, by rfl, by rfl⟩

example : equalsTexts sampleOracle "1" "True" = true ∧ equalsTexts sampleOracle "a" "A" = false := by
  decide

/-- C16 (None operands): a missing operand is the empty text and a boolean its lower-case text. -/
theorem C16_none_is_empty (O : Oracle) (c : Ctx) :
    perform O (.equals EqArg.none.norm (EqArg.obj "").norm) c = (c, .ok "true") ∨
    (∃ x, O.parseFloat "" = some x) := by
  cases hp : O.parseFloat "" with
  | some x => exact .inr ⟨x, rfl⟩
  | none =>
    left
    have hb : strIsBool "" = false := by decide
    simp [perform, performAll, M.bind, M.pure, joinStrs, equalsTexts, hb, hp, boolText, EqArg.norm]

/-! ## C17 -/

/-- C17 (stability): once AnonName has performed to `v` for a name, it performs to `v` again and changes
nothing, in every context where the launch configurations still hold the entry it made. -/
theorem C17_stable (O : Oracle) (name : List Sub) (n : String) (c c0 c1 : Ctx) (v : String)
    (hn : performSubs O name c = (c0, .ok n))
    (h : perform O (.anonName name) c = (c1, .ok v)) :
    c1.lc.get? ("anon" ++ n) = some v ∧
    ∀ (c2 c3 : Ctx), performSubs O name c2 = (c3, .ok n) → c3.lc.get? ("anon" ++ n) = some v →
      perform O (.anonName name) c2 = (c3, .ok v) := by
  have key : ∀ (x y : Ctx), performSubs O name x = (y, .ok n) →
      ∃ ns, performAll O name x = (y, .ok ns) ∧ joinStrs ns = n := by
    intro x y hxy
    simp only [performSubs, M.bind, M.pure] at hxy
    cases h : performAll O name x with
    | mk c2 r => cases r <;> simp_all
  obtain ⟨ns, h1, h2⟩ := key c c0 hn
  constructor
  · simp only [perform, M.bind, h1, h2] at h
    cases hg : c0.lc.get? ("anon" ++ n) with
    | some w => simp [hg] at h; rw [← h.1, hg, h.2]
    | none =>
      simp [hg] at h
      rw [← h.1, ← h.2]
      simp [Dict.get?_set_self]
  · intro c2 c3 hn' hg
    obtain ⟨ns', h1', h2'⟩ := key c2 c3 hn'
    simp only [perform, M.bind, h1', h2', hg]

/-- C17 (after any other substitutions): between two uses with the same literal name any list of substitutions
may be performed, successfully or not; the second use gives the same name. -/
theorem C17_stable_across_substitutions (O : Oracle) (n : String) (ss : List Sub) (c c1 : Ctx) (v : String)
    (h : perform O (.anonName [.text n]) c = (c1, .ok v)) :
    perform O (.anonName [.text n]) (performSubs O ss c1).1 = ((performSubs O ss c1).1, .ok v) := by
  have hs := C17_stable O [.text n] n c c c1 v ((C13_single O (.text n) c).2.2 n) h
  exact hs.2 _ _ ((C13_single O (.text n) _).2.2 n) ((C13_effects O ss c1).1 _ _ hs.1)

/-- C17 (distinct names): two uses for different names never share an entry, so the second never
changes what the first returns. -/
theorem C17_distinct (O : Oracle) (n m : String) (hne : n ≠ m) (c : Ctx) :
    (perform O (.anonName [.text m]) c).1.lc.get? ("anon" ++ n) = c.lc.get? ("anon" ++ n) := by
  have hk : "anon" ++ n ≠ "anon" ++ m := fun h => hne (String.append_right_inj _ |>.mp h)
  simp only [perform, performAll, M.bind, M.pure, joinStrs]
  cases hg : c.lc.get? ("anon" ++ (m ++ "")) with
  | some w => simp_all
  | none =>
    have := Dict.get?_set_ne c.lc (O.anonName c.rng m) hk.symm
    simp_all

example : ∃ c1 v, perform sampleOracle (.anonName [.text "foo"]) {} = (c1, .ok v) ∧ v = "foo_0" :=
  ⟨_, _, rfl, by decide⟩

end Verif
