import Verif.Lemmas.Typed

/-!
# Typed substitutions (C40, C41)
-/

namespace Verif

/-! ## C40 -/

theorem performItems_error {O : Oracle} {t : Option ScalarTy} {l : List TVal} {c c' : Ctx} {e : Err} (h : performItems O t l c = (c', .error e)) :
    e = .valueError ∨ ∃ x ∈ l, ∃ ss, normalizedSubs? x = some ss ∧ ∃ c1, performSubs O ss c1 = (c', .error e) := by
  induction l generalizing c with
  | nil => simp [performItems, M.pure] at h
  | cons x xs ih =>
    simp only [performItems, M.bind] at h
    cases h1 : performItem O x t c with
    | mk c1 r =>
      rw [h1] at h
      cases r with
      | error e1 =>
        simp only [Prod.mk.injEq, Except.error.injEq] at h
        obtain ⟨rfl, rfl⟩ := h
        unfold performItem at h1
        cases hss : normalizedSubs? x with
        | none => simp [hss, M.pure] at h1
        | some ss =>
          simp only [hss, M.bind, M.lift] at h1
          cases h2 : performSubs O ss c with
          | mk c2 r2 =>
            rw [h2] at h1
            cases r2 with
            | error e2 =>
              simp only [Prod.mk.injEq, Except.error.injEq] at h1
              obtain ⟨rfl, rfl⟩ := h1
              exact .inr ⟨x, by simp, ss, hss, c, h2⟩
            | ok s =>
              simp only [Prod.mk.injEq] at h1
              exact .inl (coerceToType_error h1.2)
      | ok v =>
        simp only at h
        cases h2 : performItems O t xs c1 with
        | mk c2 r2 =>
          rw [h2] at h
          cases r2 with
          | error e2 =>
            simp only [Prod.mk.injEq, Except.error.injEq] at h
            obtain ⟨rfl, rfl⟩ := h
            rcases ih h2 with h | ⟨y, hy, q⟩
            · exact .inl h
            · exact .inr ⟨y, by simp [hy], q⟩
          | ok vs => simp [M.pure] at h

/-- C40.  Whatever is given to perform_typed_substitution, if it returns, the result is of the requested type. -/
theorem C40_performed_has_type (O : Oracle) (n : TVal) (ty : Option DataTy) (c c' : Ctx) (r : PyVal)
    (h : performTyped O n ty c = (c', .ok r)) : OfType r ty := by
  unfold performTyped at h
  cases hv : n.scalar? with
  | some v =>
    simp only [hv] at h
    by_cases hok : ty = none ∨ isInstanceOf v ty = true
    · rw [if_pos hok] at h
      simp only [M.pure, Prod.mk.injEq, Except.ok.injEq] at h
      obtain ⟨_, rfl⟩ := h
      rcases hok with rfl | hok
      · left
        cases n <;> simp [TVal.scalar?] at hv <;> subst hv
        · exact ⟨_, .int _⟩
        · exact ⟨_, .float _⟩
        · exact ⟨_, .bool _⟩
        · exact ⟨_, .str _⟩
      · exact isInstanceOf_ofType hok
    · rw [if_neg hok] at h
      simp [M.raise] at h
  | none =>
    simp only [hv] at h
    cases hs : normalizedSubs? n with
    | some ss =>
      simp only [hs, M.bind, M.lift] at h
      cases h2 : performSubs O ss c with
      | mk c2 r2 =>
        rw [h2] at h
        cases r2 with
        | error e => simp at h
        | ok s =>
          simp only [Prod.mk.injEq] at h
          exact ofTypeB_false.mp (coerceToType_ofType h.2)
    | none =>
      simp only [hs] at h
      cases n with
      | seq l =>
        simp only [M.bind, M.lift] at h
        cases h1 : memberTy ty with
        | error e => simp [h1] at h
        | ok t =>
          simp only [h1] at h
          cases h2 : performItems O t l c with
          | mk c2 r2 =>
            rw [h2] at h
            cases r2 with
            | error e => simp at h
            | ok vs =>
              simp only [Prod.mk.injEq, checkList] at h
              obtain ⟨_, h⟩ := h
              split at h
              · rename_i hok
                simp only [Except.ok.injEq] at h; subst h
                exact isInstanceOf_ofType hok
              · simp at h
      | _ => simp [M.raise] at h

/-- C40.  The same for the round from the value a user gives to the value the action gets. -/
theorem C40_round (O : Oracle) (v n : TVal) (ty : Option DataTy) (c c' : Ctx) (r : PyVal) (_ : normalizeTyped O v ty = .ok n)
    (h : performTyped O n ty c = (c', .ok r)) : OfType r ty := C40_performed_has_type O n ty c c' r h

/-- C40.  get_typed_value, coerce_to_type and coerce_list give values of the requested type; with `can_be_str`, possibly texts in the place of scalars. -/
theorem C40_typed_value (O : Oracle) (v : TextOrList) (ty : Option DataTy) (r : PyVal) :
    (getTypedValue O v ty false = .ok r → OfType r ty) ∧ (getTypedValue O v ty true = .ok r → OfTypeOrStr r ty) := by
  have key : ∀ b, getTypedValue O v ty b = .ok r → OfTypeB b r ty := by
    intro b h
    cases v with
    | text s => exact coerceToType_ofType h
    | list l =>
      have hl : ∀ t, coerceList O l t b = .ok r → OfTypeB b r (t.map .list) := by
        intro t h
        unfold coerceList at h
        split at h
        · simp at h
        · rename_i out hout
          split at h
          · rename_i hv
            simp only [Except.ok.injEq] at h; subst h
            cases t with
            | none => exact validType_or hv
            | some t =>
              refine ⟨out, rfl, ?_⟩
              intro y hy
              obtain ⟨x, _, e⟩ := mapRes_mem hout y hy
              exact coerceToType_ofType e
          · simp at h
      cases ty with
      | none => exact hl none h
      | some d =>
        cases d with
        | scalar t => simp [getTypedValue] at h
        | list t => exact hl (some t) h
  exact ⟨fun h => ofTypeB_false.mp (key _ h), fun h => ofTypeB_true.mp (key _ h)⟩

/-- C40.  A substitution (or texts and substitutions in a list) is performed as one text, and this text is converted. -/
theorem C40_substitutions (O : Oracle) (x : TVal) (ss : List Sub) (hw : Written x ss) (ty : Option DataTy) :
    ∃ n, normalizeTyped O x ty = .ok n ∧ ∀ c, performTyped O n ty c =
      match performSubs O ss c with
      | (c1, .ok s) => (c1, coerceToType O s ty)
      | (c1, .error e) => (c1, .error e) := by
  obtain ⟨h1, h2, h3, h4⟩ := written_isSubstitution hw
  refine ⟨.seq (ss.map .sub), ?_, ?_⟩
  · simp [normalizeTyped, h1, h2, h3]
  · intro c
    unfold performTyped
    rw [show (TVal.seq (ss.map .sub)).scalar? = none from rfl]
    simp only [normalizedSubs_map h4, M.bind, M.lift]
    cases h : performSubs O ss c with
    | mk c1 r => cases r <;> rfl

/-- The rule that decides between one substitution and a list of them. -/
example : ∃ n, normalizeTyped sampleOracle (.seq [.str "a", .sub (.text "b")]) (some (.list .str)) = .ok n ∧
    performTyped sampleOracle n (some (.scalar .str)) {} = ({}, .ok (.str "ab")) := ⟨_, rfl, rfl⟩

example : Written (.seq [.str "a", .sub (.text "b")]) [.text "a", .text "b"] :=
  .several (.cons (.inr ⟨_, rfl, rfl⟩) (.cons (.inl rfl) .nil)) ⟨.text "b", by simp⟩

theorem exactly_scalar {v : PyVal} {t : ScalarTy} (h : ExactlyA v t) :
    (TVal.ofScalar v).scalar? = some v ∧ v.scalarTy? = some t ∧ (TVal.ofScalar v).isSubstitution = false ∧ v.isInst t = true := by
  cases h <;> exact ⟨rfl, rfl, rfl, rfl⟩

/-- What normalisation makes of an item of a list. -/
inductive ItemNorm (t : ScalarTy) : TVal → TVal → Prop
  | scalar {v : PyVal} : ExactlyA v t → ItemNorm t (TVal.ofScalar v) (TVal.ofScalar v)
  | written {x : TVal} {ss : List Sub} : Written x ss → ItemNorm t x (.seq (ss.map .sub))

theorem itemsGive_norm {O : Oracle} {t : ScalarTy} {l : List TVal} {c c' : Ctx} {vs : List PyVal} (h : ItemsGive O t l c c' vs) :
    ∃ ns, Each2 (ItemNorm t) l ns ∧ performItems O (some t) ns c = (c', .ok vs) ∧ ∀ v ∈ vs, v.isInst t = true := by
  induction h with
  | nil c => exact ⟨[], .nil, rfl, by simp⟩
  | @scalar x v xs c c' vs hx hv _ ih =>
    obtain ⟨ns, h1, h2, h3⟩ := ih
    subst hx
    obtain ⟨e1, e2, e3, e4⟩ := exactly_scalar hv
    refine ⟨TVal.ofScalar v :: ns, .cons (.scalar hv) h1, ?_, ?_⟩
    · have : normalizedSubs? (TVal.ofScalar v) = none := by cases hv <;> rfl
      simp [performItems, M.bind, performItem, this, M.pure, keepItem, e1, h2]
    · simpa [e4] using h3
  | @written x ss xs c c1 c' s v vs hw hp hc _ ih =>
    obtain ⟨ns, h1, h2, h3⟩ := ih
    refine ⟨.seq (ss.map .sub) :: ns, .cons (.written hw) h1, ?_, ?_⟩
    · obtain ⟨_, _, _, h4⟩ := written_isSubstitution hw
      simp [performItems, M.bind, performItem, normalizedSubs_map h4, hp, M.lift, hc, h2, M.pure]
    · have := coerceToType_ofType hc
      simp only [OfTypeB, Bool.false_eq_true, false_and, or_false] at this
      simpa [(isInst_iff _ _).mpr this] using h3

theorem normUniform_items {O : Oracle} {t : ScalarTy} {l ns : List TVal} (h : Each2 (ItemNorm t) l ns) (hne : l ≠ [] ∨ t = .str) :
    ∃ types, mapRes itemTy l = .ok types ∧ normUniform O l types (some t) = .ok (.seq ns) := by
  have htypes : ∃ types, mapRes itemTy l = .ok types ∧ ∀ y ∈ types, y = .scalar t ∨ y = .substitution := by
    clear hne
    induction h with
    | nil => exact ⟨[], rfl, by simp⟩
    | @cons x y xs ys hx _ ih =>
      obtain ⟨types, e, hm⟩ := ih
      cases hx with
      | @scalar v hv =>
        obtain ⟨e1, e2, e3, e4⟩ := exactly_scalar hv
        exact ⟨.scalar t :: types, by simp [mapRes, itemTy, e1, e2, e], by simpa using hm⟩
      | @written _ ss hw =>
        obtain ⟨h1, h2, h3, h4⟩ := written_isSubstitution hw
        exact ⟨.substitution :: types, by simp [mapRes, itemTy, h1, h3, e], by simpa using hm⟩
  have hitems : mapRes normItem l = .ok ns := by
    rw [mapRes_forall₂]
    clear hne htypes
    induction h with
    | nil => exact .nil
    | cons hx _ ih =>
      refine .cons ?_ ih
      cases hx with
      | @scalar v hv =>
        obtain ⟨e1, e2, e3, e4⟩ := exactly_scalar hv
        simp [normItem, e3]
      | @written _ ss hw =>
        obtain ⟨h1, h2, h3, h4⟩ := written_isSubstitution hw
        simp [normItem, h1, h2]
  have hfloat : t = .float → mapRes (normFloatItem O) l = .ok ns := by
    intro ht
    subst ht
    rw [mapRes_forall₂]
    clear hne htypes hitems
    induction h with
    | nil => exact .nil
    | cons hx _ ih =>
      refine .cons ?_ ih
      cases hx with
      | @scalar v hv => cases hv; rfl
      | @written _ ss hw =>
        obtain ⟨h1, h2, h3, h4⟩ := written_isSubstitution hw
        simp [normFloatItem, h1, h2]
  obtain ⟨types, e, hm⟩ := htypes
  refine ⟨types, e, ?_⟩
  -- either only substitutions, or some scalar of the type occurs, or the list is empty
  by_cases hs : ∃ y ∈ types, y = .scalar t
  · obtain ⟨y, hy, rfl⟩ := hs
    have no : ∀ ts : List ItemTy, ItemTy.scalar t ∉ ts → types.all (fun x => decide (x ∈ ts)) = false := by
      intro ts hts
      rw [List.all_eq_false]
      exact ⟨_, hy, by simpa using hts⟩
    have yes : ∀ ts : List ItemTy, ItemTy.scalar t ∈ ts → ItemTy.substitution ∈ ts → types.all (fun x => decide (x ∈ ts)) = true := by
      intro ts h1 h2
      rw [List.all_eq_true]
      intro x hx
      rcases hm x hx with rfl | rfl <;> simp [h1, h2]
    unfold normUniform
    simp only [no [.substitution] (by simp), Bool.and_false, Bool.false_eq_true, if_false]
    cases t with
    | str => rw [if_pos (yes _ (by simp) (by simp))]; simp [normItems, hitems]
    | bool =>
      rw [if_neg (by rw [no _ (by simp)]; simp), if_pos (yes _ (by simp) (by simp))]; simp [normItems, hitems]
    | int =>
      rw [if_neg (by rw [no _ (by simp)]; simp), if_neg (by rw [no _ (by simp)]; simp), if_pos (yes _ (by simp) (by simp))]; simp [normItems, hitems]
    | float =>
      rw [if_neg (by rw [no _ (by simp)]; simp), if_neg (by rw [no _ (by simp)]; simp), if_neg (by rw [no _ (by simp)]; simp),
        if_pos (yes _ (by simp) (by simp))]
      simp [normItems, hfloat rfl]
  · have hall : types.all (fun x => decide (x ∈ [ItemTy.substitution])) = true := by
      rw [List.all_eq_true]
      intro x hx
      rcases hm x hx with rfl | rfl
      · exact absurd ⟨_, hx, rfl⟩ hs
      · simp
    cases types with
    | cons ty0 types =>
      unfold normUniform
      simp only [List.isEmpty_cons, Bool.not_false, Bool.true_and, hall, if_true]
      simp [normItems, hitems]
    | nil =>
      have hl : l = [] := by
        cases l with
        | nil => rfl
        | cons x xs =>
          simp only [mapRes] at e
          split at e
          · simp at e
          · split at e <;> simp at e
      rcases hne with h' | rfl
      · exact absurd hl h'
      · subst hl
        cases h
        rfl

/-- C40.  Lists of scalars and substitutions give, item by item from left to right, the scalars and the converted texts of the substitutions. -/
theorem C40_lists (O : Oracle) (t : ScalarTy) (l : List TVal) (c c' : Ctx) (vs : List PyVal) (h : ItemsGive O t l c c' vs)
    (hne : l ≠ [] ∨ t = .str) (hl : ¬ ∃ ss, Written (.seq l) ss) :
    ∃ n, normalizeTyped O (.seq l) (some (.list t)) = .ok n ∧ performTyped O n (some (.list t)) c = (c', .ok (.list vs)) := by
  obtain ⟨ns, h1, h2, h3⟩ := itemsGive_norm h
  obtain ⟨types, e1, e2⟩ := normUniform_items (O := O) h1 hne
  refine ⟨.seq ns, ?_, ?_⟩
  · have hs : (TVal.seq l).isSubstitution = false := by
      cases hx : (TVal.seq l).isSubstitution with
      | false => rfl
      | true => exact absurd (isSubstitution_written hx) hl
    unfold normalizeTyped
    rw [show (TVal.seq l).scalar? = none from rfl]
    simp only [hs, Bool.false_eq_true, if_false, e1, e2]
  · have hn : normalizedSubs? (.seq ns) = none := by
      cases h1 with
      | nil => rfl
      | cons hx _ =>
        cases hx with
        | @scalar v hv => cases hv <;> rfl
        | written hw => rfl
    unfold performTyped
    rw [show (TVal.seq ns).scalar? = none from rfl]
    simp only [hn, memberTy, M.bind, M.lift, h2, checkList]
    rw [if_pos]
    simp only [isInstanceOf, isInstOrStr, Bool.false_and, Bool.or_false, List.all_eq_true]
    exact h3

example : ItemsGive sampleOracle .bool [.bool true, .seq [.sub (.text "tr"), .str "ue"]] {} {} [.bool true, .bool true] :=
  .scalar (v := .bool true) rfl (.bool true) (.written (.several (.cons (.inl rfl) (.cons (.inr ⟨_, rfl, rfl⟩) .nil)) ⟨.text "tr", by simp⟩) rfl rfl (.nil _))

/-- C40.  After a successful normalisation the only errors left are those of the substitutions and ValueError: the value does not turn out to be of the
wrong kind later. -/
theorem C40_no_late_type_error (O : Oracle) (v n : TVal) (ty : Option DataTy) (c c' : Ctx) (e : Err) (h : normalizeTyped O v ty = .ok n)
    (he : performTyped O n ty c = (c', .error e)) : e = .valueError ∨ ∃ ss c1, performSubs O ss c1 = (c', .error e) := by
  unfold performTyped at he
  cases hw : n.scalar? with
  | some w =>
    simp only [hw] at he
    by_cases hno : ty = none ∨ isInstanceOf w ty = true
    · rw [if_pos hno] at he; simp [M.pure] at he
    · exfalso
      have hv : v.scalar? = some w := by
        unfold normalizeTyped at h
        split at h
        · rename_i x hx
          split at h
          · simp only [Except.ok.injEq] at h; subst h; rw [hx] at hw; exact hx.trans hw
          · simp at h
        · have seqn : ∀ f l, normItems f l = .ok n → False := by
            intro f l h
            unfold normItems at h
            split at h
            · simp only [Except.ok.injEq] at h; subst h; simp [TVal.scalar?] at hw
            · simp at h
          have uni : ∀ l ts w, normUniform O l ts w = .ok n → False := by
            intro l ts w h
            unfold normUniform at h
            simp only at h
            repeat' (split at h)
            all_goals first | exact seqn _ _ h | simp at h
          split at h
          · split at h
            · simp only [Except.ok.injEq] at h; subst h; simp [TVal.scalar?] at hw
            · simp at h
          · split at h
            · split at h
              · simp at h
              · split at h
                · exact (uni _ _ _ h).elim
                · exact (uni _ _ _ h).elim
                · simp at h
            · simp at h
      apply hno
      right
      unfold normalizeTyped at h
      rw [hv] at h
      simp only at h
      split at h
      · assumption
      · simp at h
  | none =>
    simp only [hw] at he
    cases hs : normalizedSubs? n with
    | some ss =>
      simp only [hs, M.bind, M.lift] at he
      cases h2 : performSubs O ss c with
      | mk c2 r2 =>
        rw [h2] at he
        cases r2 with
        | error e2 =>
          simp only [Prod.mk.injEq, Except.error.injEq] at he
          obtain ⟨rfl, rfl⟩ := he
          exact .inr ⟨ss, c, h2⟩
        | ok s =>
          simp only [Prod.mk.injEq] at he
          exact .inl (coerceToType_error he.2)
    | none =>
      simp only [hs] at he
      by_cases hns : ∃ l, n = .seq l
      · obtain ⟨l, rfl⟩ := hns
        simp only [M.bind, M.lift] at he
        cases h1 : memberTy ty with
        | error e1 =>
          simp only [h1, Prod.mk.injEq, Except.error.injEq] at he
          obtain ⟨_, rfl⟩ := he
          left
          cases ty with
          | none => simp [memberTy] at h1
          | some d => cases d <;> simp [memberTy] at h1; exact h1.symm
        | ok t =>
          simp only [h1] at he
          cases h2 : performItems O t l c with
          | mk c2 r2 =>
            rw [h2] at he
            cases r2 with
            | error e2 =>
              simp only [Prod.mk.injEq, Except.error.injEq] at he
              obtain ⟨rfl, rfl⟩ := he
              rcases performItems_error h2 with h | ⟨x, _, ss, _, c1, h⟩
              · exact .inl h
              · exact .inr ⟨ss, c1, h⟩
            | ok vs =>
              simp only [Prod.mk.injEq, checkList] at he
              split at he
              · simp at he
              · simp at he; exact .inl he.2.symm
      · -- the result of a normalisation is a scalar or a sequence
        exfalso
        unfold normalizeTyped at h
        split at h
        · rename_i x hx
          split at h
          · simp only [Except.ok.injEq] at h; subst h; rw [hw] at hx; simp at hx
          · simp at h
        · have seqn : ∀ f l, normItems f l = .ok n → False := by
            intro f l h
            unfold normItems at h
            split at h
            · simp only [Except.ok.injEq] at h; exact hns ⟨_, h.symm⟩
            · simp at h
          have uni : ∀ l ts w, normUniform O l ts w = .ok n → False := by
            intro l ts w h
            unfold normUniform at h
            simp only at h
            repeat' (split at h)
            all_goals first | exact seqn _ _ h | simp at h
          split at h
          · split at h
            · simp only [Except.ok.injEq] at h; exact hns ⟨_, h.symm⟩
            · simp at h
          · split at h
            · split at h
              · simp at h
              · split at h
                · exact (uni _ _ _ h).elim
                · exact (uni _ _ _ h).elim
                · simp at h
            · simp at h

/-! ## C41 -/

theorem ofScalar_isA {v : PyVal} {t : ScalarTy} (h : IsA v t) : (TVal.ofScalar v).scalar? = some v ∧ TVal.ofValue v = TVal.ofScalar v := by
  cases h <;> exact ⟨rfl, rfl⟩

/-- C41.  Scalars that are instances of the requested scalar type (or any scalar if no type is requested) pass unchanged. -/
theorem C41_scalars (O : Oracle) (v : PyVal) (t : ScalarTy) (h : IsA v t) (ty : Option DataTy) (hty : ty = none ∨ ty = some (.scalar t)) :
    normalizeTyped O (.ofValue v) ty = .ok (.ofValue v) ∧ ∀ c, performTyped O (.ofValue v) ty c = (c, .ok v) := by
  obtain ⟨e1, e2⟩ := ofScalar_isA h
  have hi : isInstanceOf v ty = true := by
    rcases hty with rfl | rfl
    · cases h <;> rfl
    · simpa [isInstanceOf, isInstOrStr_iff] using h
  rw [e2]
  constructor
  · simp [normalizeTyped, e1, hi]
  · intro c
    simp [performTyped, e1, hi, M.pure]

example : IsA (.bool true) .int := .boolInt true

/-- C41.  Lists whose members have exactly the member type pass unchanged; the empty list only for lists of strings. -/
theorem C41_lists_partial (O : Oracle) (l : List PyVal) (t : ScalarTy) (h : ∀ x ∈ l, ExactlyA x t) (hne : l ≠ [] ∨ t = .str) :
    normalizeTyped O (.ofValue (.list l)) (some (.list t)) = .ok (.ofValue (.list l)) ∧
    ∀ c, performTyped O (.ofValue (.list l)) (some (.list t)) c = (c, .ok (.list l)) := by
  have hg : ∀ c, ItemsGive O t (l.map TVal.ofScalar) c c l := by
    intro c
    induction l with
    | nil => exact .nil c
    | cons x xs ih => exact .scalar rfl (h x (by simp)) (by
        by_cases hx : xs = []
        · subst hx; exact .nil c
        · exact ih (fun y hy => h y (by simp [hy])) (.inl hx))
  have hnorm : Each2 (ItemNorm t) (l.map TVal.ofScalar) (l.map TVal.ofScalar) := by
    clear hg hne
    induction l with
    | nil => exact .nil
    | cons x xs ih => exact .cons (.scalar (h x (by simp))) (ih (fun y hy => h y (by simp [hy])))
  have hnosub : (TVal.seq (l.map TVal.ofScalar)).isSubstitution = false := by
    simp only [TVal.isSubstitution]
    have : (l.map TVal.ofScalar).any TVal.isSub = false := by
      rw [List.any_eq_false]
      intro x hx
      obtain ⟨y, hy, rfl⟩ := List.mem_map.mp hx
      have := h y hy
      cases this <;> simp [TVal.ofScalar, TVal.isSub]
    simp [this]
  have hw : ¬ ∃ ss, Written (.seq (l.map TVal.ofScalar)) ss := by
    rintro ⟨ss, hw⟩
    rw [(written_isSubstitution hw).1] at hnosub
    simp at hnosub
  have hne' : l.map TVal.ofScalar ≠ [] ∨ t = .str := by
    rcases hne with h | h
    · exact .inl (by simpa using h)
    · exact .inr h
  obtain ⟨types, e1, e2⟩ := normUniform_items (O := O) hnorm hne'
  have en : normalizeTyped O (.seq (l.map TVal.ofScalar)) (some (.list t)) = .ok (.seq (l.map TVal.ofScalar)) := by
    unfold normalizeTyped
    rw [show (TVal.seq (l.map TVal.ofScalar)).scalar? = none from rfl]
    simp only [hnosub, Bool.false_eq_true, if_false, e1, e2]
  refine ⟨en, fun c => ?_⟩
  obtain ⟨n, e3, e4⟩ := C40_lists O t _ c c l (hg c) hne' hw
  rw [en] at e3
  simp only [Except.ok.injEq] at e3
  subst e3
  exact e4

example : normalizeTyped sampleOracle (.ofValue (.list [.int 1, .int 2])) (some (.list .int)) = .ok (.ofValue (.list [.int 1, .int 2])) :=
  (C41_lists_partial _ _ _ (by simp; exact ⟨.int _, .int _⟩) (by simp)).1

/-- C41 is violated by the empty list: it is rejected for every member type but str, and accepted if no type is requested. -/
theorem C41_empty_list_violated (O : Oracle) (t : ScalarTy) (h : t ≠ .str) :
    isInstanceOf (.list []) (some (.list t)) = true ∧ normalizeTyped O (.ofValue (.list [])) (some (.list t)) = .error .typeError := by
  cases t <;> first | exact absurd rfl h | exact ⟨rfl, rfl⟩

/-- C41 is violated by booleans in lists of ints: each of them is an int for isinstance, a list of them is rejected. -/
theorem C41_bool_as_int_violated (O : Oracle) (b : Bool) : OfType (.list [.bool b]) (some (.list .int)) ∧
    isInstanceOf (.list [.bool b]) (some (.list .int)) = true ∧ normalizeTyped O (.ofValue (.list [.bool b])) (some (.list .int)) = .error .typeError := by
  exact ⟨⟨_, rfl, by simp; exact .boolInt b⟩, rfl, rfl⟩

/-- C41 is violated by lists that mix ints and booleans when no type is requested. -/
theorem C41_mixed_violated (O : Oracle) (i : Int) (b : Bool) : isInstanceOf (.list [.int i, .bool b]) none = true ∧
    normalizeTyped O (.ofValue (.list [.int i, .bool b])) none = .error .typeError := ⟨rfl, rfl⟩

/-- The accepted values depend on the order: the same members the other way round are not an instance of any supported type. -/
theorem C41_order_violated (i : Int) (b : Bool) : isInstanceOf (.list [.int i, .bool b]) none = true ∧ isInstanceOf (.list [.bool b, .int i]) none = false :=
  ⟨rfl, rfl⟩

/-! ## C40: lists of the wrong type -/

/-- The scalar type of a value. -/
def scalarTyOf : PyVal → ScalarTy
  | .int _ => .int
  | .float _ => .float
  | .bool _ => .bool
  | _ => .str

theorem scalarTyOf_exactly {v : PyVal} {t : ScalarTy} (h : ExactlyA v t) (t' : ScalarTy) : ExactlyA v t' ↔ scalarTyOf v = t' := by
  cases h <;> cases t' <;> simp [scalarTyOf] <;> first | constructor | (intro h; cases h)

theorem itemTys_scalars (l : List PyVal) (hs : ∀ x ∈ l, ∃ t, ExactlyA x t) :
    mapRes itemTy (l.map TVal.ofScalar) = .ok (l.map (fun x => .scalar (scalarTyOf x))) := by
  induction l with
  | nil => rfl
  | cons x xs ih =>
    obtain ⟨t, ht⟩ := hs x List.mem_cons_self
    have e : itemTy (TVal.ofScalar x) = .ok (.scalar (scalarTyOf x)) := by cases ht <;> rfl
    simp only [List.map_cons, mapRes, e, ih (fun y hy => hs y (List.mem_cons_of_mem _ hy))]

theorem scalars_noSub (l : List PyVal) (hs : ∀ x ∈ l, ∃ t, ExactlyA x t) : (TVal.seq (l.map TVal.ofScalar)).isSubstitution = false := by
  simp only [TVal.isSubstitution]
  have : (l.map TVal.ofScalar).any TVal.isSub = false := by
    rw [List.any_eq_false]
    intro x hx
    obtain ⟨y, hy, rfl⟩ := List.mem_map.mp hx
    obtain ⟨t, ht⟩ := hs y hy
    cases ht <;> simp [TVal.ofScalar, TVal.isSub]
  simp [this]

theorem normalize_scalars (O : Oracle) (l : List PyVal) (t : ScalarTy) (hs : ∀ x ∈ l, ∃ t, ExactlyA x t) :
    normalizeTyped O (.ofValue (.list l)) (some (.list t)) =
      normUniform O (l.map TVal.ofScalar) (l.map (fun x => .scalar (scalarTyOf x))) (some t) := by
  show normalizeTyped O (.seq (l.map TVal.ofScalar)) _ = _
  unfold normalizeTyped
  rw [show (TVal.seq (l.map TVal.ofScalar)).scalar? = none from rfl]
  simp only [scalars_noSub l hs, Bool.false_eq_true, if_false, itemTys_scalars l hs]

/-- The value as a float, if it is a number. -/
def asFloat (O : Oracle) : PyVal → PyVal
  | .int i => .float (O.floatOfInt i)
  | v => v

/-- C40: a list of scalars with a member that does not have the member type is rejected with a TypeError when it is given, not when it is performed.
The one exception are ints in lists of floats, if there is a float among them. -/
theorem C40_wrong_list_rejected (O : Oracle) (l : List PyVal) (t : ScalarTy) (hs : ∀ x ∈ l, ∃ t, ExactlyA x t) (hx : ∃ x ∈ l, ¬ ExactlyA x t)
    (hf : t = .float → (∀ x ∈ l, ExactlyA x .int ∨ ExactlyA x .float) → ∀ x ∈ l, ¬ ExactlyA x .float) :
    normalizeTyped O (.ofValue (.list l)) (some (.list t)) = .error .typeError := by
  rw [normalize_scalars O l t hs]
  obtain ⟨x, hxl, hxt⟩ := hx
  obtain ⟨tx, htx⟩ := hs x hxl
  have hxt' : scalarTyOf x ≠ t := fun h => hxt ((scalarTyOf_exactly htx t).2 h)
  have hne : l ≠ [] := List.ne_nil_of_mem hxl
  have hsub : (l.map (fun x => ItemTy.scalar (scalarTyOf x))).all (fun t => decide (t ∈ [ItemTy.substitution])) = false := by
    rw [List.all_eq_false]
    exact ⟨_, List.mem_map_of_mem hxl, by simp⟩
  have one : ∀ t', (l.map (fun x => ItemTy.scalar (scalarTyOf x))).all (fun t => decide (t ∈ [ItemTy.scalar t', .substitution])) = true → t' ≠ t := by
    intro t' h ht
    rw [List.all_eq_true] at h
    have := h _ (List.mem_map_of_mem hxl)
    simp only [List.mem_cons, ItemTy.scalar.injEq, reduceCtorEq, List.not_mem_nil, or_false, decide_eq_true_eq] at this
    exact hxt' (this.trans ht)
  unfold normUniform
  simp only [hsub, Bool.and_false, Bool.false_eq_true, if_false]
  by_cases h1 : (l.map (fun x => ItemTy.scalar (scalarTyOf x))).all (fun t => decide (t ∈ [ItemTy.scalar .str, .substitution])) = true
  · have := one _ h1
    rw [if_pos h1, if_neg]
    rintro (h | h)
    · cases h
    · exact this (Option.some.inj h).symm
  · rw [if_neg h1]
    by_cases h2 : (l.map (fun x => ItemTy.scalar (scalarTyOf x))).all (fun t => decide (t ∈ [ItemTy.scalar .bool, .substitution])) = true
    · have := one _ h2
      rw [if_pos h2, if_neg]
      rintro (h | h)
      · cases h
      · exact this (Option.some.inj h).symm
    · rw [if_neg h2]
      by_cases h3 : (l.map (fun x => ItemTy.scalar (scalarTyOf x))).all (fun t => decide (t ∈ [ItemTy.scalar .int, .substitution])) = true
      · have := one _ h3
        rw [if_pos h3, if_neg]
        rintro (h | h)
        · cases h
        · exact this (Option.some.inj h).symm
      · rw [if_neg h3]
        by_cases h4 : (l.map (fun x => ItemTy.scalar (scalarTyOf x))).all
            (fun t => decide (t ∈ [ItemTy.scalar .int, .scalar .float, .substitution])) = true
        · rw [if_pos h4, if_neg]
          rintro (h | h)
          · cases h
          · have ht : t = .float := (Option.some.inj h)
            have hall : ∀ y ∈ l, ExactlyA y .int ∨ ExactlyA y .float := by
              intro y hy
              obtain ⟨ty, hty⟩ := hs y hy
              rw [List.all_eq_true] at h4
              have := h4 _ (List.mem_map_of_mem hy)
              simp only [List.mem_cons, ItemTy.scalar.injEq, reduceCtorEq, List.not_mem_nil, or_false, decide_eq_true_eq] at this
              rw [scalarTyOf_exactly hty, scalarTyOf_exactly hty]
              exact this
            apply h3
            rw [List.all_eq_true]
            intro z hz
            obtain ⟨y, hy, rfl⟩ := List.mem_map.1 hz
            obtain ⟨ty, hty⟩ := hs y hy
            rcases hall y hy with h | h
            · rw [scalarTyOf_exactly hty] at h
              simp [h]
            · exact absurd h (hf ht hall y hy)
        · rw [if_neg h4]

example : normalizeTyped sampleOracle (.ofValue (.list [.int 1, .int 2])) (some (.list .str)) = .error .typeError :=
  C40_wrong_list_rejected _ _ _ (by simp; exact ⟨⟨_, .int _⟩, ⟨_, .int _⟩⟩) ⟨.int 1, by simp, by intro h; cases h⟩ (by intro h; cases h)

/-- C40: a list of ints and floats given for a list of floats performs to floats. -/
theorem C40_numbers_become_floats (O : Oracle) (l : List PyVal) (hl : ∀ x ∈ l, ExactlyA x .int ∨ ExactlyA x .float) (hf : ∃ x ∈ l, ExactlyA x .float) :
    ∃ n, normalizeTyped O (.ofValue (.list l)) (some (.list .float)) = .ok n ∧
      ∀ c, performTyped O n (some (.list .float)) c = (c, .ok (.list (l.map (asFloat O)))) := by
  have hs : ∀ x ∈ l, ∃ t, ExactlyA x t := fun x hx => by
    rcases hl x hx with h | h
    · exact ⟨_, h⟩
    · exact ⟨_, h⟩
  obtain ⟨x, hxl, hx⟩ := hf
  have hnot : ∀ t', t' ≠ .float → ¬ (l.map (fun x => ItemTy.scalar (scalarTyOf x))).all (fun t => decide (t ∈ [ItemTy.scalar t', .substitution])) = true := by
    intro t' ht h
    rw [List.all_eq_true] at h
    have := h _ (List.mem_map_of_mem hxl)
    rw [(scalarTyOf_exactly hx .float).1 hx] at this
    simp only [List.mem_cons, ItemTy.scalar.injEq, reduceCtorEq, List.not_mem_nil, or_false, decide_eq_true_eq] at this
    exact ht this.symm
  have hsub : (l.map (fun x => ItemTy.scalar (scalarTyOf x))).all (fun t => decide (t ∈ [ItemTy.substitution])) = false := by
    rw [List.all_eq_false]
    exact ⟨_, List.mem_map_of_mem hxl, by simp⟩
  have h4 : (l.map (fun x => ItemTy.scalar (scalarTyOf x))).all (fun t => decide (t ∈ [ItemTy.scalar .int, .scalar .float, .substitution])) = true := by
    rw [List.all_eq_true]
    intro z hz
    obtain ⟨y, hy, rfl⟩ := List.mem_map.1 hz
    rcases hl y hy with h | h
    · rw [(scalarTyOf_exactly h .int).1 h]; rfl
    · rw [(scalarTyOf_exactly h .float).1 h]; rfl
  have hitems : ∀ l : List PyVal, (∀ x ∈ l, ExactlyA x .int ∨ ExactlyA x .float) →
      mapRes (normFloatItem O) (l.map TVal.ofScalar) = .ok ((l.map (asFloat O)).map TVal.ofScalar) := by
    intro l
    induction l with
    | nil => intro _; rfl
    | cons y ys ih =>
      intro h
      have e : normFloatItem O (TVal.ofScalar y) = .ok (TVal.ofScalar (asFloat O y)) := by
        rcases h y List.mem_cons_self with h | h <;> cases h <;> rfl
      simp only [List.map_cons, mapRes, e, ih (fun z hz => h z (List.mem_cons_of_mem _ hz))]
  refine ⟨.seq ((l.map (asFloat O)).map TVal.ofScalar), ?_, ?_⟩
  · rw [normalize_scalars O l .float hs]
    unfold normUniform
    simp only [hsub, Bool.and_false, Bool.false_eq_true, if_false]
    rw [if_neg (hnot .str (by simp)), if_neg (hnot .bool (by simp)), if_neg (hnot .int (by simp)), if_pos h4, if_pos (.inr trivial)]
    simp only [normItems, hitems l hl]
  · intro c
    have hfl : ∀ y ∈ l.map (asFloat O), ExactlyA y .float := by
      intro y hy
      obtain ⟨z, hz, rfl⟩ := List.mem_map.1 hy
      rcases hl z hz with h | h <;> cases h <;> exact .float _
    exact (C41_lists_partial O (l.map (asFloat O)) .float hfl (.inl (by
      intro h
      rw [List.map_eq_nil_iff] at h
      subst h
      cases hxl))).2 c

example : ∃ n, normalizeTyped sampleOracle (.ofValue (.list [.int 1, .float ⟨"2.5"⟩])) (some (.list .float)) = .ok n :=
  let ⟨n, h, _⟩ := C40_numbers_become_floats sampleOracle [.int 1, .float ⟨"2.5"⟩] (by simp; exact ⟨.inl (.int _), .inr (.float _)⟩)
    ⟨.float ⟨"2.5"⟩, by simp, .float _⟩
  ⟨n, h⟩

end Verif
