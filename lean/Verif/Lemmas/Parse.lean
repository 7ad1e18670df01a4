import Verif.Spec.Frontend
import Verif.Lemmas.Typed

/-! # Lemmas about parse methods -/

namespace Verif

theorem P.bind_ok {α β : Type} {m : P α} {f : α → P β} {e : Ent} {r r' : Reads} {b : β} (h : P.bind m f e r = (r', .ok b)) :
    ∃ r1 a, m e r = (r1, .ok a) ∧ f a e r1 = (r', .ok b) := by
  unfold P.bind at h
  cases hm : m e r with
  | mk r1 x =>
    rw [hm] at h
    cases x with
    | ok a => exact ⟨r1, a, rfl, h⟩
    | error x => simp at h

/-- Is the entity from YAML? -/
def Ent.isYaml : Ent → Bool
  | .yaml _ _ => true
  | .xml _ => false

/-- Successful runs read only the attributes `A` and the nested entities `T`, and children only if `C`. -/
def Only {α : Type} (A T : List String) (C : Bool) (m : P α) : Prop :=
  ∀ e r r' a, m e r = (r', .ok a) →
    (∀ x ∈ r'.attrs, x ∈ r.attrs ∨ x ∈ A ∨ (e.isYaml = true ∧ (x ∈ T ∨ (C = true ∧ x = "children")))) ∧
    (∀ x ∈ r'.tags, x ∈ r.tags ∨ x ∈ T ∨ C = true) ∧ (r'.childrenCalled = true → r.childrenCalled = true ∨ C = true)

namespace Only

variable {α β : Type} {A T : List String} {C : Bool}

theorem same {m : P α} (h : ∀ e r r' a, m e r = (r', .ok a) → r' = r) : Only A T C m := by
  intro e r r' a he
  rw [h e r r' a he]
  exact ⟨fun x hx => .inl hx, fun x hx => .inl hx, fun hx => .inl hx⟩

theorem pure (a : α) : Only A T C (P.pure a) := same (fun e r r' a h => by simp [P.pure] at h; exact h.1.symm)
theorem raise (x : Err) : Only A T C (P.raise x : P α) := same (fun e r r' a h => by simp [P.raise] at h)
theorem lift (x : Res α) : Only A T C (P.lift x) := same (fun e r r' a h => by simp [P.lift] at h; exact h.1.symm)

theorem bind {m : P α} {f : α → P β} (hm : Only A T C m) (hf : ∀ a, Only A T C (f a)) : Only A T C (P.bind m f) := by
  intro e r r' b h
  obtain ⟨r1, a, h1, h2⟩ := P.bind_ok h
  obtain ⟨p1, p2, p3⟩ := hm e r r1 a h1
  obtain ⟨q1, q2, q3⟩ := hf a e r1 r' b h2
  refine ⟨fun x hx => ?_, fun x hx => ?_, fun hx => ?_⟩
  · rcases q1 x hx with h | h
    · exact p1 x h
    · exact .inr h
  · rcases q2 x hx with h | h
    · exact p2 x h
    · exact .inr h
  · rcases q3 hx with h | h
    · exact p3 h
    · exact .inr h

end Only

theorem yamlGetAttr_ok {y : Yaml} {r r' : Reads} {n : String} {ty : AttrTy} {o c : Bool} {v : AttrRes}
    (h : yamlGetAttr y r n ty o c = (r', .ok v)) : r' = r ∨ r' = { r with attrs := n :: r.attrs } := by
  unfold yamlGetAttr at h
  split at h
  · simp at h
  · simp at h; exact .inl h.1.symm
  · dsimp only at h
    split at h
    · split at h <;> simp at h
      exact .inr h.1.symm
    · simp at h
      exact .inr h.1.symm

theorem xmlGetAttr_scalar_ok {O : Oracle} {x : Xml} {r r' : Reads} {n : String} {t : ScalarTy} {o c : Bool} {v : AttrRes}
    (h : xmlGetAttr O x r n (.value (some (.scalar t))) o c = (r', .ok v)) : r' = r ∨ r' = { r with attrs := n :: r.attrs } := by
  unfold xmlGetAttr at h
  dsimp only at h
  split at h
  · simp at h; exact .inl h.1.symm
  · split at h
    · simp at h; exact .inr h.1.symm
    · split at h
      · simp at h
      · simp [xmlTyped, getTypedValue] at h

theorem attrVal_ok {O : Oracle} {n : String} {t : ScalarTy} {o : Bool} {e : Ent} {r r' : Reads} {v : Option PyVal}
    (h : attrVal O n (.scalar t) o e r = (r', .ok v)) : r' = r ∨ r' = { r with attrs := n :: r.attrs } := by
  unfold attrVal at h
  have key : ∀ {r1 v}, e.getAttr O r n (.value (some (.scalar t))) o true = (r1, .ok v) → r1 = r ∨ r1 = { r with attrs := n :: r.attrs } := by
    intro r1 v h1
    cases e with
    | xml x => exact xmlGetAttr_scalar_ok h1
    | yaml y _ => simp only [Ent.getAttr] at h1; exact yamlGetAttr_ok h1
  split at h
  · rename_i h1; simp at h; rw [← h.1]; exact key h1
  · rename_i h1; simp at h; rw [← h.1]; exact key h1
  · simp at h

namespace Only

variable {A T : List String} {C : Bool}

theorem attrVal {O : Oracle} {n : String} {t : ScalarTy} {o : Bool} (hn : n ∈ A) : Only A T C (attrVal O n (.scalar t) o) := by
  intro e r r' a h
  rcases attrVal_ok h with rfl | rfl
  · exact ⟨fun x hx => .inl hx, fun x hx => .inl hx, fun hx => .inl hx⟩
  · refine ⟨fun x hx => ?_, fun x hx => .inl hx, fun hx => .inl hx⟩
    rcases List.mem_cons.mp hx with rfl | hx
    · exact .inr (.inl hn)
    · exact .inl hx

theorem attrText? {O : Oracle} {n : String} (hn : n ∈ A) : Only A T C (attrText? O n) :=
  bind (attrVal hn) (fun v => by split <;> first | exact pure _ | exact raise _)

theorem attrText {O : Oracle} {n : String} (hn : n ∈ A) : Only A T C (attrText O n) :=
  bind (attrVal hn) (fun v => by split <;> first | exact pure _ | exact raise _)

theorem attrSubs {F : Front} {n : String} (hn : n ∈ A) : Only A T C (attrSubs F n) := bind (attrText hn) (fun _ => lift _)

theorem attrSubs? {F : Front} {n : String} (hn : n ∈ A) : Only A T C (attrSubs? F n) :=
  bind (attrText? hn) (fun v => by split <;> first | exact bind (lift _) (fun _ => pure _) | exact pure _)

theorem attrEnts? {O : Oracle} {n : String} (hn : n ∈ T) : Only A T C (attrEnts? O n) := by
  intro e r r' a h
  unfold Verif.attrEnts? at h
  have key : ∀ {r1 v}, e.getAttr O r n .entities true true = (r1, .ok v) →
      (∀ x ∈ r1.attrs, x ∈ r.attrs ∨ x ∈ A ∨ (e.isYaml = true ∧ (x ∈ T ∨ (C = true ∧ x = "children")))) ∧
      (∀ x ∈ r1.tags, x ∈ r.tags ∨ x ∈ T ∨ C = true) ∧ (r1.childrenCalled = true → r.childrenCalled = true ∨ C = true) := by
    intro r1 v h1
    cases e with
    | xml x =>
      unfold Ent.getAttr xmlGetAttr at h1
      dsimp only at h1
      split at h1
      · simp at h1; rw [← h1.1]
        exact ⟨fun x hx => .inl hx, fun x hx => .inl hx, fun hx => .inl hx⟩
      · simp at h1; rw [← h1.1]
        refine ⟨fun x hx => .inl hx, fun x hx => ?_, fun hx => .inl hx⟩
        rcases List.mem_cons.mp hx with rfl | hx
        · exact .inr (.inl hn)
        · exact .inl hx
    | yaml y _ =>
      simp only [Ent.getAttr] at h1
      rcases yamlGetAttr_ok h1 with rfl | rfl
      · exact ⟨fun x hx => .inl hx, fun x hx => .inl hx, fun hx => .inl hx⟩
      · refine ⟨fun x hx => ?_, fun x hx => .inl hx, fun hx => .inl hx⟩
        rcases List.mem_cons.mp hx with rfl | hx
        · exact .inr (.inr ⟨rfl, .inl hn⟩)
        · exact .inl hx
  split at h
  · rename_i h1; simp at h; rw [← h.1]; exact key h1
  · rename_i h1; simp at h; rw [← h.1]; exact key h1
  · simp at h

theorem attrPairs? {F : Front} {n : String} (hn : n ∈ T) : Only A T C (attrPairs? F n) :=
  bind (attrEnts? hn) (fun v => by split <;> first | exact bind (lift _) (fun _ => pure _) | exact pure _)

theorem entChildren : Only A T true entChildren := by
  intro e r r' a h
  unfold Verif.entChildren Ent.children at h
  cases e with
  | xml x =>
    simp [xmlChildren] at h
    rw [← h.1]
    exact ⟨fun x hx => .inl hx, fun x hx => .inr (.inr rfl), fun hx => .inl hx⟩
  | yaml y _ =>
    refine ⟨fun x hx => ?_, fun x hx => .inr (.inr rfl), fun hx => .inr rfl⟩
    unfold yamlChildren at h
    dsimp only at h
    split at h
    · simp at h
    · split at h
      · simp at h
      · split at h
        · simp at h
          rw [← h.1] at hx
          rcases List.mem_cons.mp hx with rfl | hx
          · exact .inr (.inr ⟨rfl, .inr ⟨rfl, rfl⟩⟩)
          · exact .inl hx
        · simp at h
    · simp at h
      rw [← h.1] at hx
      exact .inl hx

end Only

/-- What was read, and the check that everything was read, bound the names in the entity. -/
theorem checked_names {α : Type} {A T : List String} {C : Bool} {m : P α} (hm : Only A T C m) {e : Ent} {r : Reads} {a : α}
    (h : m e {} = (r, .ok a)) (hc : e.assertParsed r = .ok ()) : NamesWithin A T C e := by
  obtain ⟨p1, p2, p3⟩ := hm e {} r a h
  cases e with
  | xml x =>
    simp only [Ent.assertParsed, xmlAssert] at hc
    split at hc
    · simp at hc
    · rename_i h1
      split at hc
      · simp at hc
      · rename_i h2
        simp at h1 h2
        refine ⟨fun a ha => ?_, fun hC y hy => ?_⟩
        · rcases p1 a (h2 a ha) with h | h | ⟨h, _⟩
          · simp at h
          · exact h
          · simp [Ent.isYaml] at h
        · rcases p2 _ (h1 y hy) with h | h | h
          · simp at h
          · exact h
          · rw [hC] at h; simp at h
  | yaml y t =>
    cases y with
    | scalar v => simp [Ent.assertParsed, yamlAssert] at hc
    | list l =>
      simp only [Ent.assertParsed, yamlAssert] at hc
      split at hc
      · rename_i h1
        rcases p3 h1 with h | h
        · simp at h
        · exact h
      · simp at hc
    | dict d =>
      simp only [Ent.assertParsed, yamlAssert] at hc
      split at hc
      · simp at hc
      · rename_i h1
        simp at h1
        intro k hk
        rcases p1 k (h1 k hk) with h | h | ⟨_, h | h⟩
        · simp at h
        · exact .inl h
        · exact .inr (.inl h)
        · exact .inr (.inr h)

theorem checked_inv {α : Type} {m : P α} {e : Ent} {a : α} (h : checked m e = .ok a) : ∃ r, m e {} = (r, .ok a) ∧ e.assertParsed r = .ok () := by
  unfold checked onFresh at h
  split at h
  · rename_i r b hm
    split at h
    · rename_i hc
      simp at h
      subst h
      exact ⟨r, hm, hc⟩
    · simp at h
  · simp at h

theorem mapRes_each {α β : Type} {f : α → Res β} {l : List α} {bs : List β} (h : mapRes f l = .ok bs) : ∀ a ∈ l, ∃ b ∈ bs, f a = .ok b := by
  induction l generalizing bs with
  | nil => simp
  | cons x xs ih =>
    unfold mapRes at h
    cases hx : f x with
    | error e => simp [hx] at h
    | ok b =>
      cases hs : mapRes f xs with
      | error e => simp [hx, hs] at h
      | ok cs =>
        simp [hx, hs] at h
        subst h
        intro a ha
        rcases List.mem_cons.mp ha with rfl | ha
        · exact ⟨b, by simp, hx⟩
        · obtain ⟨c, hc, h'⟩ := ih hs a ha
          exact ⟨c, by simp [hc], h'⟩

theorem parsePair_only {F : Front} : Only ["name", "value"] [] false (parsePair F) :=
  .bind (.attrSubs (by simp)) fun _ => .bind (.attrSubs (by simp)) fun _ => .pure _

theorem parsePairs_names {F : Front} {es : List Ent} {ps : List (List Sub × List Sub)} (h : parsePairs F es = .ok ps) :
    ∀ e ∈ es, NamesWithin ["name", "value"] [] false e := by
  intro e he
  unfold parsePairs at h
  split at h
  · simp at h
  · rename_i l hl
    split at h
    · simp at h
    · rename_i us hu
      obtain ⟨⟨e1, r1, p1⟩, hb, h1⟩ := mapRes_each hl e he
      obtain ⟨u, _, h2⟩ := mapRes_each hu _ hb
      unfold readPair onFresh at h1
      split at h1
      · rename_i hf
        simp at h1
        obtain ⟨rfl, rfl, rfl⟩ := h1
        exact checked_names parsePair_only hf h2
      · simp at h1

/-- The nested entities that `attrEnts?` gives. -/
theorem attrEnts?_ok {O : Oracle} {n : String} {e : Ent} {r r' : Reads} {v : Option (List Ent)} (h : attrEnts? O n e r = (r', .ok v)) :
    v.getD [] = nestedEnts e n := by
  unfold attrEnts? at h
  cases e with
  | xml x =>
    simp only [Ent.getAttr, xmlGetAttr] at h
    cases hl : x.nested.filter (fun y => y.tag = n) with
    | nil =>
      simp [hl] at h
      rw [← h.2]
      simp [nestedEnts, hl]
    | cons y ys =>
      simp [hl] at h
      rw [← h.2]
      simp [nestedEnts, hl]
  | yaml y t =>
    simp only [Ent.getAttr, yamlGetAttr] at h
    cases y with
    | scalar w =>
      have hn : nestedEnts (.yaml (.scalar w) t) n = [] := rfl
      cases hl : yamlLookup (.scalar w) n with
      | error x => simp [hl] at h
      | ok o =>
        cases o with
        | none => simp [hl] at h; rw [← h.2, hn]; rfl
        | some d =>
          exfalso
          revert hl
          unfold yamlLookup
          split
          · simp at *
          · simp at *
          · split <;> simp
          · simp
    | list l =>
      cases hl : yamlLookup (.list l) n with
      | error x => simp [hl] at h
      | ok o =>
        cases o with
        | none => simp [hl] at h; rw [← h.2]; rfl
        | some d =>
          exfalso
          simp only [yamlLookup] at hl
          split at hl <;> simp at hl
    | dict d =>
      simp only [yamlLookup] at h
      cases hg : Dict.get? d n with
      | none => simp [hg] at h; rw [← h.2]; simp [nestedEnts, hg]
      | some z =>
        cases z with
        | scalar w => simp [hg] at h
        | dict w => simp [hg] at h
        | list l =>
          cases l with
          | nil => simp [hg] at h
          | cons z zs =>
            cases z <;> simp [hg] at h
            rw [← h.2]
            simp [nestedEnts, hg]

theorem attrPairs?_names {F : Front} {n : String} {e : Ent} {r r' : Reads} {v : Option (List (List Sub × List Sub))}
    (h : attrPairs? F n e r = (r', .ok v)) : ∀ y ∈ nestedEnts e n, NamesWithin ["name", "value"] [] false y := by
  obtain ⟨r1, es, h1, h2⟩ := P.bind_ok h
  rw [← attrEnts?_ok h1]
  cases es with
  | none => simp
  | some l =>
    obtain ⟨r2, ps, h3, _⟩ := P.bind_ok h2
    simp [P.lift] at h3
    exact parsePairs_names h3.2

theorem yamlChildEnts_inv {l : List Yaml} {es : List Ent} (h : yamlChildEnts l = .ok es) :
    es = l.filterMap taggedItem ∧ ∀ y ∈ l, ∃ tag content, y = .dict [(tag, content)] := by
  induction l generalizing es with
  | nil => simp [yamlChildEnts] at h; simp [h]
  | cons y l ih =>
    unfold yamlChildEnts at h
    split at h
    · simp at *
    · rename_i n c l' hl
      simp only [List.cons.injEq] at hl
      obtain ⟨rfl, rfl⟩ := hl
      split at h
      · rename_i es' he
        simp only [Except.ok.injEq] at h
        obtain ⟨h1, h2⟩ := ih he
        refine ⟨by rw [← h, h1]; rfl, ?_⟩
        intro y hy
        rcases List.mem_cons.1 hy with rfl | hy
        · exact ⟨_, _, rfl⟩
        · exact h2 y hy
      · simp at h
    all_goals simp at h

theorem yamlIter_inv {v : Yaml} {l : List Yaml} {es : List Ent} (h : yamlIter v = .ok l) (he : yamlChildEnts l = .ok es) :
    v = .list l ∨ (l = [] ∧ (v = .dict [] ∨ v = .scalar (.str ""))) := by
  have hs := (yamlChildEnts_inv he).2
  cases v with
  | list l' => simp [yamlIter] at h; exact .inl (by rw [h])
  | dict d =>
    simp [yamlIter] at h
    cases d with
    | nil => exact .inr ⟨by simpa using h.symm, .inl rfl⟩
    | cons p d =>
      obtain ⟨t, c, hc⟩ := hs (.scalar (.str p.1)) (by rw [← h]; simp)
      simp at hc
  | scalar w =>
    cases w <;> simp [yamlIter] at h
    rename_i s
    cases hl : s.toList with
    | nil =>
      have : s = "" := String.toList_inj.1 (by rw [hl]; rfl)
      exact .inr ⟨by rw [← h, hl]; rfl, .inr (by rw [this])⟩
    | cons a cs =>
      obtain ⟨t, c, hc⟩ := hs (.scalar (.str (String.singleton a))) (by rw [← h, hl]; simp)
      simp at hc

theorem entChildren_ok {e : Ent} {r r' : Reads} {l : List Ent} (h : entChildren e r = (r', .ok l)) : l = childEnts e := by
  unfold entChildren at h
  cases e with
  | xml x => simp [Ent.children, xmlChildren] at h; simp [childEnts, h.2]
  | yaml y t =>
    simp only [Ent.children, yamlChildren] at h
    cases y with
    | scalar v => simp at h
    | list l => simp at h; exact (yamlChildEnts_inv h.2).1
    | dict d =>
      dsimp only at h
      cases hd : Dict.get? d "children" with
      | none => simp [hd] at h
      | some v =>
        simp only [hd, Prod.mk.injEq] at h
        obtain ⟨_, h⟩ := h
        split at h
        · rename_i l' hl
          have he := (yamlChildEnts_inv h).1
          rcases yamlIter_inv hl h with rfl | ⟨rfl, rfl | rfl⟩ <;> simp [childEnts, hd, he]
        · simp at h

end Verif
