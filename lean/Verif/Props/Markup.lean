import Verif.Spec.Markup
import Verif.Spec.Subst
import Verif.Lemmas.Parse

/-!
# XML and YAML launch files (C64)
-/

namespace Verif

/-! ## Parse methods give the same on entities that agree -/

/-- The results on the two entities are the same, whatever was read before. -/
def Agree {α : Type} (e1 e2 : Ent) (m : P α) : Prop := ∀ r1 r2, (m e1 r1).2 = (m e2 r2).2

namespace Agree

variable {α β : Type} {e1 e2 : Ent}

theorem pure (a : α) : Agree e1 e2 (P.pure a) := fun _ _ => rfl
theorem raise (x : Err) : Agree e1 e2 (P.raise x : P α) := fun _ _ => rfl
theorem lift (x : Res α) : Agree e1 e2 (P.lift x) := fun _ _ => rfl

theorem bind {m : P α} {f : α → P β} (hm : Agree e1 e2 m) (hf : ∀ a, Agree e1 e2 (f a)) : Agree e1 e2 (P.bind m f) := by
  intro r1 r2
  have h := hm r1 r2
  unfold P.bind
  cases h1 : m e1 r1 with
  | mk s1 x1 =>
    cases h2 : m e2 r2 with
    | mk s2 x2 =>
      rw [h1, h2] at h
      simp only at h
      subst h
      cases x1 with
      | ok a => exact hf a s1 s2
      | error e => rfl

end Agree

/-- The same, for a name: an optional or required value. -/
theorem agree_attrVal_none {O : Oracle} {e1 e2 : Ent} {n : String} {t : ScalarTy} {o : Bool}
    (h1 : ∀ r, e1.getAttr O r n (.value (some (.scalar t))) o true = (r, if o then .ok .none else .error .attributeError))
    (h2 : ∀ r, e2.getAttr O r n (.value (some (.scalar t))) o true = (r, if o then .ok .none else .error .attributeError)) :
    Agree e1 e2 (attrVal O n (.scalar t) o) := by
  intro r1 r2
  unfold attrVal
  rw [h1, h2]
  cases o <;> rfl

theorem agree_attrVal_some {O : Oracle} {e1 e2 : Ent} {n : String} {t : ScalarTy} {o : Bool} {v : PyVal}
    (h1 : ∀ r, (e1.getAttr O r n (.value (some (.scalar t))) o true).2 = .ok (.value v))
    (h2 : ∀ r, (e2.getAttr O r n (.value (some (.scalar t))) o true).2 = .ok (.value v)) :
    Agree e1 e2 (attrVal O n (.scalar t) o) := by
  intro r1 r2
  unfold attrVal
  have a1 := h1 r1
  have a2 := h2 r2
  cases q1 : e1.getAttr O r1 n (.value (some (.scalar t))) o true with
  | mk s1 x1 =>
    cases q2 : e2.getAttr O r2 n (.value (some (.scalar t))) o true with
    | mk s2 x2 =>
      rw [q1] at a1
      rw [q2] at a2
      simp only at a1 a2
      subst a1
      subst a2
      rfl

theorem coerce_isInst {O : Oracle} {s : String} {t : ScalarTy} {v : PyVal} (h : coerceToType O s (some (.scalar t)) true = .ok v) :
    isInstOrStr true v t = true := by
  cases t with
  | str => simp [coerceToType] at h; subst h; rfl
  | int =>
    simp only [coerceToType] at h
    split at h <;> simp at h <;> subst h <;> rfl
  | float =>
    simp only [coerceToType] at h
    split at h <;> simp at h <;> subst h <;> rfl
  | bool =>
    simp only [coerceToType] at h
    split at h
    · simp at h
    · split at h
      · rename_i hi
        simp at h
        subst h
        exact hi
      · simp at h

theorem agree_typed {O : Oracle} {x : Xml} {d : List (String × Yaml)} {tn n : String} {t : ScalarTy} (h : TypedSame O x d n t) (o : Bool) :
    Agree (.xml x) (.yaml (.dict d) tn) (attrVal O n (.scalar t) o) := by
  obtain ⟨hs, h⟩ := h
  cases hx : x.attrs.get? n with
  | none =>
    rw [hx] at h
    simp only at h
    apply agree_attrVal_none
    · intro r; simp [Ent.getAttr, xmlGetAttr, hx]
    · intro r; simp [Ent.getAttr, yamlGetAttr, yamlLookup, h]
  | some s =>
    rw [hx] at h
    obtain ⟨v, hv, hd⟩ := h
    apply agree_attrVal_some (v := v)
    · intro r; simp [Ent.getAttr, xmlGetAttr, hx, hs, xmlTyped, getTypedValue, hv]
    · intro r; simp [Ent.getAttr, yamlGetAttr, yamlLookup, hd, Yaml.toPyVal, isInstanceOf, coerce_isInst hv]

theorem typedSame_of_text {O : Oracle} {x : Xml} {d : List (String × Yaml)} {n : String} (h : TextSame x d n) : TypedSame O x d n .str := by
  obtain ⟨hs, h⟩ := h
  refine ⟨hs, ?_⟩
  cases hx : x.attrs.get? n with
  | none => simpa [hx] using h
  | some s => exact ⟨.str s, rfl, by simpa [hx] using h⟩

/-- What agreement of a text attribute gives to the programs that read it. -/
def TextAgree (O : Oracle) (e1 e2 : Ent) (n : String) : Prop := ∀ o, Agree e1 e2 (attrVal O n (.scalar .str) o)

namespace Agree

variable {F : Front} {e1 e2 : Ent} {n : String}

theorem text? (h : TextAgree F.O e1 e2 n) : Agree e1 e2 (attrText? F.O n) :=
  bind (h _) fun v => by split <;> first | exact pure _ | exact raise _

theorem text (h : TextAgree F.O e1 e2 n) : Agree e1 e2 (attrText F.O n) :=
  bind (h _) fun v => by split <;> first | exact pure _ | exact raise _

theorem subs (h : TextAgree F.O e1 e2 n) : Agree e1 e2 (attrSubs F n) := bind (text h) fun _ => lift _

theorem subs? (h : TextAgree F.O e1 e2 n) : Agree e1 e2 (attrSubs? F n) :=
  bind (text? h) fun v => by split <;> first | exact pure _ | exact bind (lift _) fun _ => pure _

end Agree

/-! ## Everything documented is read -/

/-- The names of an entity: attributes, and nested entities (in YAML both are keys). -/
def Ent.hasAttr : Ent → String → Prop
  | .xml x, n => n ∈ x.attrs.keys
  | .yaml (.dict d) _, n => n ∈ Dict.keys d
  | .yaml _ _, _ => False

def Ent.hasNested : Ent → String → Prop
  | .xml x, n => n ∈ x.nested.map Xml.tag
  | .yaml (.dict d) _, n => n ∈ Dict.keys d
  | .yaml _ _, _ => False

/-- The nested name is recorded as read. -/
def Ent.nestedRead : Ent → Reads → String → Prop
  | .xml _, r, n => n ∈ r.tags
  | .yaml _ _, r, n => n ∈ r.attrs

/-- Successful runs read all of the attributes `A`, the nested entities `T` and (if `C`) the children, and forget nothing. -/
def Covers {α : Type} (A T : List String) (C : Bool) (m : P α) : Prop :=
  ∀ e r r' a, m e r = (r', .ok a) →
    (∀ n ∈ r.attrs, n ∈ r'.attrs) ∧ (∀ n, e.hasNested n → e.nestedRead r n → e.nestedRead r' n) ∧ (r.childrenCalled = true → r'.childrenCalled = true) ∧
    (∀ n ∈ A, e.hasAttr n → n ∈ r'.attrs) ∧ (∀ n ∈ T, e.hasNested n → e.nestedRead r' n) ∧
    (C = true → (∀ n, e.hasNested n → e.isYaml = false → e.nestedRead r' n) ∧ (e.isYaml = true → r'.childrenCalled = true ∧ (e.hasAttr "children" → "children" ∈ r'.attrs)))

namespace Covers

variable {α β : Type} {A A' T T' : List String} {C C' : Bool}

theorem same {m : P α} (h : ∀ e r r' a, m e r = (r', .ok a) → r' = r) : Covers [] [] false m := by
  intro e r r' a he
  rw [h e r r' a he]
  exact ⟨fun _ h => h, fun _ _ h => h, fun h => h, by simp, by simp, by simp⟩

theorem pure (a : α) : Covers [] [] false (P.pure a) := same (fun e r r' a h => by simp [P.pure] at h; exact h.1.symm)
theorem raise (x : Err) : Covers A T C (P.raise x : P α) := fun e r r' a h => by simp [P.raise] at h
theorem lift (x : Res α) : Covers [] [] false (P.lift x) := same (fun e r r' a h => by simp [P.lift] at h; exact h.1.symm)

theorem bind {m : P α} {f : α → P β} (hm : Covers A T C m) (hf : ∀ a, Covers A' T' C' (f a)) : Covers (A ++ A') (T ++ T') (C || C') (P.bind m f) := by
  intro e r r' b h
  obtain ⟨r1, a, h1, h2⟩ := P.bind_ok h
  obtain ⟨p1, p2, p3, p4, p5, p6⟩ := hm e r r1 a h1
  obtain ⟨q1, q2, q3, q4, q5, q6⟩ := hf a e r1 r' b h2
  refine ⟨fun n hn => q1 n (p1 n hn), fun n hn h => q2 n hn (p2 n hn h), fun h => q3 (p3 h), fun n hn h => ?_, fun n hn h => ?_, fun hC => ?_⟩
  · rcases List.mem_append.mp hn with hn | hn
    · exact q1 n (p4 n hn h)
    · exact q4 n hn h
  · rcases List.mem_append.mp hn with hn | hn
    · exact q2 n h (p5 n hn h)
    · exact q5 n hn h
  · simp at hC
    rcases hC with hC | hC
    · obtain ⟨a1, a2⟩ := p6 hC
      refine ⟨fun n hn hy => q2 n hn (a1 n hn hy), fun hy => ?_⟩
      obtain ⟨b1, b2⟩ := a2 hy
      exact ⟨q3 b1, fun h => q1 _ (b2 h)⟩
    · exact q6 hC

theorem attrVal {O : Oracle} {n : String} {t : ScalarTy} {o : Bool} : Covers [n] [] false (attrVal O n (.scalar t) o) := by
  intro e r r' a h
  have hex : ∃ v, e.getAttr O r n (.value (some (.scalar t))) o true = (r', .ok v) := by
    unfold Verif.attrVal at h
    split at h
    · rename_i h1; simp at h; rw [← h.1]; exact ⟨_, h1⟩
    · rename_i h1; simp at h; rw [← h.1]; exact ⟨_, h1⟩
    · simp at h
  obtain ⟨v, hv⟩ := hex
  have hm : r' = r ∨ r' = { r with attrs := n :: r.attrs } := attrVal_ok h
  have mono : (∀ k ∈ r.attrs, k ∈ r'.attrs) ∧ (∀ k, e.hasNested k → e.nestedRead r k → e.nestedRead r' k) ∧
      (r.childrenCalled = true → r'.childrenCalled = true) := by
    rcases hm with rfl | rfl
    · exact ⟨fun _ h => h, fun _ _ h => h, fun h => h⟩
    · refine ⟨fun k hk => by simp [hk], fun k _ hk => ?_, fun h => h⟩
      cases e with
      | xml x => exact hk
      | yaml y t => simp only [Ent.nestedRead] at hk ⊢; simp [hk]
  refine ⟨mono.1, mono.2.1, mono.2.2, fun k hk hh => ?_, by simp, by simp⟩
  simp at hk
  subst hk
  rcases hm with rfl | rfl
  · exfalso
    cases e with
    | xml x =>
      obtain ⟨s, hs⟩ := Option.isSome_iff_exists.mp (Dict.get?_isSome_iff.mpr hh)
      simp only [Ent.getAttr, xmlGetAttr, hs] at hv
      split at hv
      · simp at hv
        have := congrArg (fun r : Reads => r.attrs.length) hv.1
        simp at this
      · split at hv
        · simp at hv
        · simp at hv
          have := congrArg (fun r : Reads => r.attrs.length) hv.1
          simp at this
          omega
    | yaml y tn =>
      cases y with
      | scalar w => exact hh
      | list l => exact hh
      | dict d =>
        obtain ⟨s, hs⟩ := Option.isSome_iff_exists.mp (Dict.get?_isSome_iff.mpr hh)
        simp only [Ent.getAttr, yamlGetAttr, yamlLookup, hs] at hv
        simp at hv
        have := congrArg (fun r : Reads => r.attrs.length) hv.1
        simp at this
  · simp

theorem attrEnts? {O : Oracle} {n : String} : Covers [] [n] false (attrEnts? O n) := by
  intro e r r' a h
  have hex : ∃ v, e.getAttr O r n .entities true true = (r', .ok v) := by
    unfold Verif.attrEnts? at h
    split at h
    · rename_i h1; simp at h; rw [← h.1]; exact ⟨_, h1⟩
    · rename_i h1; simp at h; rw [← h.1]; exact ⟨_, h1⟩
    · simp at h
  obtain ⟨v, hv⟩ := hex
  cases e with
  | xml x =>
    simp only [Ent.getAttr, xmlGetAttr] at hv
    split at hv
    · rename_i hl
      simp at hv
      rw [← hv.1]
      refine ⟨fun _ h => h, fun _ _ h => h, fun h => h, by simp, fun k hk hh => ?_, by simp⟩
      simp at hk
      subst hk
      simp only [Ent.hasNested, List.mem_map] at hh
      obtain ⟨y, hy, rfl⟩ := hh
      have : y ∈ ([] : List Xml) := by rw [← hl]; simp [hy]
      simp at this
    · simp at hv
      rw [← hv.1]
      refine ⟨fun _ h => h, fun k _ h => ?_, fun h => h, by simp, fun k hk hh => ?_, by simp⟩
      · simp only [Ent.nestedRead] at h ⊢; simp [h]
      · simp at hk; subst hk; simp [Ent.nestedRead]
  | yaml y tn =>
    simp only [Ent.getAttr] at hv
    rcases yamlGetAttr_ok hv with rfl | rfl
    · refine ⟨fun _ h => h, fun _ _ h => h, fun h => h, by simp, fun k hk hh => ?_, by simp⟩
      simp at hk
      subst hk
      exfalso
      cases y with
      | scalar w => exact hh
      | list l => exact hh
      | dict d =>
        obtain ⟨s, hs⟩ := Option.isSome_iff_exists.mp (Dict.get?_isSome_iff.mpr hh)
        simp only [yamlGetAttr, yamlLookup, hs] at hv
        split at hv <;> simp at hv
        have := congrArg (fun r : Reads => r.attrs.length) hv.1
        simp at this
    · refine ⟨fun k hk => by simp [hk], fun k _ hk => ?_, fun h => h, by simp, fun k hk hh => ?_, by simp⟩
      · simp only [Ent.nestedRead] at hk ⊢; simp [hk]
      · simp at hk; subst hk; simp [Ent.nestedRead]

theorem entChildren : Covers [] [] true entChildren := by
  intro e r r' a h
  cases e with
  | xml x =>
    simp [Verif.entChildren, Ent.children, xmlChildren] at h
    rw [← h.1]
    refine ⟨fun _ h => h, fun k hk _ => hk, fun h => h, by simp, by simp, fun _ => ⟨fun k hk _ => hk, fun hy => ?_⟩⟩
    simp [Ent.isYaml] at hy
  | yaml y tn =>
    simp only [Verif.entChildren, Ent.children, yamlChildren] at h
    cases y with
    | scalar w => simp at h
    | list l =>
      simp at h
      rw [← h.1]
      refine ⟨fun _ h => h, fun k hk h => h, fun h => rfl, by simp, by simp, fun _ => ⟨fun k hk hy => ?_, fun hy => ⟨rfl, fun h => ?_⟩⟩⟩
      · simp [Ent.isYaml] at hy
      · simp [Ent.hasAttr] at h
    | dict d =>
      dsimp only at h
      split at h
      · simp at h
      · simp only [Prod.mk.injEq] at h
        rw [← h.1]
        refine ⟨fun k hk => by simp [hk], fun k hk h => ?_, fun h => rfl, by simp, by simp, fun _ => ⟨fun k hk hy => ?_, fun hy => ⟨rfl, fun h => ?_⟩⟩⟩
        · simp only [Ent.nestedRead] at h ⊢; simp [h]
        · simp [Ent.isYaml] at hy
        · simp

end Covers

/-- An entity with documented names only passes the check. -/
theorem Covers.assert {α : Type} {A A' T T' : List String} {C C' : Bool} {m : P α} (hm : Covers A T C m) {e : Ent} {r : Reads} {a : α}
    (h : m e {} = (r, .ok a)) (hn : NamesWithin A' T' C' e) (hA : ∀ n ∈ A', n ∈ A) (hT : ∀ n ∈ T', n ∈ T) (hC : C' = true → C = true) :
    e.assertParsed r = .ok () := by
  obtain ⟨_, _, _, p4, p5, p6⟩ := hm e {} r a h
  cases e with
  | xml x =>
    obtain ⟨n1, n2⟩ := hn
    simp only [Ent.assertParsed, xmlAssert]
    rw [if_neg, if_neg]
    · simp
      exact fun k hk => p4 k (hA k (n1 k hk)) hk
    · simp
      intro y hy
      have hh : (Ent.xml x).hasNested y.tag := List.mem_map.mpr ⟨y, hy, rfl⟩
      cases hc : C' with
      | true => exact (p6 (hC hc)).1 y.tag hh rfl
      | false => exact p5 y.tag (hT _ (n2 hc y hy)) hh
  | yaml y tn =>
    cases y with
    | scalar w => exact absurd hn (by simp [NamesWithin])
    | list l =>
      simp only [Ent.assertParsed, yamlAssert]
      rw [if_pos ((p6 (hC hn)).2 rfl).1]
    | dict d =>
      simp only [Ent.assertParsed, yamlAssert]
      rw [if_neg]
      simp
      intro k hk
      rcases hn k hk with h | h | ⟨h, rfl⟩
      · exact p4 k (hA k h) hk
      · exact p5 k (hT k h) hk
      · exact ((p6 (hC h)).2 rfl).2 hk

namespace Covers

variable {F : Front} {n : String}

theorem text? : Covers [n] [] false (attrText? F.O n) :=
  bind (A' := []) (T' := []) (C' := false) attrVal fun v => by split <;> first | exact pure _ | exact raise _

theorem text : Covers [n] [] false (attrText F.O n) :=
  bind (A' := []) (T' := []) (C' := false) attrVal fun v => by split <;> first | exact pure _ | exact raise _

theorem subs : Covers [n] [] false (attrSubs F n) := bind (A' := []) text fun _ => lift _

theorem subs? : Covers [n] [] false (attrSubs? F n) :=
  bind (A' := []) (T' := []) (C' := false) text? fun v => by
    split
    · exact bind (A := []) (A' := []) (T := []) (T' := []) (C := false) (C' := false) (lift _) fun _ => pure _
    · exact pure _

theorem pairs? : Covers [] [n] false (attrPairs? F n) :=
  bind (A' := []) (T' := []) (C' := false) attrEnts? fun v => by
    split
    · exact pure _
    · exact bind (A := []) (A' := []) (T := []) (T' := []) (C := false) (C' := false) (lift _) fun _ => pure _

theorem pair : Covers ["name", "value"] [] false (parsePair F) :=
  bind (A := ["name"]) (A' := ["value"]) (T := []) (T' := []) (C := false) (C' := false) subs fun _ =>
    bind (A := ["value"]) (A' := []) (T := []) (T' := []) (C := false) (C' := false) subs fun _ => pure _

theorem base : Covers ["if", "unless"] [] false (parseBase F) :=
  bind (A := ["if"]) (A' := ["unless"]) (T := []) (T' := []) (C := false) (C' := false) text? fun i =>
    bind (A := ["unless"]) (A' := []) (T := []) (T' := []) (C := false) (C' := false) text? fun u => by
      split
      · exact raise _
      · exact bind (A := []) (A' := []) (T := []) (T' := []) (C := false) (C' := false) (lift _) fun _ => pure _
      · exact bind (A := []) (A' := []) (T := []) (T' := []) (C := false) (C' := false) (lift _) fun _ => pure _
      · exact pure _

end Covers

/-! ## Nested entities -/

theorem mapRes_eq {α β γ : Type} {R : α → β → Prop} {f : α → Res γ} {g : β → Res γ} (hR : ∀ a b, R a b → f a = g b) {l : List α} {l' : List β} (h : Each2 R l l') :
    mapRes f l = mapRes g l' := by
  induction h with
  | nil => rfl
  | cons h _ ih => simp only [mapRes, hR _ _ h, ih]

/-- If nothing is left unread, pairs are read one after the other. -/
theorem parsePairs_eq {F : Front} {es : List Ent} (h : ∀ e ∈ es, ∀ r p, parsePair F e {} = (r, .ok p) → e.assertParsed r = .ok ()) :
    parsePairs F es = mapRes (fun e => (parsePair F e {}).2) es := by
  have key : ∀ es : List Ent, (∀ e ∈ es, ∀ r p, parsePair F e {} = (r, .ok p) → e.assertParsed r = .ok ()) →
      (∃ x, mapRes (readPair F) es = .error x ∧ mapRes (fun e => (parsePair F e {}).2) es = .error x) ∨
      ∃ l, mapRes (readPair F) es = .ok l ∧ mapRes (fun e => (parsePair F e {}).2) es = .ok (l.map (·.2.2)) ∧
        ∃ us, mapRes (fun q => Ent.assertParsed q.1 q.2.1) l = .ok us := by
    intro es
    induction es with
    | nil => intro _; exact .inr ⟨[], rfl, rfl, [], rfl⟩
    | cons e es ih =>
      intro h
      cases hp : parsePair F e {} with
      | mk r x =>
        cases x with
        | error x => exact .inl ⟨x, by simp [mapRes, readPair, onFresh, hp], by simp [mapRes, hp]⟩
        | ok p =>
          have hr : readPair F e = .ok (e, r, p) := by simp [readPair, onFresh, hp]
          rcases ih (fun e' he' => h e' (by simp [he'])) with ⟨x, h1, h2⟩ | ⟨l, h1, h2, us, h3⟩
          · exact .inl ⟨x, by simp only [mapRes, hr, h1], by simp only [mapRes, hp, h2]⟩
          · refine .inr ⟨(e, r, p) :: l, by simp only [mapRes, hr, h1], by simp only [mapRes, hp, h2, List.map_cons], () :: us, ?_⟩
            simp only [mapRes, h e (by simp) r p hp, h3]
  unfold parsePairs
  rcases key es h with ⟨x, h1, h2⟩ | ⟨l, h1, h2, us, h3⟩
  · simp only [h1, h2]
  · simp only [h1, h2, h3]

theorem attrEnts?_xml {O : Oracle} {x : Xml} {n : String} {r : Reads} : (attrEnts? O n (.xml x) r).2 =
    .ok (if x.nested.filter (fun z => z.tag = n) = [] then none else some ((x.nested.filter (fun z => z.tag = n)).map .xml)) := by
  unfold attrEnts?
  simp only [Ent.getAttr, xmlGetAttr]
  cases hl : x.nested.filter (fun z => z.tag = n) with
  | nil => simp
  | cons y ys => simp

theorem attrEnts?_yaml {O : Oracle} {d : List (String × Yaml)} {tn n : String} {r : Reads} {ws : List (List (String × Yaml))} (hne : ws ≠ [])
    (h : Dict.get? d n = some (.list (ws.map .dict))) : (attrEnts? O n (.yaml (.dict d) tn) r).2 = .ok (some (ws.map (fun w => .yaml (.dict w) n))) := by
  unfold attrEnts?
  cases ws with
  | nil => exact absurd rfl hne
  | cons w ws =>
    simp [Ent.getAttr, yamlGetAttr, yamlLookup, h, List.map_map, Function.comp_def]

theorem attrEnts?_yaml_none {O : Oracle} {d : List (String × Yaml)} {tn n : String} {r : Reads}
    (h : Dict.get? d n = none) : (attrEnts? O n (.yaml (.dict d) tn) r).2 = .ok none := by
  simp [attrEnts?, Ent.getAttr, yamlGetAttr, yamlLookup, h]

theorem textAgree {O : Oracle} {x : Xml} {d : List (String × Yaml)} {tn n : String} (h : TextSame x d n) : TextAgree O (.xml x) (.yaml (.dict d) tn) n :=
  fun o => agree_typed (typedSame_of_text h) o

theorem P.bind_snd {α β : Type} (m : P α) (f : α → P β) (e : Ent) (r : Reads) :
    (P.bind m f e r).2 = match (m e r).2 with
      | .ok a => (f a e (m e r).1).2
      | .error x => .error x := by
  unfold P.bind
  cases h : m e r with
  | mk r1 x => cases x <;> rfl

theorem Each2.map2 {α β γ δ : Type} {R : α → β → Prop} {S : γ → δ → Prop} {f : α → γ} {g : β → δ} (hS : ∀ a b, R a b → S (f a) (g b)) {l : List α} {l' : List β}
    (h : Each2 R l l') : Each2 S (l.map f) (l'.map g) := by
  induction h with
  | nil => exact .nil
  | cons h _ ih => exact .cons (hS _ _ h) ih

theorem Each2.left {α β : Type} {R : α → β → Prop} {l : List α} {l' : List β} (h : Each2 R l l') : ∀ a ∈ l, ∃ b, R a b := by
  induction h with
  | nil => simp
  | cons h _ ih =>
    intro a ha
    rcases List.mem_cons.mp ha with rfl | ha
    · exact ⟨_, h⟩
    · exact ih a ha

theorem Each2.right {α β : Type} {R : α → β → Prop} {l : List α} {l' : List β} (h : Each2 R l l') : ∀ b ∈ l', ∃ a, R a b := by
  induction h with
  | nil => simp
  | cons h _ ih =>
    intro a ha
    rcases List.mem_cons.mp ha with rfl | ha
    · exact ⟨_, h⟩
    · exact ih a ha

theorem parsePairs_same {F : Front} {n : String} {l : List Xml} {ws : List (List (String × Yaml))}
    (h : Each2 (fun z w => (∀ m ∈ ["name", "value"], TextSame z w m) ∧ NamesWithin ["name", "value"] [] false (.xml z) ∧
      NamesWithin ["name", "value"] [] false (.yaml (.dict w) n)) l ws) :
    parsePairs F (l.map .xml) = parsePairs F (ws.map (fun w => .yaml (.dict w) n)) := by
  rw [parsePairs_eq, parsePairs_eq]
  · refine mapRes_eq (R := fun e1 e2 => (parsePair F e1 {}).2 = (parsePair F e2 {}).2) (fun _ _ h => h) (Each2.map2 ?_ h)
    rintro z w ⟨h1, _, _⟩
    have a1 : TextAgree F.O (.xml z) (.yaml (.dict w) n) "name" := textAgree (h1 _ (by simp))
    have a2 : TextAgree F.O (.xml z) (.yaml (.dict w) n) "value" := textAgree (h1 _ (by simp))
    exact (Agree.bind (Agree.subs a1) fun _ => Agree.bind (Agree.subs a2) fun _ => Agree.pure _) {} {}
  · intro e he r p hp
    obtain ⟨w, hw, rfl⟩ := List.mem_map.mp he
    obtain ⟨z, _, _, hn⟩ := h.right w hw
    exact Covers.pair.assert hp hn (fun _ h => h) (by simp) (by simp)
  · intro e he r p hp
    obtain ⟨z, hz, rfl⟩ := List.mem_map.mp he
    obtain ⟨w, _, hn, _⟩ := h.left z hz
    exact Covers.pair.assert hp hn (fun _ h => h) (by simp) (by simp)

theorem Agree.pairs? {F : Front} {x : Xml} {d : List (String × Yaml)} {tn n : String} (h : NestedSame ["name", "value"] x d n) :
    Agree (.xml x) (.yaml (.dict d) tn) (attrPairs? F n) := by
  intro r1 r2
  unfold attrPairs?
  rw [P.bind_snd, P.bind_snd, attrEnts?_xml]
  unfold NestedSame at h
  split at h
  · rename_i hl
    rw [attrEnts?_yaml_none h]
    simp only [hl, if_true]
    rfl
  · rename_i hl
    obtain ⟨ws, hd, he⟩ := h
    have hne : ws ≠ [] := by
      rintro rfl
      cases he' : x.nested.filter (fun z => z.tag = n) with
      | nil => exact hl he'
      | cons a b => rw [he'] at he; cases he
    rw [attrEnts?_yaml hne hd]
    simp only [hl, if_false]
    rw [P.bind_snd, P.bind_snd]
    simp only [P.lift, parsePairs_same (F := F) he]
    cases parsePairs F (ws.map (fun w => .yaml (.dict w) n)) <;> rfl

theorem Agree.choices? {F : Front} {x : Xml} {d : List (String × Yaml)} {tn : String} (h : NestedSame ["value"] x d "choice") :
    Agree (.xml x) (.yaml (.dict d) tn) (attrChoices? F) := by
  intro r1 r2
  unfold attrChoices?
  rw [P.bind_snd, P.bind_snd, attrEnts?_xml]
  unfold NestedSame at h
  split at h
  · rename_i hl
    rw [attrEnts?_yaml_none h]
    simp only [hl, if_true]
    rfl
  · rename_i hl
    obtain ⟨ws, hd, he⟩ := h
    have hne : ws ≠ [] := by
      rintro rfl
      cases he' : x.nested.filter (fun z => z.tag = "choice") with
      | nil => exact hl he'
      | cons a b => rw [he'] at he; cases he
    rw [attrEnts?_yaml hne hd]
    simp only [hl, if_false]
    rw [P.bind_snd, P.bind_snd]
    have hs : parseChoices F ((x.nested.filter (fun z => z.tag = "choice")).map .xml) = parseChoices F (ws.map (fun w => .yaml (.dict w) "choice")) := by
      refine mapRes_eq (R := fun e1 e2 => (parseChoice F e1 {}).2 = (parseChoice F e2 {}).2) (fun _ _ h => h) (Each2.map2 ?_ he)
      rintro z w ⟨h1, _, _⟩
      have a1 : TextAgree F.O (.xml z) (.yaml (.dict w) "choice") "value" := textAgree (h1 _ (by simp))
      exact (Agree.bind (Agree.text a1) fun _ => Agree.pure _) {} {}
    simp only [P.lift, hs]
    cases parseChoices F (ws.map (fun w => .yaml (.dict w) "choice")) <;> rfl

/-! ## The built-in tags -/

/-- Two entities agree on what a tag reads. -/
structure TagAgree (F : Front) (rec : List Ent → Res (List PAct)) (tag : String) (e1 e2 : Ent) : Prop where
  texts : ∀ n ∈ ["if", "unless"] ++ textAttrs tag, TextAgree F.O e1 e2 n
  typed : ∀ p ∈ typedAttrs tag, ∀ o, Agree e1 e2 (attrVal F.O p.1 (.scalar p.2) o)
  pairs : ∀ n ∈ tagPairs tag, Agree e1 e2 (attrPairs? F n)
  others : tag = "arg" → Agree e1 e2 (attrChoices? F)
  children : hasActions tag = true → ∃ l1 l2, (∀ r, (entChildren e1 r).2 = .ok l1) ∧ (∀ r, (entChildren e2 r).2 = .ok l2) ∧
    rec (l1.filter (fun y => y.typeName ∉ tagPairs tag)) = rec (l2.filter (fun y => y.typeName ∉ tagPairs tag))

theorem Agree.children {β : Type} {e1 e2 : Ent} {l1 l2 : List Ent} (h1 : ∀ r, (entChildren e1 r).2 = .ok l1) (h2 : ∀ r, (entChildren e2 r).2 = .ok l2)
    {f : List Ent → P β} (hf : ∀ r1 r2, (f l1 e1 r1).2 = (f l2 e2 r2).2) : Agree e1 e2 (P.bind entChildren f) := by
  intro r1 r2
  rw [P.bind_snd, P.bind_snd, h1, h2]
  exact hf _ _

theorem parseKind_agree {F : Front} {rec : List Ent → Res (List PAct)} {tag : String} {m : P PKind} (h : parseKind F rec tag = some m) {e1 e2 : Ent}
    (H : TagAgree F rec tag e1 e2) : Agree e1 e2 m := by
  have HT := H.texts
  have HV := H.typed
  have HP := H.pairs
  have HO := H.others
  have HC := H.children
  clear H
  unfold parseKind at h
  by_cases ht : tag = "let"
  · rw [if_pos ht] at h
    subst ht
    simp only [Option.some.injEq] at h
    subst h
    exact .bind (.subs (HT _ (by simp [textAttrs]))) fun _ => .bind (.subs (HT _ (by simp [textAttrs]))) fun _ => .pure _
  rw [if_neg ht] at h
  clear ht
  by_cases ht : tag = "arg"
  · rw [if_pos ht] at h
    subst ht
    simp only [Option.some.injEq] at h
    subst h
    exact .bind (.text (HT _ (by simp [textAttrs]))) fun _ => .bind (.subs? (HT _ (by simp [textAttrs]))) fun _ => .bind (.text? (HT _ (by simp
      [textAttrs]))) fun _ => .bind (HO rfl) fun _ => .pure _
  rw [if_neg ht] at h
  clear ht
  by_cases ht : tag = "group"
  · rw [if_pos ht] at h
    subst ht
    simp only [Option.some.injEq] at h
    subst h
    obtain ⟨l1, l2, h1, h2, hr⟩ := HC rfl
    refine .bind (HV ("scoped", .bool) (by simp [typedAttrs]) _) fun _ => .bind (HV ("forwarding", .bool) (by simp [typedAttrs]) _) fun _ =>
      .bind (HP _ (by simp [tagPairs])) fun _ => .children h1 h2 fun r1 r2 => ?_
    have e : ∀ l : List Ent, l.filter (fun e => e.typeName ≠ "keep") = l.filter (fun y => y.typeName ∉ tagPairs "group") := by
      intro l; apply List.filter_congr; intro y _; simp [tagPairs]
    rw [e, e, hr]
    exact (Agree.bind (Agree.lift _) fun _ => Agree.pure _) r1 r2
  rw [if_neg ht] at h
  clear ht
  by_cases ht : tag = "include"
  · rw [if_pos ht] at h
    subst ht
    simp only [Option.some.injEq] at h
    subst h
    exact .bind (.subs (HT _ (by simp [textAttrs]))) fun _ => .bind (HP _ (by simp [tagPairs])) fun _ => .pure _
  rw [if_neg ht] at h
  clear ht
  by_cases ht : tag = "set_env"
  · rw [if_pos ht] at h
    subst ht
    simp only [Option.some.injEq] at h
    subst h
    exact .bind (.subs (HT _ (by simp [textAttrs]))) fun _ => .bind (.subs (HT _ (by simp [textAttrs]))) fun _ => .pure _
  rw [if_neg ht] at h
  clear ht
  by_cases ht : tag = "unset_env"
  · rw [if_pos ht] at h
    subst ht
    simp only [Option.some.injEq] at h
    subst h
    exact .bind (.subs (HT _ (by simp [textAttrs]))) fun _ => .pure _
  rw [if_neg ht] at h
  clear ht
  by_cases ht : tag = "append_env"
  · rw [if_pos ht] at h
    subst ht
    simp only [Option.some.injEq] at h
    subst h
    exact .bind (.subs (HT _ (by simp [textAttrs]))) fun _ => .bind (.subs (HT _ (by simp [textAttrs]))) fun _ => .bind (HV ("prepend", .bool)
      (by simp [typedAttrs]) _) fun _ => .bind (.lift _) fun _ => .bind (.subs? (HT _ (by simp [textAttrs]))) fun _ => .pure _
  rw [if_neg ht] at h
  clear ht
  by_cases ht : tag = "reset_env"
  · rw [if_pos ht] at h
    subst ht
    simp only [Option.some.injEq] at h
    subst h
    exact .pure _
  rw [if_neg ht] at h
  clear ht
  by_cases ht : tag = "reset"
  · rw [if_pos ht] at h
    subst ht
    simp only [Option.some.injEq] at h
    subst h
    exact .bind (HP _ (by simp [tagPairs])) fun _ => .pure _
  rw [if_neg ht] at h
  clear ht
  by_cases ht : tag = "log"
  · rw [if_pos ht] at h
    subst ht
    simp only [Option.some.injEq] at h
    subst h
    exact .bind (.subs (HT _ (by simp [textAttrs]))) fun _ => .pure _
  rw [if_neg ht] at h
  clear ht
  by_cases ht : tag = "shutdown"
  · rw [if_pos ht] at h
    subst ht
    simp only [Option.some.injEq] at h
    subst h
    exact .bind (.text? (HT _ (by simp [textAttrs]))) fun _ => by split <;> first | exact .pure _ | exact .bind (.lift _) fun _ => .pure _
  rw [if_neg ht] at h
  clear ht
  by_cases ht : tag = "timer"
  · rw [if_pos ht] at h
    subst ht
    simp only [Option.some.injEq] at h
    subst h
    obtain ⟨l1, l2, h1, h2, hr⟩ := HC rfl
    refine .bind (HV ("period", .float) (by simp [typedAttrs]) _) fun _ => .bind (.lift _) fun _ => .children h1 h2 fun r1 r2 => ?_
    have e : ∀ l : List Ent, l.filter (fun y => y.typeName ∉ tagPairs "timer") = l := by
      intro l; rw [List.filter_eq_self]; intro y _; simp [tagPairs]
    rw [e, e] at hr
    rw [hr]
    exact (Agree.bind (Agree.lift _) fun _ => Agree.bind (HV ("cancel_on_shutdown", .bool) (by simp [typedAttrs]) _) fun _ =>
      Agree.bind (Agree.lift _) fun _ => Agree.pure _) r1 r2
  rw [if_neg ht] at h
  clear ht
  by_cases ht : tag = "executable"
  · rw [if_pos ht] at h
    subst ht
    simp only [Option.some.injEq] at h
    subst h
    exact .bind (.text (HT _ (by simp [textAttrs]))) fun _ => .bind (.lift _) fun _ => .bind (.subs? (HT _ (by simp [textAttrs]))) fun _ =>
      .bind (.subs? (HT _ (by simp [textAttrs]))) fun _ => .bind (.text? (HT _ (by simp [textAttrs]))) fun _ => .bind (.lift _) fun _ => .bind
      (.subs? (HT _ (by simp [textAttrs]))) fun _ => .bind (.subs? (HT _ (by simp [textAttrs]))) fun _ => .bind (.subs? (HT _ (by simp
      [textAttrs]))) fun _ => .bind (HV ("respawn_max_retries", .int) (by simp [typedAttrs]) _) fun _ => .bind (HV ("respawn_delay", .float) (by
      simp [typedAttrs]) _) fun _ => .bind (.lift _) fun _ => .bind (HV ("sigkill_timeout", .float) (by simp [typedAttrs]) _) fun _ => .bind
      (.lift _) fun _ => .bind (HV ("sigterm_timeout", .float) (by simp [typedAttrs]) _) fun _ => .bind (.lift _) fun _ => .bind (HV ("shell",
      .bool) (by simp [typedAttrs]) _) fun _ => .bind (HV ("emulate_tty", .bool) (by simp [typedAttrs]) _) fun _ => .bind (HP _ (by simp
      [tagPairs])) fun _ => .pure _
  rw [if_neg ht] at h
  clear ht
  simp at h

theorem Covers.choices? {F : Front} : Covers [] ["choice"] false (attrChoices? F) :=
  .bind (A' := []) (T' := []) (C' := false) .attrEnts? fun v => by
    split
    · exact .pure _
    · exact .bind (A := []) (A' := []) (T := []) (T' := []) (C := false) (C' := false) (.lift _) fun _ => .pure _

theorem parseKind_covers {F : Front} {rec : List Ent → Res (List PAct)} {tag : String} {m : P PKind} (h : parseKind F rec tag = some m) :
    ∃ A T C, Covers A T C m ∧ (∀ n ∈ textAttrs tag ++ (typedAttrs tag).map (·.1), n ∈ A) ∧ (∀ n ∈ tagPairs tag ++ tagOthers tag, n ∈ T) ∧
      (hasActions tag = true → C = true) := by
  unfold parseKind at h
  by_cases ht : tag = "let"
  · rw [if_pos ht] at h
    subst ht
    simp only [Option.some.injEq] at h
    subst h
    exact ⟨_, _, _, .bind .subs fun _ => .bind .subs fun _ => .pure _, by simp [textAttrs, typedAttrs], by simp [tagPairs, tagOthers], by simp
      [hasActions]⟩
  rw [if_neg ht] at h
  clear ht
  by_cases ht : tag = "arg"
  · rw [if_pos ht] at h
    subst ht
    simp only [Option.some.injEq] at h
    subst h
    exact ⟨_, _, _, .bind .text fun _ => .bind .subs? fun _ => .bind .text? fun _ => .bind .choices? fun _ => .pure _, by simp [textAttrs,
      typedAttrs], by simp [tagPairs, tagOthers], by simp [hasActions]⟩
  rw [if_neg ht] at h
  clear ht
  by_cases ht : tag = "group"
  · rw [if_pos ht] at h
    subst ht
    simp only [Option.some.injEq] at h
    subst h
    exact ⟨_, _, _, .bind .attrVal fun _ => .bind .attrVal fun _ => .bind .pairs? fun _ => .bind .entChildren fun _ => .bind (.lift _) fun _ =>
      .pure _, by simp [textAttrs, typedAttrs], by simp [tagPairs, tagOthers], by simp [hasActions]⟩
  rw [if_neg ht] at h
  clear ht
  by_cases ht : tag = "include"
  · rw [if_pos ht] at h
    subst ht
    simp only [Option.some.injEq] at h
    subst h
    exact ⟨_, _, _, .bind .subs fun _ => .bind .pairs? fun _ => .pure _, by simp [textAttrs, typedAttrs], by simp [tagPairs, tagOthers], by simp
      [hasActions]⟩
  rw [if_neg ht] at h
  clear ht
  by_cases ht : tag = "set_env"
  · rw [if_pos ht] at h
    subst ht
    simp only [Option.some.injEq] at h
    subst h
    exact ⟨_, _, _, .bind .subs fun _ => .bind .subs fun _ => .pure _, by simp [textAttrs, typedAttrs], by simp [tagPairs, tagOthers], by simp
      [hasActions]⟩
  rw [if_neg ht] at h
  clear ht
  by_cases ht : tag = "unset_env"
  · rw [if_pos ht] at h
    subst ht
    simp only [Option.some.injEq] at h
    subst h
    exact ⟨_, _, _, .bind .subs fun _ => .pure _, by simp [textAttrs, typedAttrs], by simp [tagPairs, tagOthers], by simp [hasActions]⟩
  rw [if_neg ht] at h
  clear ht
  by_cases ht : tag = "append_env"
  · rw [if_pos ht] at h
    subst ht
    simp only [Option.some.injEq] at h
    subst h
    exact ⟨_, _, _, .bind .subs fun _ => .bind .subs fun _ => .bind .attrVal fun _ => .bind (.lift _) fun _ => .bind .subs? fun _ => .pure _, by
      simp [textAttrs, typedAttrs], by simp [tagPairs, tagOthers], by simp [hasActions]⟩
  rw [if_neg ht] at h
  clear ht
  by_cases ht : tag = "reset_env"
  · rw [if_pos ht] at h
    subst ht
    simp only [Option.some.injEq] at h
    subst h
    exact ⟨_, _, _, .pure _, by simp [textAttrs, typedAttrs], by simp [tagPairs, tagOthers], by simp [hasActions]⟩
  rw [if_neg ht] at h
  clear ht
  by_cases ht : tag = "reset"
  · rw [if_pos ht] at h
    subst ht
    simp only [Option.some.injEq] at h
    subst h
    exact ⟨_, _, _, .bind .pairs? fun _ => .pure _, by simp [textAttrs, typedAttrs], by simp [tagPairs, tagOthers], by simp [hasActions]⟩
  rw [if_neg ht] at h
  clear ht
  by_cases ht : tag = "log"
  · rw [if_pos ht] at h
    subst ht
    simp only [Option.some.injEq] at h
    subst h
    exact ⟨_, _, _, .bind .subs fun _ => .pure _, by simp [textAttrs, typedAttrs], by simp [tagPairs, tagOthers], by simp [hasActions]⟩
  rw [if_neg ht] at h
  clear ht
  by_cases ht : tag = "shutdown"
  · rw [if_pos ht] at h
    subst ht
    simp only [Option.some.injEq] at h
    subst h
    refine ⟨["reason"], [], false, .bind (A' := []) (T' := []) (C' := false) .text? fun v => ?_, by simp [textAttrs, typedAttrs], by simp [tagPairs, tagOthers],
      by simp [hasActions]⟩
    split
    · exact .pure _
    · exact .pure _
    · exact .bind (A := []) (A' := []) (T := []) (T' := []) (C := false) (C' := false) (.lift _) fun _ => .pure _
  rw [if_neg ht] at h
  clear ht
  by_cases ht : tag = "timer"
  · rw [if_pos ht] at h
    subst ht
    simp only [Option.some.injEq] at h
    subst h
    exact ⟨_, _, _, .bind .attrVal fun _ => .bind (.lift _) fun _ => .bind .entChildren fun _ => .bind (.lift _) fun _ => .bind .attrVal fun _
      => .bind (.lift _) fun _ => .pure _, by simp [textAttrs, typedAttrs], by simp [tagPairs, tagOthers], by simp [hasActions]⟩
  rw [if_neg ht] at h
  clear ht
  by_cases ht : tag = "executable"
  · rw [if_pos ht] at h
    subst ht
    simp only [Option.some.injEq] at h
    subst h
    exact ⟨_, _, _, .bind .text fun _ => .bind (.lift _) fun _ => .bind .subs? fun _ => .bind .subs? fun _ => .bind .text? fun _ => .bind (.lift
      _) fun _ => .bind .subs? fun _ => .bind .subs? fun _ => .bind .subs? fun _ => .bind .attrVal fun _ => .bind .attrVal fun _ => .bind (.lift
      _) fun _ => .bind .attrVal fun _ => .bind (.lift _) fun _ => .bind .attrVal fun _ => .bind (.lift _) fun _ => .bind .attrVal fun _ => .bind
      .attrVal fun _ => .bind .pairs? fun _ => .pure _, by simp [textAttrs, typedAttrs], by simp [tagPairs, tagOthers], by simp [hasActions]⟩
  rw [if_neg ht] at h
  clear ht
  simp at h

theorem checked_same {α : Type} {m : P α} {e1 e2 : Ent} (ha : Agree e1 e2 m) (h1 : ∀ r a, m e1 {} = (r, .ok a) → e1.assertParsed r = .ok ())
    (h2 : ∀ r a, m e2 {} = (r, .ok a) → e2.assertParsed r = .ok ()) : checked m e1 = checked m e2 := by
  have h := ha {} {}
  unfold checked onFresh
  cases q1 : m e1 {} with
  | mk s1 x1 =>
    cases q2 : m e2 {} with
    | mk s2 x2 =>
      rw [q1, q2] at h
      simp only at h
      subst h
      cases x1 with
      | error e => rfl
      | ok a => simp only [h1 s1 a q1, h2 s2 a q2]

theorem yamlChildEnts_map (cs : List (String × Yaml)) : yamlChildEnts (cs.map (fun c => .dict [c])) = .ok (cs.map (fun c => .yaml c.2 c.1)) := by
  induction cs with
  | nil => rfl
  | cons c cs ih => obtain ⟨n, y⟩ := c; simp [yamlChildEnts, ih]

theorem zip_each2 {R : Xml → Yaml → Prop} {l : List Xml} {cs : List (String × Yaml)} (h : cs.map (·.1) = l.map Xml.tag)
    (hs : ∀ p ∈ l.zip (cs.map (·.2)), R p.1 p.2) : Each2 (fun z c => c.1 = z.tag ∧ R z c.2) l cs := by
  induction l generalizing cs with
  | nil =>
    cases cs with
    | nil => exact .nil
    | cons c cs => simp at h
  | cons z l ih =>
    cases cs with
    | nil => simp at h
    | cons c cs =>
      simp at h
      exact .cons ⟨h.1, hs (z, c.2) (by simp)⟩ (ih h.2 fun p hp => hs p (by simp [hp]))

/-- C64.  Launch files in XML and in YAML that say the same give the same actions (or the same error). -/
theorem C64_same_actions (F : Front) (fuel : Nat) (x : Xml) (y : Yaml) (h : Same F.O x y) :
    parseAction F fuel (.xml x) = parseAction F fuel (.yaml y x.tag) := by
  induction fuel generalizing x y with
  | zero => rfl
  | succ fuel ih =>
    have main : ∀ e2 : Ent, e2.typeName = x.tag → NamesDocumented (.xml x) → NamesDocumented e2 →
        TagAgree F (mapRes (parseAction F fuel)) x.tag (.xml x) e2 → parseAction F (fuel + 1) (.xml x) = parseAction F (fuel + 1) e2 := by
      intro e2 ht hn1 hn2 hA
      unfold parseAction
      rw [ht, show (Ent.xml x).typeName = x.tag from rfl]
      unfold parseMethod
      cases hk : parseKind F (mapRes (parseAction F fuel)) x.tag with
      | none => rfl
      | some k =>
        dsimp only
        obtain ⟨A, T, C, hcov, cA, cT, cC⟩ := parseKind_covers hk
        have hcov' := Covers.base (F := F) |>.bind fun c => Covers.bind hcov fun k => Covers.pure (PAct.mk c k)
        apply checked_same
        · have i1 := hA.texts "if" (by simp)
          have i2 := hA.texts "unless" (by simp)
          refine .bind (.bind (.text? i1) fun _ => .bind (.text? i2) fun _ => ?_) fun _ => .bind (parseKind_agree hk hA) fun _ => .pure _
          split
          · exact .raise _
          · exact .bind (.lift _) fun _ => .pure _
          · exact .bind (.lift _) fun _ => .pure _
          · exact .pure _
        · intro r a hr
          refine hcov'.assert hr hn1 ?_ ?_ ?_
          · intro n hn
            rcases List.mem_append.mp hn with hn | hn
            · exact List.mem_append_left _ hn
            · exact List.mem_append_right _ (List.mem_append_left _ (cA n hn))
          · intro n hn
            exact List.mem_append_right _ (List.mem_append_left _ (cT n hn))
          · intro hc; simp [cC hc]
        · intro r a hr
          refine hcov'.assert hr hn2 ?_ ?_ ?_
          · intro n hn
            rw [ht] at hn
            rcases List.mem_append.mp hn with hn | hn
            · exact List.mem_append_left _ hn
            · exact List.mem_append_right _ (List.mem_append_left _ (cA n hn))
          · intro n hn
            rw [ht] at hn
            exact List.mem_append_right _ (List.mem_append_left _ (cT n hn))
          · intro hc; rw [ht] at hc; simp [cC hc]
    have sub : ∀ (l : List Xml) (cs : List (String × Yaml)), cs.map (·.1) = l.map Xml.tag → (∀ p ∈ l.zip (cs.map (·.2)), Same F.O p.1 p.2) →
        mapRes (parseAction F fuel) (l.map .xml) = mapRes (parseAction F fuel) (cs.map (fun c => .yaml c.2 c.1)) := by
      intro l cs hl hs
      refine mapRes_eq (R := fun e1 e2 => parseAction F fuel e1 = parseAction F fuel e2) (fun _ _ h => h) (Each2.map2 ?_ (zip_each2 hl hs))
      rintro z c ⟨h1, h2⟩
      rw [h1]
      exact ih z c.2 h2
    cases h with
    | dict cs hn1 hn2 htx hty hp ho hc hs =>
      refine main _ rfl hn1 hn2 ⟨fun n hn => textAgree (htx n hn), fun p hp' o => agree_typed (hty p hp') o, fun n hn => .pairs? (hp n hn), fun ha => ?_, fun ha => ?_⟩
      · rename_i d
        exact .choices? (ho "choice" (by rw [ha]; simp [tagOthers]))
      · obtain ⟨c1, c2, c3⟩ := hc ha
        refine ⟨x.nested.map .xml, cs.map (fun c => .yaml c.2 c.1), fun r => rfl, fun r => ?_, ?_⟩
        · simp only [entChildren, Ent.children, yamlChildren, c1, yamlIter, yamlChildEnts_map]
        · have e1 : (x.nested.map Ent.xml).filter (fun y => y.typeName ∉ tagPairs x.tag) = (x.nested.filter (fun z => z.tag ∉ tagPairs x.tag)).map .xml := by
            rw [List.filter_map]; rfl
          have e2 : (cs.map (fun c => Ent.yaml c.2 c.1)).filter (fun y => y.typeName ∉ tagPairs x.tag) = cs.map (fun c => Ent.yaml c.2 c.1) := by
            rw [List.filter_eq_self]
            intro y hy
            obtain ⟨c, hc, rfl⟩ := List.mem_map.mp hy
            exact decide_eq_true (c3 c hc)
          rw [e1, e2]
          exact sub _ cs c2 (hs ha)
    | list cs ha hat hnp hl hs =>
      have hnone : ∀ (O : Oracle) (n : String) (t : ScalarTy) (o : Bool),
          Agree (.xml x) (.yaml (.list (cs.map (fun c => .dict [c]))) x.tag) (attrVal O n (.scalar t) o) := by
        intro O n t o
        apply agree_attrVal_none
        · intro r; simp [Ent.getAttr, xmlGetAttr, hat, Dict.get?]
        · intro r
          have : (cs.map (fun c => Yaml.dict [c])).any (Yaml.isText n) = false := by
            rw [List.any_eq_false]; intro y hy; obtain ⟨c, _, rfl⟩ := List.mem_map.mp hy; simp [Yaml.isText]
          simp only [Ent.getAttr, yamlGetAttr, yamlLookup, this]
          simp
      have hno : ∀ n ∈ tagPairs x.tag, x.nested.filter (fun z => z.tag = n) = [] := by
        intro n hn
        rw [List.filter_eq_nil_iff]
        intro z hz
        simp
        rintro rfl
        exact hnp z hz hn
      refine main _ rfl ?_ ha ⟨fun n _ o => hnone _ n _ o, fun p _ o => hnone _ _ _ o, fun n hn r1 r2 => ?_, fun he => ?_, fun _ => ?_⟩
      · refine ⟨?_, fun hf => ?_⟩
        · rw [hat]; simp [Dict.keys]
        · simp [Ent.typeName, ha] at hf
      · unfold attrPairs?
        rw [P.bind_snd, P.bind_snd, attrEnts?_xml]
        have : (cs.map (fun c => Yaml.dict [c])).any (Yaml.isText n) = false := by
          rw [List.any_eq_false]; intro y hy; obtain ⟨c, _, rfl⟩ := List.mem_map.mp hy; simp [Yaml.isText]
        have e2 : (attrEnts? F.O n (.yaml (.list (cs.map (fun c => .dict [c]))) x.tag) r2).2 = .ok none := by
          simp only [attrEnts?, Ent.getAttr, yamlGetAttr, yamlLookup, this]
          simp
        rw [e2]
        simp only [hno n hn, if_true]
        rfl
      · rw [he] at ha; simp [hasActions] at ha
      · refine ⟨x.nested.map .xml, cs.map (fun c => .yaml c.2 c.1), fun r => rfl, fun r => ?_, ?_⟩
        · simp only [entChildren, Ent.children, yamlChildren, yamlChildEnts_map]
        · have e1 : (x.nested.map Ent.xml).filter (fun y => y.typeName ∉ tagPairs x.tag) = x.nested.map .xml := by
            rw [List.filter_eq_self]
            intro y hy
            obtain ⟨c, hc, rfl⟩ := List.mem_map.mp hy
            exact decide_eq_true (hnp c hc)
          have e2 : (cs.map (fun c => Ent.yaml c.2 c.1)).filter (fun y => y.typeName ∉ tagPairs x.tag) = cs.map (fun c => Ent.yaml c.2 c.1) := by
            rw [List.filter_eq_self]
            intro y hy
            obtain ⟨c, hc, rfl⟩ := List.mem_map.mp hy
            have : c.1 ∈ x.nested.map Xml.tag := by rw [← hl]; exact List.mem_map.mpr ⟨c, hc, rfl⟩
            obtain ⟨z, hz, hzt⟩ := List.mem_map.mp this
            simp only [Ent.typeName, decide_eq_true_eq, ← hzt]
            exact hnp z hz
          rw [e1, e2]
          exact sub _ cs hl hs

/-- C64.  The same for whole launch files: the children of the root `launch` say the same, in YAML as a list or under the key `children`. -/
theorem C64_same_descriptions (F : Front) (fuel : Nat) (x : Xml) (cs : List (String × Yaml)) (hx : x.tag = "launch")
    (hl : cs.map (·.1) = x.nested.map Xml.tag) (hs : ∀ p ∈ x.nested.zip (cs.map (·.2)), Same F.O p.1 p.2) :
    (x.attrs = [] → parseDescription F fuel (.xml x) = parseDescription F fuel (.yaml (.list (cs.map (fun c => .dict [c]))) "launch")) ∧
    ∀ d, TextSame x d "deprecated" → Dict.get? d "children" = some (.list (cs.map (fun c => .dict [c]))) →
      parseDescription F fuel (.xml x) = parseDescription F fuel (.yaml (.dict d) "launch") := by
  have sub : mapRes (parseAction F fuel) (x.nested.map .xml) = mapRes (parseAction F fuel) (cs.map (fun c => .yaml c.2 c.1)) := by
    refine mapRes_eq (R := fun e1 e2 => parseAction F fuel e1 = parseAction F fuel e2) (fun _ _ h => h) (Each2.map2 ?_ (zip_each2 hl hs))
    rintro z c ⟨h1, h2⟩
    rw [h1]
    exact C64_same_actions F fuel z c.2 h2
  have main : ∀ e2 : Ent, e2.typeName = "launch" → TextAgree F.O (.xml x) e2 "deprecated" → (∀ r, (entChildren e2 r).2 = .ok (cs.map (fun c => .yaml c.2 c.1))) →
      parseDescription F fuel (.xml x) = parseDescription F fuel e2 := by
    intro e2 ht ha hc
    unfold parseDescription
    rw [ht, show (Ent.xml x).typeName = "launch" from hx]
    simp only [ne_eq, not_true_eq_false, if_false]
    have key : ∀ e l, (∀ r, (entChildren e r).2 = .ok l) →
        (onFresh (P.bind (attrText? F.O "deprecated") fun d => P.bind entChildren fun cs => P.pure (d, cs)) e).2 =
        match (attrText? F.O "deprecated" e {}).2 with
        | .ok d => .ok (d, l)
        | .error x => .error x := by
      intro e l hcl
      unfold onFresh
      rw [P.bind_snd]
      cases h : (attrText? F.O "deprecated" e {}).2 with
      | error x => rfl
      | ok d =>
        dsimp only
        rw [P.bind_snd, hcl]
        rfl
    have k1 := key (.xml x) (x.nested.map .xml) (fun r => rfl)
    have k2 := key e2 _ hc
    have ka := (Agree.text? (F := F) ha) {} {}
    rw [ka] at k1
    revert k1 k2
    generalize onFresh (P.bind (attrText? F.O "deprecated") fun d => P.bind entChildren fun cs => P.pure (d, cs)) (.xml x) = w1
    generalize onFresh (P.bind (attrText? F.O "deprecated") fun d => P.bind entChildren fun cs => P.pure (d, cs)) e2 = w2
    obtain ⟨r1, w1⟩ := w1
    obtain ⟨r2, w2⟩ := w2
    cases h : (attrText? F.O "deprecated" e2 {}).2 with
    | error x =>
      intro k1 k2
      simp only at k1 k2
      subst k1
      subst k2
      rfl
    | ok d =>
      intro k1 k2
      simp only at k1 k2
      subst k1
      subst k2
      simp only [sub]
  refine ⟨fun hat => ?_, fun d hd hc => ?_⟩
  · refine main _ rfl (fun o => ?_) (fun r => ?_)
    · apply agree_attrVal_none
      · intro r; simp [Ent.getAttr, xmlGetAttr, hat, Dict.get?]
      · intro r
        have : (cs.map (fun c => Yaml.dict [c])).any (Yaml.isText "deprecated") = false := by
          rw [List.any_eq_false]; intro y hy; obtain ⟨c, _, rfl⟩ := List.mem_map.mp hy; simp [Yaml.isText]
        simp only [Ent.getAttr, yamlGetAttr, yamlLookup, this]
        simp
    · simp only [entChildren, Ent.children, yamlChildren, yamlChildEnts_map]
  · refine main _ rfl (textAgree hd) (fun r => ?_)
    simp only [entChildren, Ent.children, yamlChildren, hc, yamlIter, yamlChildEnts_map]

/-- A group with a scope and an assignment, in XML and in YAML. -/
example : Same sampleOracle (.elem "group" [("scoped", "true")] [.elem "let" [("name", "a"), ("value", "b")] []])
    (.dict [("scoped", .scalar (.bool true)), ("children", .list [.dict [("let", .dict [("name", .scalar (.str "a")), ("value", .scalar (.str "b"))])]])]) := by
  refine .dict [("let", .dict [("name", .scalar (.str "a")), ("value", .scalar (.str "b"))])] ?_ ?_ ?_ ?_ ?_ ?_ ?_ ?_
  · refine ⟨?_, by simp [hasActions, Ent.typeName, Xml.tag]⟩
    simp [Xml.attrs, Dict.keys, Ent.typeName, Xml.tag, textAttrs, typedAttrs]
  · simp [NamesDocumented, NamesWithin, Dict.keys, Ent.typeName, Xml.tag, textAttrs, typedAttrs, hasActions]
  · simp [TextSame, Xml.attrs, Xml.tag, textAttrs, Dict.get?]
  · have e : Dict.get? [("scoped", "true")] "scoped" = some "true" := rfl
    have e2 : Dict.get? [("scoped", "true")] "forwarding" = none := rfl
    simp [TypedSame, Xml.attrs, Xml.tag, typedAttrs, e, e2]
    refine ⟨⟨rfl, .bool true, rfl, rfl⟩, rfl, rfl⟩
  · simp [NestedSame, Xml.nested, Xml.tag, tagPairs, Dict.get?]
  · simp [Xml.tag, tagOthers]
  · intro _
    refine ⟨rfl, rfl, by simp [Xml.tag, tagPairs]⟩
  · intro _ p hp
    have : p = (.elem "let" [("name", "a"), ("value", "b")] [], .dict [("name", .scalar (.str "a")), ("value", .scalar (.str "b"))]) := by
      simpa [Xml.tag, Xml.nested, tagPairs] using hp
    subst this
    refine .dict [] ?_ ?_ ?_ ?_ ?_ ?_ (by simp [Xml.tag, hasActions]) (by simp [Xml.tag, hasActions])
    · refine ⟨?_, by simp [Xml.nested]⟩
      simp [Xml.attrs, Dict.keys, Ent.typeName, Xml.tag, textAttrs, typedAttrs]
    · simp [NamesDocumented, NamesWithin, Dict.keys, Ent.typeName, Xml.tag, textAttrs, typedAttrs]
    · simp [TextSame, Xml.attrs, Xml.tag, textAttrs, Dict.get?]
    · simp [Xml.tag, typedAttrs]
    · simp [Xml.tag, tagPairs]
    · simp [Xml.tag, tagOthers]

end Verif
