import Verif.Spec.Accept
import Verif.Props.Meaning
import Verif.Props.Frontend

/-!
# Well-formed launch files are accepted (C113)
-/

namespace Verif

/-! ## What was read -/

/-- The attribute was read, if there is one of this name. -/
def Got (e : Ent) (r : Reads) (n : String) : Prop :=
  match e with
  | .xml x => n ∈ x.attrs.keys → n ∈ r.attrs
  | .yaml (.dict d) _ => n ∈ Dict.keys d → n ∈ r.attrs
  | _ => True

/-- The nested entities of a name were read, if there are any. -/
def GotNested (e : Ent) (r : Reads) (n : String) : Prop :=
  match e with
  | .xml x => (∃ y ∈ x.nested, y.tag = n) → n ∈ r.tags
  | .yaml (.dict d) _ => n ∈ Dict.keys d → n ∈ r.attrs
  | _ => True

/-- The children were read. -/
def GotChildren (e : Ent) (r : Reads) : Prop :=
  match e with
  | .xml x => ∀ y ∈ x.nested, y.tag ∈ r.tags
  | .yaml (.dict _) _ => "children" ∈ r.attrs
  | .yaml (.list _) _ => r.childrenCalled = true
  | _ => True

/-- Nothing read is forgotten. -/
structure Keeps (e : Ent) (r r' : Reads) : Prop where
  attrs : ∀ a ∈ r.attrs, a ∈ r'.attrs
  tags : ∀ x, e = .xml x → ∀ y ∈ x.nested, y.tag ∈ r.tags → y.tag ∈ r'.tags
  called : r.childrenCalled = true → r'.childrenCalled = true

theorem Keeps.refl (e : Ent) (r : Reads) : Keeps e r r := ⟨fun _ h => h, fun _ _ _ _ h => h, id⟩

theorem Keeps.trans {e : Ent} {r1 r2 r3 : Reads} (h : Keeps e r1 r2) (k : Keeps e r2 r3) : Keeps e r1 r3 :=
  ⟨fun a ha => k.attrs a (h.attrs a ha), fun x hx y hy ht => k.tags x hx y hy (h.tags x hx y hy ht), fun hc => k.called (h.called hc)⟩

theorem Got.keep {e : Ent} {r r' : Reads} {n : String} (h : Got e r n) (k : Keeps e r r') : Got e r' n := by
  unfold Got at h ⊢
  split at h
  · exact fun hn => k.attrs _ (h hn)
  · exact fun hn => k.attrs _ (h hn)
  · trivial

theorem GotNested.keep {e : Ent} {r r' : Reads} {n : String} (h : GotNested e r n) (k : Keeps e r r') : GotNested e r' n := by
  unfold GotNested at h ⊢
  split at h
  · rename_i x
    rintro ⟨y, hy, rfl⟩
    exact k.tags x rfl y hy (h ⟨y, hy, rfl⟩)
  · exact fun hn => k.attrs _ (h hn)
  · trivial

theorem GotChildren.keep {e : Ent} {r r' : Reads} (h : GotChildren e r) (k : Keeps e r r') : GotChildren e r' := by
  unfold GotChildren at h ⊢
  split at h
  · rename_i x
    exact fun y hy => k.tags x rfl y hy (h y hy)
  · exact k.attrs _ h
  · exact k.called h
  · trivial

/-- The program gives `a`, and has read the attributes `A` and the nested entities `N` afterwards, and with `C` the children. -/
def Gives {α : Type} (m : P α) (e : Ent) (a : α) (A N : List String) (C : Bool) : Prop :=
  ∀ r, ∃ r', m e r = (r', .ok a) ∧ Keeps e r r' ∧ (∀ n ∈ A, Got e r' n) ∧ (∀ n ∈ N, GotNested e r' n) ∧ (C = true → GotChildren e r')

namespace Gives

variable {α β : Type} {e : Ent}

theorem pure (a : α) : Gives (P.pure a) e a [] [] false := fun r => ⟨r, rfl, .refl e r, by simp, by simp, by simp⟩

theorem lift {x : Res α} {a : α} (h : x = .ok a) : Gives (P.lift x) e a [] [] false := fun r => ⟨r, by rw [P.lift, h], .refl e r, by simp, by simp, by simp⟩

theorem bind {m : P α} {f : α → P β} {a : α} {b : β} {A N A' N' : List String} {C C' : Bool} (hm : Gives m e a A N C) (hf : Gives (f a) e b A' N' C') :
    Gives (P.bind m f) e b (A ++ A') (N ++ N') (C || C') := by
  intro r
  obtain ⟨r1, h1, k1, a1, n1, c1⟩ := hm r
  obtain ⟨r2, h2, k2, a2, n2, c2⟩ := hf r1
  refine ⟨r2, by simp only [P.bind, h1, h2], k1.trans k2, ?_, ?_, ?_⟩
  · intro n hn
    rcases List.mem_append.1 hn with hn | hn
    · exact (a1 n hn).keep k2
    · exact a2 n hn
  · intro n hn
    rcases List.mem_append.1 hn with hn | hn
    · exact (n1 n hn).keep k2
    · exact n2 n hn
  · intro h
    cases C with
    | true => exact (c1 rfl).keep k2
    | false => exact c2 (by simpa using h)

end Gives

theorem keys_of_get? {α : Type} {d : Dict α} {n : String} (h : d.get? n = none) : n ∉ Dict.keys d := by
  intro hn
  induction d with
  | nil => simp [Dict.keys] at hn
  | cons p d ih =>
    obtain ⟨k, v⟩ := p
    simp only [Dict.get?] at h
    split at h
    · simp at h
    · rename_i hk
      simp only [Dict.keys, List.map_cons, List.mem_cons] at hn
      rcases hn with rfl | hn
      · exact hk rfl
      · exact ih h hn

theorem get?_of_not_keys {α : Type} {d : Dict α} {n : String} (h : n ∉ Dict.keys d) : d.get? n = none := by
  induction d with
  | nil => rfl
  | cons p d ih =>
    obtain ⟨k, v⟩ := p
    simp only [Dict.keys, List.map_cons, List.mem_cons, not_or] at h
    simp only [Dict.get?]
    rw [if_neg (fun hk => h.1 hk.symm)]
    exact ih h.2

/-! ## Attributes -/

/-- The attribute can be looked up: it has no separator, and an entity that is a list has no item of this name. -/
def Lookup (n : String) : Ent → Prop
  | .xml x => x.attrs.get? (n ++ "-sep") = none
  | .yaml (.dict _) _ => True
  | .yaml (.list l) _ => ∀ y ∈ l, y.isText n = false
  | .yaml (.scalar _) _ => False

theorem Gives.absent {O : Oracle} {n : String} {t : ScalarTy} {e : Ent} (h : Absent n e) (hl : Lookup n e) :
    Gives (attrVal O n (.scalar t) true) e none [n] [] false := by
  intro r
  refine ⟨r, ?_, .refl e r, ?_, by simp, by simp⟩
  · unfold attrVal
    cases e with
    | xml x => simp only [Absent] at h; simp [Ent.getAttr, xmlGetAttr, h]
    | yaml y tn =>
      cases y with
      | dict d => simp only [Absent] at h; simp [Ent.getAttr, yamlGetAttr, yamlLookup, h]
      | list l =>
        have : l.any (Yaml.isText n) = false := by rw [List.any_eq_false]; intro y hy; simp [hl y hy]
        simp [Ent.getAttr, yamlGetAttr, yamlLookup, this]
      | scalar w => exact absurd hl (by simp [Lookup])
  · intro k hk
    rw [List.mem_singleton.1 hk]
    unfold Got
    cases e with
    | xml x => exact fun hn => absurd hn (keys_of_get? h)
    | yaml y tn =>
      cases y with
      | dict d => exact fun hn => absurd hn (keys_of_get? h)
      | list l => trivial
      | scalar w => trivial

theorem Gives.present {O : Oracle} {n : String} {t : ScalarTy} {e : Ent} {v : PyVal} {o : Bool} (h : HasValue O t n e v) (hl : Lookup n e) :
    Gives (attrVal O n (.scalar t) o) e (some v) [n] [] false := by
  intro r
  refine ⟨{ r with attrs := n :: r.attrs }, ?_, ⟨fun a ha => by simp [ha], fun _ _ _ _ h => h, id⟩, ?_, by simp, by simp⟩
  · unfold attrVal
    cases e with
    | xml x =>
      obtain ⟨s, h1, h2⟩ := h
      simp only [Lookup] at hl
      simp [Ent.getAttr, xmlGetAttr, h1, hl, xmlTyped, getTypedValue, h2]
    | yaml y tn =>
      cases y with
      | dict d =>
        obtain ⟨h1, h2⟩ := h
        have : isInstanceOf v (some (.scalar t)) true = true := by
          simp only [isInstanceOf, isInstOrStr, Bool.true_and, Bool.or_eq_true]
          rcases h2 with h2 | ⟨s, rfl⟩
          · exact .inl h2
          · exact .inr rfl
        simp [Ent.getAttr, yamlGetAttr, yamlLookup, h1, Yaml.toPyVal, this]
      | list l => exact absurd h (by simp [HasValue])
      | scalar w => exact absurd h (by simp [HasValue])
  · intro k hk
    rw [List.mem_singleton.1 hk]
    unfold Got
    cases e with
    | xml x => simp
    | yaml y tn => cases y <;> simp

theorem Gives.may {O : Oracle} {n : String} {t : ScalarTy} {e : Ent} {v : Option PyVal} (h : MayHave O t n e v) (hl : Lookup n e) :
    Gives (attrVal O n (.scalar t) true) e v [n] [] false := by
  rcases h with ⟨rfl, h⟩ | ⟨w, rfl, h⟩
  · exact .absent h hl
  · exact .present h hl

theorem hasValue_of_text {O : Oracle} {n : String} {e : Ent} {s : String} (h : e.text n = some s) : HasValue O .str n e (.str s) := by
  cases e with
  | xml x => exact ⟨s, h, by simp [coerceToType]⟩
  | yaml y t =>
    cases y with
    | dict d =>
      simp only [Ent.text] at h
      split at h
      · rename_i s' hs
        simp only [Option.some.injEq] at h
        subst h
        exact ⟨hs, .inr ⟨_, rfl⟩⟩
      · simp at h
    | list l => simp [Ent.text] at h
    | scalar w => simp [Ent.text] at h

theorem Gives.text {O : Oracle} {n : String} {e : Ent} {s : String} (h : e.text n = some s) (hl : Lookup n e) : Gives (attrText O n) e s [n] [] false := by
  have := Gives.bind (f := fun v => match v with
    | some (.str s) => P.pure s
    | _ => P.raise .typeError) (Gives.present (O := O) (o := false) (hasValue_of_text h) hl) (.pure s)
  exact this

theorem Gives.text? {O : Oracle} {n : String} {e : Ent} {s : Option String} (h : e.text n = s) (ht : TextOrAbsent n e) (hl : Lookup n e) :
    Gives (attrText? O n) e s [n] [] false := by
  cases s with
  | some s =>
    exact Gives.bind (f := fun v => match v with
      | some (.str s) => P.pure (some s)
      | some _ => P.raise .typeError
      | none => P.pure none) (Gives.present (O := O) (o := true) (hasValue_of_text h) hl) (.pure (some s))
  | none =>
    have ha : Absent n e := by
      rcases ht with ha | ⟨s, hs⟩
      · exact ha
      · rw [h] at hs; simp at hs
    exact Gives.bind (f := fun v => match v with
      | some (.str s) => P.pure (some s)
      | some _ => P.raise .typeError
      | none => P.pure none) (Gives.absent (O := O) (t := .str) ha hl) (.pure none)

theorem Gives.subs {F : Front} {n : String} {e : Ent} {l : List Sub} (h : Denotes F e n l) (hl : Lookup n e) : Gives (attrSubs F n) e l [n] [] false := by
  obtain ⟨s, h1, h2⟩ := h
  exact Gives.bind (Gives.text h1 hl) (.lift h2)

theorem Gives.subs? {F : Front} {n : String} {e : Ent} {o : Option (List Sub)} (h : MayDenote F e n o) (ht : TextOrAbsent n e) (hl : Lookup n e) :
    Gives (attrSubs? F n) e o [n] [] false := by
  rcases h with ⟨rfl, h⟩ | ⟨l, rfl, s, h1, h2⟩
  · exact Gives.bind (f := fun v => match v with
      | some s => P.bind (P.lift (F.subst s)) fun l => P.pure (some l)
      | none => P.pure none) (Gives.text? h ht hl) (.pure none)
  · exact Gives.bind (f := fun v => match v with
      | some s => P.bind (P.lift (F.subst s)) fun l => P.pure (some l)
      | none => P.pure none) (Gives.text? h1 ht hl) (.bind (.lift h2) (.pure (some l)))

theorem Gives.base {F : Front} {e : Ent} {c : Option Cond} (h : CondGiven F e c) (h1 : TextOrAbsent "if" e) (h2 : TextOrAbsent "unless" e)
    (l1 : Lookup "if" e) (l2 : Lookup "unless" e) : Gives (parseBase F) e c ["if", "unless"] [] false := by
  rcases h with ⟨rfl, hi, hu⟩ | ⟨l, rfl, ⟨s, hi, hs⟩, hu⟩ | ⟨l, rfl, ⟨s, hu, hs⟩, hi⟩
  · exact Gives.bind (Gives.text? hi h1 l1) (Gives.bind (Gives.text? hu h2 l2) (.pure none))
  · exact Gives.bind (Gives.text? hi h1 l1) (Gives.bind (Gives.text? hu h2 l2) (.bind (.lift hs) (.pure _)))
  · exact Gives.bind (Gives.text? hi h1 l1) (Gives.bind (Gives.text? hu h2 l2) (.bind (.lift hs) (.pure _)))

/-! ## Everything was read -/

theorem assert_ok {α : Type} {m : P α} {e : Ent} {a : α} {A N : List String} {C : Bool} (h : Gives m e a A N C) (hn : NamesWithin A N C e) (r : Reads) :
    ∃ r', m e r = (r', .ok a) ∧ e.assertParsed r' = .ok () := by
  obtain ⟨r', hm, _, ha, hN, hC⟩ := h r
  refine ⟨r', hm, ?_⟩
  cases e with
  | xml x =>
    obtain ⟨h1, h2⟩ := hn
    simp only [Ent.assertParsed, xmlAssert]
    rw [if_neg, if_neg]
    · simp only [List.any_eq_true, not_exists, not_and, Bool.not_eq_true', Bool.not_eq_false, List.contains_eq_mem, decide_eq_true_eq]
      exact fun k hk => ha k (h1 k hk) hk
    · simp only [List.any_eq_true, not_exists, not_and, Bool.not_eq_true', Bool.not_eq_false, List.contains_eq_mem, decide_eq_true_eq]
      intro y hy
      cases C with
      | true => exact hC rfl y hy
      | false => exact hN y.tag (h2 rfl y hy) ⟨y, hy, rfl⟩
  | yaml y t =>
    cases y with
    | dict d =>
      simp only [Ent.assertParsed, yamlAssert]
      rw [if_neg]
      simp only [List.any_eq_true, not_exists, not_and, Bool.not_eq_true', Bool.not_eq_false, List.contains_eq_mem, decide_eq_true_eq]
      intro k hk
      rcases hn k hk with h | h | ⟨rfl, rfl⟩
      · exact ha k h hk
      · exact hN k h hk
      · exact hC rfl
    | list l =>
      simp only [NamesWithin] at hn
      have := hC hn
      simp only [GotChildren] at this
      simp [Ent.assertParsed, yamlAssert, this]
    | scalar w => exact absurd hn (by simp [NamesWithin])

/-! ## Nested entities -/

theorem mapRes_ok {α β : Type} {f : α → Res β} {l : List α} {bs : List β} (h : Each2 (fun a b => f a = .ok b) l bs) : mapRes f l = .ok bs := by
  induction h with
  | nil => rfl
  | cons h _ ih => simp [mapRes, h, ih]

theorem lookup_of_within {A N : List String} {C : Bool} {e : Ent} (hn : NamesWithin A N C e) (hl : ∀ l t, e = .yaml (.list l) t → OneTagEach l) (n : String)
    (hs : n ++ "-sep" ∉ A) : Lookup n e := by
  cases e with
  | xml x => exact get?_of_not_keys (fun h => hs (hn.1 _ h))
  | yaml y t =>
    cases y with
    | dict d => trivial
    | list l =>
      intro y hy
      obtain ⟨tag, c, rfl⟩ := hl l t rfl y hy
      rfl
    | scalar w => exact absurd hn (by simp [NamesWithin])

theorem pairs_ok {F : Front} {es : List Ent} {ps : List (List Sub × List Sub)}
    (h : Each2 (fun y p => Denotes F y "name" p.1 ∧ Denotes F y "value" p.2) es ps) (hn : ∀ y ∈ es, NamesWithin ["name", "value"] [] false y) :
    parsePairs F es = .ok ps := by
  have key : ∃ l : List (Ent × Reads × (List Sub × List Sub)), mapRes (readPair F) es = .ok l ∧ l.map (·.2.2) = ps ∧ ∃ us, mapRes (fun q => Ent.assertParsed q.1 q.2.1) l = .ok us := by
    induction h with
    | nil => exact ⟨[], rfl, rfl, [], rfl⟩
    | @cons y p es ps h _ ih =>
      obtain ⟨l, h1, h2, us, h3⟩ := ih (fun z hz => hn z (List.mem_cons_of_mem _ hz))
      have hy := hn y List.mem_cons_self
      have nolist : ∀ l t, y = .yaml (.list l) t → OneTagEach l := by
        rintro l t rfl
        simp [NamesWithin] at hy
      have g : Gives (parsePair F) y p ["name", "value"] [] false :=
        Gives.bind (Gives.subs h.1 (lookup_of_within hy nolist _ (by decide)))
          (Gives.bind (Gives.subs h.2 (lookup_of_within hy nolist _ (by decide))) (.pure (p.1, p.2)))
      obtain ⟨r, g1, g2⟩ := assert_ok g hy {}
      refine ⟨(y, r, p) :: l, ?_, by simp [h2], () :: us, ?_⟩
      · simp [mapRes, readPair, onFresh, g1, h1]
      · simp [mapRes, g2, h3]
  obtain ⟨l, h1, h2, us, h3⟩ := key
  simp [parsePairs, h1, h3, h2]

theorem Gives.ents {O : Oracle} {n : String} {e : Ent} (hl : Lookup n e) (hne : NestedListed n e)
    (hd : ∀ y l, nestedEnts e n = y :: l → ∀ z t, y = .yaml z t → ∃ d, z = .dict d) :
    Gives (attrEnts? O n) e (if nestedEnts e n = [] then none else some (nestedEnts e n)) [] [n] false := by
  intro r
  cases e with
  | xml x =>
    cases hx : x.nested.filter (fun y => y.tag = n) with
    | nil =>
      refine ⟨r, ?_, .refl _ r, by simp, ?_, by simp⟩
      · simp [attrEnts?, Ent.getAttr, xmlGetAttr, hx, nestedEnts]
      · intro k hk
        rw [List.mem_singleton.1 hk]
        rintro ⟨y, hy, ht⟩
        have : y ∈ x.nested.filter (fun y => y.tag = n) := List.mem_filter.2 ⟨hy, by simp [ht]⟩
        rw [hx] at this
        simp at this
    | cons y l =>
      refine ⟨{ r with tags := n :: r.tags }, ?_, ⟨fun _ h => h, fun _ _ _ _ h => by simp [h], id⟩, by simp, ?_, by simp⟩
      · simp [attrEnts?, Ent.getAttr, xmlGetAttr, hx, nestedEnts]
      · intro k hk
        rw [List.mem_singleton.1 hk]
        intro _
        simp
  | yaml y t =>
    cases y with
    | dict d =>
      cases hg : Dict.get? d n with
      | none =>
        refine ⟨r, ?_, .refl _ r, by simp, ?_, by simp⟩
        · simp [attrEnts?, Ent.getAttr, yamlGetAttr, yamlLookup, hg, nestedEnts]
        · intro k hk
          rw [List.mem_singleton.1 hk]
          exact fun hn => absurd hn (keys_of_get? hg)
      | some v =>
        obtain ⟨y, l, rfl⟩ := hne v hg
        have hN : nestedEnts (.yaml (.dict d) t) n = (y :: l).map (.yaml · n) := by simp [nestedEnts, hg]
        obtain ⟨d', rfl⟩ := hd _ _ hN y n rfl
        refine ⟨{ r with attrs := n :: r.attrs }, ?_, ⟨fun _ h => by simp [h], fun _ _ _ _ h => h, id⟩, by simp, ?_, by simp⟩
        · simp [attrEnts?, Ent.getAttr, yamlGetAttr, yamlLookup, hg, hN]
        · intro k hk
          rw [List.mem_singleton.1 hk]
          intro _
          simp
    | list l =>
      have : l.any (Yaml.isText n) = false := by rw [List.any_eq_false]; intro y hy; simp [hl y hy]
      exact ⟨r, by simp [attrEnts?, Ent.getAttr, yamlGetAttr, yamlLookup, this, nestedEnts], .refl _ r, by simp, fun _ _ => trivial, by simp⟩
    | scalar w => exact absurd hl (by simp [Lookup])

theorem dict_of_within {A N : List String} {y : Ent} (h : NamesWithin A N false y) (z : Yaml) (t : String) (hy : y = .yaml z t) : ∃ d, z = .dict d := by
  subst hy
  cases z with
  | dict d => exact ⟨d, rfl⟩
  | list l => simp [NamesWithin] at h
  | scalar w => simp [NamesWithin] at h

theorem Gives.pairs {F : Front} {n : String} {e : Ent} {o : Option (List (List Sub × List Sub))} (h : PairsGiven F e n o) (hl : Lookup n e)
    (hne : NestedListed n e) (hn : ∀ y ∈ nestedEnts e n, NamesWithin ["name", "value"] [] false y) : Gives (attrPairs? F n) e o [] [n] false := by
  have he := Gives.ents (O := F.O) hl hne (fun y l hyl z t hy => dict_of_within (hn y (by rw [hyl]; simp)) z t hy)
  rcases h with ⟨rfl, h⟩ | ⟨l, rfl, h, h2⟩
  · rw [if_pos h] at he
    exact Gives.bind (f := fun es => match es with
      | none => P.pure none
      | some l => P.bind (P.lift (parsePairs F l)) fun ps => P.pure (some ps)) he (.pure none)
  · rw [if_neg h] at he
    exact Gives.bind (f := fun es => match es with
      | none => P.pure none
      | some l => P.bind (P.lift (parsePairs F l)) fun ps => P.pure (some ps)) he (.bind (.lift (pairs_ok h2 hn)) (.pure (some l)))

theorem lookup_of_text {n : String} {y : Ent} {s : String} (h : y.text n = some s) (hs : NotSplit n y) : Lookup n y := by
  cases y with
  | xml x => exact hs
  | yaml z t =>
    cases z with
    | dict d => trivial
    | list l => simp [Ent.text] at h
    | scalar w => simp [Ent.text] at h

theorem Gives.choices {F : Front} {e : Ent} {o : Option (List String)} (h : ChoicesGiven e o) (hl : Lookup "choice" e) (hne : NestedListed "choice" e)
    (hs : ∀ y ∈ nestedEnts e "choice", NotSplit "value" y) : Gives (attrChoices? F) e o [] ["choice"] false := by
  have hd : ∀ y l, nestedEnts e "choice" = y :: l → ∀ z t, y = .yaml z t → ∃ d, z = .dict d := by
    intro y l hyl z t hy
    rcases h with ⟨_, h⟩ | ⟨_, _, _, h2⟩
    · rw [h] at hyl; simp at hyl
    · rw [hyl] at h2
      cases h2 with
      | cons hv _ =>
        obtain ⟨s, hs, _⟩ := hv
        subst hy
        cases z with
        | dict d => exact ⟨d, rfl⟩
        | list l => simp [Ent.text] at hs
        | scalar w => simp [Ent.text] at hs
  have he := Gives.ents (O := F.O) hl hne hd
  rcases h with ⟨rfl, h⟩ | ⟨l, rfl, h, h2⟩
  · rw [if_pos h] at he
    exact Gives.bind (f := fun es => match es with
      | none => P.pure none
      | some l => P.bind (P.lift (parseChoices F l)) fun ps => P.pure (some ps)) he (.pure none)
  · rw [if_neg h] at he
    have hp : parseChoices F (nestedEnts e "choice") = .ok l := by
      apply mapRes_ok
      generalize nestedEnts e "choice" = es at h2 hs
      induction h2 with
      | nil => exact .nil
      | cons hv _ ih =>
        refine .cons ?_ (ih (fun z hz => hs z (List.mem_cons_of_mem _ hz)))
        obtain ⟨s, h1, rfl⟩ := hv
        obtain ⟨r', hr, _⟩ := Gives.bind (f := fun s => P.pure (unescapeText s)) (Gives.text (O := F.O) h1 (lookup_of_text h1 (hs _ List.mem_cons_self))) (.pure _) {}
        show (P.bind (attrText F.O "value") (fun s => P.pure (unescapeText s)) _ {}).2 = _
        rw [hr]
        rfl
    exact Gives.bind (f := fun es => match es with
      | none => P.pure none
      | some l => P.bind (P.lift (parseChoices F l)) fun ps => P.pure (some ps)) he (.bind (.lift hp) (.pure (some l)))

/-! ## Typed arguments -/

theorem typedArg_ok {F : Front} {v : PyVal} {t : ScalarTy} {u : TVal} (hts : t ≠ .str) (h : TypedGiven F t v u) : typedArg F v t = .ok u := by
  cases h with
  | value hv =>
    cases hv <;> first | exact absurd rfl hts | simp [typedArg, parseIfSubs, IfSub.toTVal, TVal.ofScalar, normalizeTyped, TVal.scalar?, isInstanceOf, isInstOrStr, PyVal.isInst, TVal.ofValue]
  | @text s l hl hne hx =>
    have hi : parseIfSubs F (.str s) = .ok (.subs l) := by
      simp only [parseIfSubs, hl]
    simp only [typedArg, hi, IfSub.toTVal]
    cases l with
    | nil => exact absurd rfl hne
    | cons x l =>
      have hs : (TVal.seq ((x :: l).map .sub)).isSubstitution = true := by
        simp [TVal.isSubstitution, TVal.isSubOrStr, TVal.isSub]
      have ht : (TVal.seq ((x :: l).map .sub)).toSubs = .ok (x :: l) := by
        simp only [TVal.toSubs]
        exact toSub_subs (x :: l)
      simp only [normalizeTyped, TVal.scalar?, hs, if_true, ht]

theorem typedOpt_ok {F : Front} {p : Option PyVal} {q : Option TVal} (h : MayTyped F .bool p q) :
    (match (generalizing := false) p with
      | none => .ok none
      | some x => match (generalizing := false) typedArg F x .bool with
        | .ok t => .ok (some t)
        | .error e => .error e : Res (Option TVal)) = .ok q := by
  rcases h with ⟨rfl, rfl⟩ | ⟨w, u, rfl, rfl, h⟩
  · rfl
  · simp only [typedArg_ok (by decide) h]

theorem period_ok {F : Front} {v : PyVal} {u : TVal} (h : PeriodGiven F v u) : periodArg F v = .ok u := by
  rcases h with h | ⟨s, x, f, rfl, h1, h2, rfl⟩
  · have hk := typedArg_ok (by decide) h
    cases h with
    | value hv =>
      cases hv
      simpa [typedArg, parseIfSubs, periodArg] using hk
    | @text s l hl hne hx =>
      have hi : parseIfSubs F (.str s) = .ok (.subs l) := by
        simp only [parseIfSubs, hl]
      simp only [typedArg, hi] at hk
      simp only [periodArg, hi, hk]
  · simp [periodArg, parseIfSubs, h1, h2]

theorem nonNeg_ok {F : Front} {o : Option PyVal} (h : NotNegative F o) : checkNonNeg F o = .ok o := by
  cases o with
  | none => rfl
  | some v =>
    obtain ⟨h1, h2⟩ := h v rfl
    cases v with
    | str s => exact absurd rfl (h1 s)
    | float f => simp [checkNonNeg, h2 f rfl]
    | _ => rfl

/-! ## Nested actions -/

theorem yamlChildEnts_ok (l : List Yaml) (h : OneTagEach l) : ∃ es, yamlChildEnts l = .ok es := by
  induction l with
  | nil => exact ⟨[], rfl⟩
  | cons y l ih =>
    obtain ⟨es, he⟩ := ih (fun z hz => h z (List.mem_cons_of_mem _ hz))
    obtain ⟨tag, c, rfl⟩ := h y List.mem_cons_self
    exact ⟨.yaml c tag :: es, by simp [yamlChildEnts, he]⟩

theorem Gives.children {e : Ent} (h : ActionsListed e) : Gives entChildren e (childEnts e) [] [] true := by
  intro r
  cases e with
  | xml x =>
    refine ⟨{ r with tags := x.nested.map Xml.tag }, rfl, ⟨fun _ h => h, ?_, id⟩, by simp, by simp, ?_⟩
    · intro z hz y hy _
      simp only [Ent.xml.injEq] at hz
      subst hz
      exact List.mem_map.2 ⟨y, hy, rfl⟩
    · exact fun _ y hy => List.mem_map.2 ⟨y, hy, rfl⟩
  | yaml y t =>
    cases y with
    | dict d =>
      obtain ⟨v, l, h1, hv, h2⟩ := h
      obtain ⟨es, he⟩ := yamlChildEnts_ok l h2
      have hi : yamlIter v = .ok l := by rcases hv with rfl | ⟨rfl, rfl | rfl⟩ <;> rfl
      have hc : childEnts (.yaml (.dict d) t) = es := by
        rw [(yamlChildEnts_inv he).1]
        rcases hv with rfl | ⟨rfl, rfl | rfl⟩ <;> simp [childEnts, h1]
      refine ⟨{ r with childrenCalled := true, attrs := "children" :: r.attrs }, ?_, ⟨fun _ h => by simp [h], fun _ _ _ _ h => h, by simp⟩, by simp, by simp, ?_⟩
      · simp [entChildren, Ent.children, yamlChildren, h1, he, hi, hc]
      · intro _; simp [GotChildren]
    | list l =>
      obtain ⟨es, he⟩ := yamlChildEnts_ok l h
      refine ⟨{ r with childrenCalled := true }, ?_, ⟨fun _ h => h, fun _ _ _ _ h => h, by simp⟩, by simp, by simp, ?_⟩
      · simp [entChildren, Ent.children, yamlChildren, he, childEnts, ← (yamlChildEnts_inv he).1]
      · intro _; simp [GotChildren]
    | scalar w => exact absurd h (by simp [ActionsListed])

theorem mapRes_eventually {f : Nat → Ent → Res PAct} (es : List Ent) (as : List PAct) (hl : as.length = es.length)
    (h : ∀ p ∈ es.zip as, ∃ N, ∀ fuel, N ≤ fuel → f fuel p.1 = .ok p.2) : ∃ N, ∀ fuel, N ≤ fuel → mapRes (f fuel) es = .ok as := by
  induction es generalizing as with
  | nil =>
    cases as with
    | nil => exact ⟨0, fun _ _ => rfl⟩
    | cons _ _ => simp at hl
  | cons e es ih =>
    cases as with
    | nil => simp at hl
    | cons a as =>
      obtain ⟨N, hN⟩ := h (e, a) (by simp)
      obtain ⟨M, hM⟩ := ih as (by simpa using hl) (fun p hp => h p (by simp [hp]))
      refine ⟨max N M, fun fuel hf => ?_⟩
      simp [mapRes, hN fuel (by omega), hM fuel (by omega)]

theorem NamesWithin.mono {A N A' N' : List String} {C : Bool} {e : Ent} (h : NamesWithin A N C e) (hA : ∀ n ∈ A, n ∈ A') (hN : ∀ n ∈ N, n ∈ N') :
    NamesWithin A' N' C e := by
  cases e with
  | xml x => exact ⟨fun a ha => hA a (h.1 a ha), fun hc y hy => hN _ (h.2 hc y hy)⟩
  | yaml y t =>
    cases y with
    | dict d =>
      intro k hk
      rcases h k hk with h | h | h
      · exact .inl (hA k h)
      · exact .inr (.inl (hN k h))
      · exact .inr (.inr h)
    | list l => exact h
    | scalar w => exact h

/-- An action is parsed if its parts are read. -/
theorem parse_of_gives {F : Front} {fuel : Nat} {e : Ent} {tag : String} {c : Option Cond} {k : P PKind} {x : PKind} {A N : List String} {C : Bool}
    (ht : e.typeName = tag) (hk : parseKind F (mapRes (parseAction F fuel)) tag = some k) (hb : Gives (parseBase F) e c ["if", "unless"] [] false)
    (hx : Gives k e x A N C) (hn : NamesWithin (["if", "unless"] ++ tagAttrs tag) (tagPairs tag ++ tagOthers tag) (hasActions tag) e)
    (hA : ∀ n ∈ tagAttrs tag, n ∈ A) (hN : ∀ n ∈ tagPairs tag ++ tagOthers tag, n ∈ N) (hC : hasActions tag = C) :
    parseAction F (fuel + 1) e = .ok (.mk c x) := by
  have hm : parseMethod F (mapRes (parseAction F fuel)) tag = some (P.bind (parseBase F) fun c => P.bind k fun x => P.pure (.mk c x)) := by
    simp [parseMethod, hk]
  have hg : Gives (P.bind (parseBase F) fun c => P.bind k fun x => P.pure (PAct.mk c x)) e (.mk c x) (["if", "unless"] ++ (A ++ [])) ([] ++ (N ++ [])) (false || (C || false)) :=
    Gives.bind hb (Gives.bind hx (.pure _))
  have hw : NamesWithin (["if", "unless"] ++ (A ++ [])) ([] ++ (N ++ [])) (false || (C || false)) e := by
    have := hn.mono (A' := ["if", "unless"] ++ (A ++ [])) (N' := [] ++ (N ++ []))
      (fun n h => by
        rcases List.mem_append.1 h with h | h
        · exact List.mem_append.2 (.inl h)
        · exact List.mem_append.2 (.inr (by simpa using hA n h)))
      (fun n h => by simpa using hN n h)
    rw [hC] at this
    simpa using this
  obtain ⟨r, h1, h2⟩ := assert_ok hg hw {}
  rw [parseAction, ht, hm]
  simp only [checked, onFresh, h1, h2]

theorem parse_of_kind {F : Front} {fuel : Nat} {e : Ent} {tag : String} {c : Option Cond} {x : PKind} {k : P PKind} {A N : List String} {C : Bool}
    (ht : e.typeName = tag) (hb : Gives (parseBase F) e c ["if", "unless"] [] false)
    (hn : NamesWithin (["if", "unless"] ++ tagAttrs tag) (tagPairs tag ++ tagOthers tag) (hasActions tag) e)
    (hk : parseKind F (mapRes (parseAction F fuel)) tag = some k) (hx : Gives k e x A N C) (hA : ∀ n ∈ tagAttrs tag, n ∈ A)
    (hN : ∀ n ∈ tagPairs tag ++ tagOthers tag, n ∈ N) (hC : hasActions tag = C) : parseAction F (fuel + 1) e = .ok (.mk c x) :=
  parse_of_gives ht hk hb hx hn hA hN hC

/-- What is known of an entity that is documented and of the right form. -/
structure ReadyToParse (F : Front) (e : Ent) (tag : String) (c : Option Cond) : Prop where
  base : Gives (parseBase F) e c ["if", "unless"] [] false
  names : NamesWithin (["if", "unless"] ++ tagAttrs tag) (tagPairs tag ++ tagOthers tag) (hasActions tag) e
  look : ∀ n ∈ ["if", "unless"] ++ tagAttrs tag ++ tagPairs tag ++ tagOthers tag, Lookup n e
  texts : ∀ n ∈ tagTexts tag, TextOrAbsent n e
  nested : ∀ n ∈ tagPairs tag ++ tagOthers tag, NestedListed n e
  pairs : ∀ n ∈ tagPairs tag, ∀ y ∈ nestedEnts e n, NamesWithin ["name", "value"] [] false y
  others : ∀ n ∈ tagOthers tag, ∀ y ∈ nestedEnts e n, NotSplit "value" y
  listed : hasActions tag = true → ActionsListed e
  inner : hasActions tag = true → ∀ y ∈ childEnts e, y.typeName ∉ tagPairs tag → Documented y ∧ Formed y

theorem no_separators : ∀ tag ∈ knownTags, ∀ n ∈ ["if", "unless"] ++ tagAttrs tag ++ tagPairs tag ++ tagOthers tag,
    n ++ "-sep" ∉ ["if", "unless"] ++ tagAttrs tag := by decide +kernel

theorem readyToParse {F : Front} {e : Ent} {tag : String} {c : Option Cond} (ht : e.typeName = tag) (hc : CondGiven F e c) (hd : Documented e) (hf : Formed e) :
    ReadyToParse F e tag c := by
  subst ht
  cases hd with
  | mk k1 k2 k3 k4 =>
  cases hf with
  | mk f1 f2 f3 f4 f5 =>
  have hl : ∀ l t, e = .yaml (.list l) t → OneTagEach l := by
    rintro l t rfl
    exact f4 k2
  have look : ∀ n ∈ ["if", "unless"] ++ tagAttrs e.typeName ++ tagPairs e.typeName ++ tagOthers e.typeName, Lookup n e :=
    fun n hn => lookup_of_within k2 hl n (no_separators _ k1 n hn)
  exact {
    base := Gives.base hc (f1 _ (by simp)) (f1 _ (by simp)) (look _ (by simp)) (look _ (by simp))
    names := k2
    look := look
    texts := fun n hn => f1 n (List.mem_append.2 (.inr hn))
    nested := f2
    pairs := k3
    others := f3
    listed := f4
    inner := fun ha y hy hn => ⟨k4 ha y hy hn, f5 ha y hy hn⟩ }

/-- C113: an entity that describes an action, has only documented parts, and these of the right form, is accepted, and gives this action (if the entities
are not nested too deeply). -/
theorem C113_accepted (F : Front) (e : Ent) (a : PAct) (h : WellWritten F e a) : ∃ N, ∀ fuel, N ≤ fuel → parseAction F fuel e = .ok a := by
  obtain ⟨hs, hd, hf⟩ := h
  induction hs with
  | letLC hc ht h1 h2 =>
    have R := readyToParse ht hc hd hf
    refine ⟨1, fun fuel hfu => ?_⟩
    obtain ⟨fuel, rfl⟩ : ∃ n, fuel = n + 1 := ⟨fuel - 1, by omega⟩
    apply parse_of_kind ht R.base R.names (by simp only [parseKind]; rfl)
    apply Gives.bind (.subs h1 (R.look _ (by decide)))
    apply Gives.bind (.subs h2 (R.look _ (by decide)))
    · exact .pure _
    all_goals decide
  | arg hc ht h1 h2 h3 h4 h5 =>
    have R := readyToParse ht hc hd hf
    subst h2
    refine ⟨1, fun fuel hfu => ?_⟩
    obtain ⟨fuel, rfl⟩ : ∃ n, fuel = n + 1 := ⟨fuel - 1, by omega⟩
    apply parse_of_kind ht R.base R.names (by simp only [parseKind]; rfl)
    apply Gives.bind (.text h1 (R.look _ (by decide)))
    apply Gives.bind (.subs? h3 (R.texts _ (by decide)) (R.look _ (by decide)))
    apply Gives.bind (.text? h4 (R.texts _ (by decide)) (R.look _ (by decide)))
    apply Gives.bind (.choices h5 (R.look _ (by decide)) (R.nested _ (by decide)) (R.others _ (by decide)))
    · exact .pure _
    all_goals decide
  | group hc ht h1 h2 h3 h4 h5 ih =>
    have R := readyToParse ht hc hd hf
    obtain ⟨N, hN⟩ := mapRes_eventually (f := parseAction F) _ _ h4 (fun p hp => by
      have hm := (List.of_mem_zip hp).1
      simp only [List.mem_filter, decide_eq_true_eq] at hm
      obtain ⟨q1, q2⟩ := R.inner rfl p.1 hm.1 (by simpa [tagPairs] using hm.2)
      exact ih p hp q1 q2)
    refine ⟨N + 1, fun fuel hfu => ?_⟩
    obtain ⟨fuel, rfl⟩ : ∃ n, fuel = n + 1 := ⟨fuel - 1, by omega⟩
    apply parse_of_kind ht R.base R.names (by simp only [parseKind]; rfl)
    apply Gives.bind (.may h1 (R.look _ (by decide)))
    apply Gives.bind (.may h2 (R.look _ (by decide)))
    apply Gives.bind (.pairs h3 (R.look _ (by decide)) (R.nested _ (by decide)) (R.pairs _ (by decide)))
    apply Gives.bind (.children (R.listed rfl))
    apply Gives.bind (.lift (hN fuel (by omega)))
    · exact .pure _
    all_goals decide
  | includeFile hc ht h1 h2 =>
    have R := readyToParse ht hc hd hf
    refine ⟨1, fun fuel hfu => ?_⟩
    obtain ⟨fuel, rfl⟩ : ∃ n, fuel = n + 1 := ⟨fuel - 1, by omega⟩
    apply parse_of_kind ht R.base R.names (by simp only [parseKind]; rfl)
    apply Gives.bind (.subs h1 (R.look _ (by decide)))
    apply Gives.bind (.pairs h2 (R.look _ (by decide)) (R.nested _ (by decide)) (R.pairs _ (by decide)))
    · exact .pure _
    all_goals decide
  | setEnv hc ht h1 h2 =>
    have R := readyToParse ht hc hd hf
    refine ⟨1, fun fuel hfu => ?_⟩
    obtain ⟨fuel, rfl⟩ : ∃ n, fuel = n + 1 := ⟨fuel - 1, by omega⟩
    apply parse_of_kind ht R.base R.names (by simp only [parseKind]; rfl)
    apply Gives.bind (.subs h1 (R.look _ (by decide)))
    apply Gives.bind (.subs h2 (R.look _ (by decide)))
    · exact .pure _
    all_goals decide
  | unsetEnv hc ht h1 =>
    have R := readyToParse ht hc hd hf
    refine ⟨1, fun fuel hfu => ?_⟩
    obtain ⟨fuel, rfl⟩ : ∃ n, fuel = n + 1 := ⟨fuel - 1, by omega⟩
    apply parse_of_kind ht R.base R.names (by simp only [parseKind]; rfl)
    apply Gives.bind (.subs h1 (R.look _ (by decide)))
    · exact .pure _
    all_goals decide
  | appendEnv hc ht h1 h2 h3 h4 h5 =>
    have R := readyToParse ht hc hd hf
    refine ⟨1, fun fuel hfu => ?_⟩
    obtain ⟨fuel, rfl⟩ : ∃ n, fuel = n + 1 := ⟨fuel - 1, by omega⟩
    apply parse_of_kind ht R.base R.names (by simp only [parseKind]; rfl)
    apply Gives.bind (.subs h1 (R.look _ (by decide)))
    apply Gives.bind (.subs h2 (R.look _ (by decide)))
    apply Gives.bind (.may h3 (R.look _ (by decide)))
    apply Gives.bind (.lift (typedOpt_ok h5))
    apply Gives.bind (.subs? h4 (R.texts _ (by decide)) (R.look _ (by decide)))
    · exact .pure _
    all_goals decide
  | resetEnv hc ht =>
    have R := readyToParse ht hc hd hf
    refine ⟨1, fun fuel hfu => ?_⟩
    obtain ⟨fuel, rfl⟩ : ∃ n, fuel = n + 1 := ⟨fuel - 1, by omega⟩
    apply parse_of_kind ht R.base R.names (by simp only [parseKind]; rfl)
    · exact .pure _
    all_goals decide
  | resetLC hc ht h1 =>
    have R := readyToParse ht hc hd hf
    refine ⟨1, fun fuel hfu => ?_⟩
    obtain ⟨fuel, rfl⟩ : ∃ n, fuel = n + 1 := ⟨fuel - 1, by omega⟩
    apply parse_of_kind ht R.base R.names (by simp only [parseKind]; rfl)
    apply Gives.bind (.pairs h1 (R.look _ (by decide)) (R.nested _ (by decide)) (R.pairs _ (by decide)))
    · exact .pure _
    all_goals decide
  | log hc ht h1 =>
    have R := readyToParse ht hc hd hf
    refine ⟨1, fun fuel hfu => ?_⟩
    obtain ⟨fuel, rfl⟩ : ∃ n, fuel = n + 1 := ⟨fuel - 1, by omega⟩
    apply parse_of_kind ht R.base R.names (by simp only [parseKind]; rfl)
    apply Gives.bind (.subs h1 (R.look _ (by decide)))
    · exact .pure _
    all_goals decide
  | shutdown hc ht h1 =>
    have R := readyToParse ht hc hd hf
    refine ⟨1, fun fuel hfu => ?_⟩
    obtain ⟨fuel, rfl⟩ : ∃ n, fuel = n + 1 := ⟨fuel - 1, by omega⟩
    refine parse_of_kind (A := ["reason"]) (N := []) (C := false) ht R.base R.names (by simp only [parseKind]; rfl) ?_ (by decide) (by decide) (by decide)
    rcases h1 with ⟨rfl, h1 | h1⟩ | ⟨l, rfl, ⟨s, h1, h2⟩, h3⟩
    · exact Gives.bind (A' := []) (N' := []) (C' := false) (.text? h1 (R.texts _ (by decide)) (R.look _ (by decide))) (.pure _)
    · exact Gives.bind (A' := []) (N' := []) (C' := false) (.text? h1 (R.texts _ (by decide)) (R.look _ (by decide))) (.pure _)
    · refine Gives.bind (A' := []) (N' := []) (C' := false) (.text? h1 (R.texts _ (by decide)) (R.look _ (by decide))) ?_
      split
      · rename_i hs; simp at hs
      · rename_i hs
        simp only [Option.some.injEq] at hs
        exact absurd (h1.trans (by rw [hs])) h3
      · rename_i hs
        simp only [Option.some.injEq] at hs
        subst hs
        exact Gives.bind (.lift h2) (.pure _)
  | timer hc ht h1 h2 h3 h4 h5 h6 ih =>
    have R := readyToParse ht hc hd hf
    obtain ⟨N, hN⟩ := mapRes_eventually (f := parseAction F) _ _ h3 (fun p hp => by
      have hm := (List.of_mem_zip hp).1
      obtain ⟨q1, q2⟩ := R.inner rfl p.1 hm (by simp [tagPairs])
      exact ih p hp q1 q2)
    refine ⟨N + 1, fun fuel hfu => ?_⟩
    obtain ⟨fuel, rfl⟩ : ∃ n, fuel = n + 1 := ⟨fuel - 1, by omega⟩
    apply parse_of_kind ht R.base R.names (by simp only [parseKind]; rfl)
    apply Gives.bind (.present h1 (R.look _ (by decide)))
    apply Gives.bind (.lift (period_ok h2))
    apply Gives.bind (.children (R.listed rfl))
    apply Gives.bind (.lift (hN fuel (by omega)))
    apply Gives.bind (.may h5 (R.look _ (by decide)))
    apply Gives.bind (.lift (typedOpt_ok h6))
    · exact .pure _
    all_goals decide
  | executable hc ht h1 h2 h3 h4 h5 h6 h7 h8 h9 h10 h11 h12 n1 n2 n3 h13 h14 h15 =>
    have R := readyToParse ht hc hd hf
    rename_i e1 _ _ _ _ _ onExit _ _ _ _ _ _ _ _ _ _
    have hoe : ∃ oe, e1.text "on_exit" = oe ∧ checkOnExit oe = .ok onExit := by
      rcases h5 with ⟨rfl, h5⟩ | ⟨rfl, h5⟩
      · exact ⟨_, h5, rfl⟩
      · exact ⟨_, h5, rfl⟩
    obtain ⟨oe, hoe⟩ := hoe
    refine ⟨1, fun fuel hfu => ?_⟩
    obtain ⟨fuel, rfl⟩ : ∃ n, fuel = n + 1 := ⟨fuel - 1, by omega⟩
    apply parse_of_kind ht R.base R.names (by simp only [parseKind]; rfl)
    apply Gives.bind (.text h1 (R.look _ (by decide)))
    apply Gives.bind (.lift h2)
    apply Gives.bind (.subs? h3 (R.texts _ (by decide)) (R.look _ (by decide)))
    apply Gives.bind (.subs? h4 (R.texts _ (by decide)) (R.look _ (by decide)))
    apply Gives.bind (.text? hoe.1 (R.texts _ (by decide)) (R.look _ (by decide)))
    apply Gives.bind (.lift hoe.2)
    apply Gives.bind (.subs? h6 (R.texts _ (by decide)) (R.look _ (by decide)))
    apply Gives.bind (.subs? h7 (R.texts _ (by decide)) (R.look _ (by decide)))
    apply Gives.bind (.subs? h8 (R.texts _ (by decide)) (R.look _ (by decide)))
    apply Gives.bind (.may h9 (R.look _ (by decide)))
    apply Gives.bind (.may h10 (R.look _ (by decide)))
    apply Gives.bind (.lift (nonNeg_ok n1))
    apply Gives.bind (.may h11 (R.look _ (by decide)))
    apply Gives.bind (.lift (nonNeg_ok n2))
    apply Gives.bind (.may h12 (R.look _ (by decide)))
    apply Gives.bind (.lift (nonNeg_ok n3))
    apply Gives.bind (.may h13 (R.look _ (by decide)))
    apply Gives.bind (.may h14 (R.look _ (by decide)))
    apply Gives.bind (.pairs h15 (R.look _ (by decide)) (R.nested _ (by decide)) (R.pairs _ (by decide)))
    · exact .pure _
    all_goals decide

/-! ## What is accepted is of the right form -/

/-- If the program succeeds, then these attributes are texts or absent, and these nested entities are listed. -/
def Takes {α : Type} (m : P α) (e : Ent) (T N : List String) : Prop :=
  ∀ r r' a, m e r = (r', .ok a) → (∀ n ∈ T, TextOrAbsent n e) ∧ (∀ n ∈ N, NestedListed n e)

theorem Takes.any {α : Type} {m : P α} {e : Ent} : Takes m e [] [] := fun _ _ _ _ => ⟨by simp, by simp⟩

theorem Takes.bind {α β : Type} {m : P α} {f : α → P β} {e : Ent} {T N T' N' : List String} (hm : Takes m e T N) (hf : ∀ a, Takes (f a) e T' N') :
    Takes (P.bind m f) e (T ++ T') (N ++ N') := by
  intro r r' b h
  obtain ⟨r1, a, h1, h2⟩ := P.bind_ok h
  obtain ⟨a1, a2⟩ := hm _ _ _ h1
  obtain ⟨b1, b2⟩ := hf a _ _ _ h2
  exact ⟨fun n hn => (List.mem_append.1 hn).elim (a1 n) (b1 n), fun n hn => (List.mem_append.1 hn).elim (a2 n) (b2 n)⟩

theorem Takes.text? {O : Oracle} {n : String} {e : Ent} : Takes (attrText? O n) e [n] [] := by
  intro r r' v h
  refine ⟨fun k hk => ?_, by simp⟩
  rw [List.mem_singleton.1 hk]
  obtain ⟨r1, w, h1, h2⟩ := P.bind_ok h
  rcases (attrVal_inv h1).1 with ⟨rfl, ha⟩ | ⟨w', rfl, hv⟩
  · exact .inl ha
  · cases w' <;> simp [P.pure, P.raise] at h2
    exact .inr ⟨_, text_of_hasValue hv⟩

theorem Takes.text {O : Oracle} {n : String} {e : Ent} : Takes (attrText O n) e [n] [] := by
  intro r r' v h
  refine ⟨fun k hk => ?_, by simp⟩
  rw [List.mem_singleton.1 hk]
  exact .inr ⟨v, attrText_inv h⟩

theorem Takes.subs {F : Front} {n : String} {e : Ent} : Takes (attrSubs F n) e [n] [] := Takes.bind .text fun _ => .any

theorem Takes.subs? {F : Front} {n : String} {e : Ent} : Takes (attrSubs? F n) e [n] [] := Takes.bind .text? fun _ => .any

theorem Takes.base {F : Front} {e : Ent} : Takes (parseBase F) e ["if", "unless"] [] := by
  apply Takes.bind .text? fun _ => ?_
  apply Takes.bind .text? fun _ => .any

theorem Takes.ents {O : Oracle} {n : String} {e : Ent} : Takes (attrEnts? O n) e [] [n] := by
  intro r r' o h
  refine ⟨by simp, fun k hk => ?_⟩
  rw [List.mem_singleton.1 hk]
  cases e with
  | xml x => trivial
  | yaml y t =>
    cases y with
    | list l => trivial
    | scalar v => trivial
    | dict d =>
      intro v hv
      simp only [attrEnts?, Ent.getAttr, yamlGetAttr, yamlLookup, hv] at h
      split at h
      · rename_i h1
        split at h1
        · simp at h1
        · exact ⟨_, _, rfl⟩
        · simp at h1
      · rename_i h1
        split at h1 <;> simp at h1
        simp_all
      · simp at h

theorem Takes.pairs {F : Front} {n : String} {e : Ent} : Takes (attrPairs? F n) e [] [n] := Takes.bind .ents fun _ => .any

theorem Takes.choices {F : Front} {e : Ent} : Takes (attrChoices? F) e [] ["choice"] := Takes.bind .ents fun _ => .any

theorem listed_of_ok {e : Ent} {r r' : Reads} {l : List Ent} (h : entChildren e r = (r', .ok l)) : ActionsListed e := by
  cases e with
  | xml x => trivial
  | yaml y t =>
    simp only [entChildren, Ent.children, yamlChildren] at h
    cases y with
    | scalar v => simp at h
    | list l => simp at h; exact (yamlChildEnts_inv h.2).2
    | dict d =>
      dsimp only at h
      cases hd : Dict.get? d "children" with
      | none => simp [hd] at h
      | some v =>
        simp only [hd, Prod.mk.injEq] at h
        obtain ⟨_, h⟩ := h
        split at h
        · rename_i l' hl
          exact ⟨v, l', hd, yamlIter_inv hl h, (yamlChildEnts_inv h).2⟩
        · simp at h

theorem notSplit_of_val {O : Oracle} {n : String} {t : ScalarTy} {o : Bool} {e : Ent} {r r' : Reads} {v : Option PyVal}
    (h1 : attrVal O n (.scalar t) o e r = (r', .ok v)) (hv : v ≠ none) : NotSplit n e := by
  cases e with
  | yaml y t => trivial
  | xml x =>
    simp only [attrVal, Ent.getAttr, xmlGetAttr] at h1
    cases hx : x.attrs.get? n with
    | none => cases o <;> simp [hx] at h1; exact absurd h1.2.symm hv
    | some t =>
      simp only [hx] at h1
      cases hs : x.attrs.get? (n ++ "-sep") with
      | none => exact hs
      | some sep =>
        simp only [hs] at h1
        by_cases he : sep = ""
        · simp [he] at h1
        · simp [he, xmlTyped, getTypedValue] at h1

theorem notSplit_of_ok {O : Oracle} {n : String} {e : Ent} {r r' : Reads} {s : String} (h : attrText O n e r = (r', .ok s)) : NotSplit n e := by
  obtain ⟨r1, w, h1, h2⟩ := P.bind_ok h
  exact notSplit_of_val h1 ((attrVal_inv h1).2 rfl)

theorem choices_notSplit {F : Front} {e : Ent} {r r' : Reads} {o : Option (List String)} (h : attrChoices? F e r = (r', .ok o)) :
    ∀ y ∈ nestedEnts e "choice", NotSplit "value" y := by
  obtain ⟨r1, es, h1, h2⟩ := P.bind_ok h
  have hn := attrEnts?_ok h1
  cases es with
  | none => intro y hy; rw [← hn] at hy; simp at hy
  | some l =>
    obtain ⟨r2, ps, h3, h4⟩ := P.bind_ok h2
    intro y hy
    rw [← hn] at hy
    obtain ⟨s, _, hs⟩ := mapRes_each (lift_inv h3) y hy
    unfold onFresh at hs
    cases hp : parseChoice F y {} with
    | mk r3 x =>
      rw [hp] at hs
      simp only at hs
      subst hs
      obtain ⟨r4, t, h5, h6⟩ := P.bind_ok hp
      exact notSplit_of_ok h5

/-- What an accepted entity satisfies: the premises of `Formed` by tag. -/
structure Accepted (F : Front) (fuel : Nat) (e : Ent) (tag : String) : Prop where
  texts : ∀ n ∈ tagTexts tag, TextOrAbsent n e
  nested : ∀ n ∈ tagPairs tag ++ tagOthers tag, NestedListed n e
  others : ∀ n ∈ tagOthers tag, ∀ y ∈ nestedEnts e n, NotSplit "value" y
  listed : hasActions tag = true → ActionsListed e
  inner : hasActions tag = true → ∃ l, mapRes (parseAction F fuel) ((childEnts e).filter (fun y => y.typeName ∉ tagPairs tag)) = .ok l

theorem Accepted.plain {F : Front} {fuel : Nat} {e : Ent} {tag : String} {m : P PKind} {r r' : Reads} {x : PKind} {T N : List String} (ht : Takes m e T N)
    (h : m e r = (r', .ok x)) (hT : ∀ n ∈ tagTexts tag, n ∈ T) (hN : ∀ n ∈ tagPairs tag ++ tagOthers tag, n ∈ N) (hO : tagOthers tag = [])
    (hC : hasActions tag = false) : Accepted F fuel e tag := by
  obtain ⟨h1, h2⟩ := ht _ _ _ h
  exact ⟨fun n hn => h1 n (hT n hn), fun n hn => h2 n (hN n hn), by simp [hO], by simp [hC], by simp [hC]⟩

theorem accepted {F : Front} {fuel : Nat} {e : Ent} {tag : String} {k : P PKind} {r r' : Reads} {x : PKind}
    (hk : parseKind F (mapRes (parseAction F fuel)) tag = some k) (hx : k e r = (r', .ok x)) : Accepted F fuel e tag := by
  unfold parseKind at hk
  by_cases ht : tag = "let"
  · subst ht
    rw [if_pos rfl] at hk
    simp only [Option.some.injEq] at hk
    subst hk
    refine .plain (Takes.bind .subs fun _ => Takes.bind .subs fun _ => .any) hx ?_ ?_ ?_ ?_ <;> decide
  rw [if_neg ht] at hk
  by_cases ht : tag = "arg"
  · subst ht
    rw [if_pos rfl] at hk
    simp only [Option.some.injEq] at hk
    subst hk
    obtain ⟨h1, h2⟩ := (Takes.bind .text fun _ => Takes.bind .subs? fun _ => Takes.bind .text? fun _ => Takes.bind .choices fun _ => .any : Takes (parseArg F) e _ _) _ _ _ hx
    obtain ⟨_, v1, g1, hx⟩ := P.bind_ok hx
    obtain ⟨_, v1, g1, hx⟩ := P.bind_ok hx
    obtain ⟨_, v1, g1, hx⟩ := P.bind_ok hx
    obtain ⟨_, v1, g1, hx⟩ := P.bind_ok hx
    refine ⟨fun n hn => h1 n (by revert n; decide), fun n hn => h2 n (by revert n; decide), ?_, by simp [hasActions], by simp [hasActions]⟩
    intro n hn
    rw [show n = "choice" by simpa [tagOthers] using hn]
    exact choices_notSplit g1
  rw [if_neg ht] at hk
  by_cases ht : tag = "group"
  · subst ht
    rw [if_pos rfl] at hk
    simp only [Option.some.injEq] at hk
    subst hk
    obtain ⟨h1, h2⟩ := (Takes.bind .any fun _ => Takes.bind .any fun _ => Takes.bind .pairs fun _ => .any : Takes (parseGroup F _) e _ _) _ _ _ hx
    obtain ⟨_, v1, g1, hx⟩ := P.bind_ok hx
    obtain ⟨_, v1, g1, hx⟩ := P.bind_ok hx
    obtain ⟨_, v1, g1, hx⟩ := P.bind_ok hx
    obtain ⟨_, v1, g1, hx⟩ := P.bind_ok hx
    obtain ⟨_, v2, g2, hx⟩ := P.bind_ok hx
    refine ⟨fun n hn => h1 n (by revert n; decide), fun n hn => h2 n (by revert n; decide), by simp [tagOthers], fun _ => listed_of_ok g1, fun _ => ⟨v2, ?_⟩⟩
    rw [← lift_inv g2, entChildren_ok g1]
    simp [tagPairs]
  rw [if_neg ht] at hk
  by_cases ht : tag = "include"
  · subst ht
    rw [if_pos rfl] at hk
    simp only [Option.some.injEq] at hk
    subst hk
    refine .plain (Takes.bind .subs fun _ => Takes.bind .pairs fun _ => .any) hx ?_ ?_ ?_ ?_ <;> decide
  rw [if_neg ht] at hk
  by_cases ht : tag = "set_env"
  · subst ht
    rw [if_pos rfl] at hk
    simp only [Option.some.injEq] at hk
    subst hk
    refine .plain (Takes.bind .subs fun _ => Takes.bind .subs fun _ => .any) hx ?_ ?_ ?_ ?_ <;> decide
  rw [if_neg ht] at hk
  by_cases ht : tag = "unset_env"
  · subst ht
    rw [if_pos rfl] at hk
    simp only [Option.some.injEq] at hk
    subst hk
    refine .plain (Takes.bind .subs fun _ => .any) hx ?_ ?_ ?_ ?_ <;> decide
  rw [if_neg ht] at hk
  by_cases ht : tag = "append_env"
  · subst ht
    rw [if_pos rfl] at hk
    simp only [Option.some.injEq] at hk
    subst hk
    refine .plain (Takes.bind .subs fun _ => Takes.bind .subs fun _ => Takes.bind .any fun _ => Takes.bind .any fun _ => Takes.bind .subs? fun _ => .any) hx ?_ ?_ ?_ ?_ <;> decide
  rw [if_neg ht] at hk
  by_cases ht : tag = "reset_env"
  · subst ht
    refine .plain .any hx ?_ ?_ ?_ ?_ <;> decide
  rw [if_neg ht] at hk
  by_cases ht : tag = "reset"
  · subst ht
    rw [if_pos rfl] at hk
    simp only [Option.some.injEq] at hk
    subst hk
    refine .plain (Takes.bind .pairs fun _ => .any) hx ?_ ?_ ?_ ?_ <;> decide
  rw [if_neg ht] at hk
  by_cases ht : tag = "log"
  · subst ht
    rw [if_pos rfl] at hk
    simp only [Option.some.injEq] at hk
    subst hk
    refine .plain (Takes.bind .subs fun _ => .any) hx ?_ ?_ ?_ ?_ <;> decide
  rw [if_neg ht] at hk
  by_cases ht : tag = "shutdown"
  · subst ht
    rw [if_pos rfl] at hk
    simp only [Option.some.injEq] at hk
    subst hk
    refine .plain (Takes.bind .text? fun _ => .any) hx ?_ ?_ ?_ ?_ <;> decide
  rw [if_neg ht] at hk
  by_cases ht : tag = "timer"
  · subst ht
    rw [if_pos rfl] at hk
    simp only [Option.some.injEq] at hk
    subst hk
    obtain ⟨_, v1, g1, hx⟩ := P.bind_ok hx
    obtain ⟨_, v1, g1, hx⟩ := P.bind_ok hx
    obtain ⟨_, v1, g1, hx⟩ := P.bind_ok hx
    obtain ⟨_, v2, g2, hx⟩ := P.bind_ok hx
    refine ⟨by simp [tagTexts], by simp [tagPairs, tagOthers], by simp [tagOthers], fun _ => listed_of_ok g1, fun _ => ⟨v2, ?_⟩⟩
    rw [← lift_inv g2, entChildren_ok g1, List.filter_eq_self.2 (by simp [tagPairs])]
  rw [if_neg ht] at hk
  by_cases ht : tag = "executable"
  · subst ht
    rw [if_pos rfl] at hk
    simp only [Option.some.injEq] at hk
    subst hk
    refine .plain (Takes.bind .text fun _ => Takes.bind .any fun _ => Takes.bind .subs? fun _ => Takes.bind .subs? fun _ => Takes.bind .text? fun _ =>
      Takes.bind .any fun _ => Takes.bind .subs? fun _ => Takes.bind .subs? fun _ => Takes.bind .subs? fun _ => Takes.bind .any fun _ => Takes.bind .any fun _ =>
      Takes.bind .any fun _ => Takes.bind .any fun _ => Takes.bind .any fun _ => Takes.bind .any fun _ => Takes.bind .any fun _ => Takes.bind .any fun _ =>
      Takes.bind .any fun _ => Takes.bind .pairs fun _ => .any) hx ?_ ?_ ?_ ?_ <;> decide
  rw [if_neg ht] at hk
  simp at hk

theorem formed_of_ok (F : Front) (fuel : Nat) (e : Ent) (a : PAct) (h : parseAction F fuel e = .ok a) : Formed e := by
  induction fuel generalizing e a with
  | zero => simp [parseAction] at h
  | succ fuel ih =>
    unfold parseAction at h
    split at h
    · simp at h
    · rename_i m hm
      obtain ⟨r, g1, g2⟩ := checked_inv h
      unfold parseMethod at hm
      split at hm
      · simp at hm
      · rename_i k hk
        simp only [Option.some.injEq] at hm
        subst hm
        obtain ⟨r1, c, hb, g1⟩ := P.bind_ok g1
        obtain ⟨r2, x, hx, g1⟩ := P.bind_ok g1
        have A := accepted hk hx
        refine .mk ?_ A.nested A.others A.listed ?_
        · intro n hn
          rcases List.mem_append.1 hn with hn | hn
          · exact (Takes.base _ _ _ hb).1 n hn
          · exact A.texts n hn
        · intro hc y hy hn
          obtain ⟨l, hl⟩ := A.inner hc
          obtain ⟨b, _, hb⟩ := mapRes_each hl y (by simp [hy, hn])
          exact ih y b hb

/-- C113: an entity is accepted, with this action as the result, exactly if it describes this action, has only documented parts, and these of the right form. -/
theorem C113_accepted_iff (F : Front) (e : Ent) (a : PAct) : (∃ fuel, parseAction F fuel e = .ok a) ↔ WellWritten F e a :=
  ⟨fun ⟨fuel, h⟩ => ⟨C65_says F fuel e a h, C44_only_documented F fuel e a h, formed_of_ok F fuel e a h⟩,
    fun h => let ⟨N, hN⟩ := C113_accepted F e a h; ⟨N, hN N (Nat.le_refl N)⟩⟩

theorem mapRes_each2_eventually {f : Nat → Ent → Res PAct} {es : List Ent} {as : List PAct}
    (h : Each2 (fun y a => ∃ N, ∀ fuel, N ≤ fuel → f fuel y = .ok a) es as) : ∃ N, ∀ fuel, N ≤ fuel → mapRes (f fuel) es = .ok as :=
  mapRes_eventually es as h.length_eq' (fun p hp => h.zip p hp)

/-- C113: a launch file is accepted, with these actions as the result, exactly if its root is `launch`, with a list of actions, each of them well written. -/
theorem C113_file_iff (F : Front) (e : Ent) (d : PDesc) : (∃ fuel, parseDescription F fuel e = .ok d) ↔ WellWrittenFile F e d.deprecated d.actions := by
  constructor
  · rintro ⟨fuel, h⟩
    obtain ⟨h1, h2, _⟩ := C65_description F fuel e d h
    unfold parseDescription at h
    rw [if_neg (by simp [h1])] at h
    split at h
    · simp at h
    · rename_i r dep cs hr
      split at h
      · simp at h
      · rename_i l hl
        simp at h
        subst h
        obtain ⟨_, v1, g1, hr⟩ := P.bind_ok hr
        obtain ⟨_, v2, g2, hr⟩ := P.bind_ok hr
        simp [P.pure] at hr
        obtain ⟨_, rfl, rfl⟩ := hr
        refine ⟨h1, h2, (Takes.text? _ _ _ g1).1 _ (by simp), listed_of_ok g2, ?_, ?_⟩
        · intro hne
          obtain ⟨_, w, g3, g4⟩ := P.bind_ok g1
          refine notSplit_of_val g3 ?_
          rintro rfl
          simp [P.pure] at g4
          exact hne (by rw [← h2, g4.2])
        · rw [entChildren_ok g2] at hl
          exact (mapRes_each2 hl).imp fun y a h => (C113_accepted_iff F y a).1 ⟨fuel, h⟩
  · rintro ⟨h1, h2, h3, h4, h5, h6⟩
    obtain ⟨N, hN⟩ := mapRes_each2_eventually (h6.imp fun y a h => C113_accepted F y a h)
    refine ⟨N, ?_⟩
    obtain ⟨r1, g1⟩ : ∃ r1, attrText? F.O "deprecated" e {} = (r1, .ok d.deprecated) := by
      by_cases ha : Absent "deprecated" e
      · rw [h2, text_of_absent ha]
        cases e with
        | xml x =>
          simp only [Absent] at ha
          exact ⟨{}, by simp [attrText?, P.bind, P.pure, attrVal, Ent.getAttr, xmlGetAttr, ha]⟩
        | yaml y t =>
          cases y with
          | dict z =>
            simp only [Absent] at ha
            exact ⟨{}, by simp [attrText?, P.bind, P.pure, attrVal, Ent.getAttr, yamlGetAttr, yamlLookup, ha]⟩
          | list l =>
            have : l.any (Yaml.isText "deprecated") = false := by
              rw [List.any_eq_false]
              intro y hy
              obtain ⟨tag, c, rfl⟩ := h4 y hy
              simp [Yaml.isText]
            exact ⟨{}, by simp [attrText?, P.bind, P.pure, attrVal, Ent.getAttr, yamlGetAttr, yamlLookup, this]⟩
          | scalar v => exact absurd h4 (by simp [ActionsListed])
      · obtain ⟨s, hs⟩ := h3.resolve_left ha
        obtain ⟨r1, g1, _⟩ := Gives.text? (O := F.O) h2.symm h3 (lookup_of_text hs (h5 (by simp [hs]))) {}
        exact ⟨r1, g1⟩
    obtain ⟨r2, g2, _⟩ := Gives.children h4 r1
    simp [parseDescription, h1, onFresh, P.bind, g1, g2, P.pure, hN N (Nat.le_refl N)]

/-! Well-written files: an XML group with an argument that has choices and a timer, and a YAML list. -/

example : WellWrittenFile textFront
    (.xml (.elem "launch" [("deprecated", "use b.xml")] [.elem "group" [("scoped", "false")] [.elem "keep" [("name", "a"), ("value", "b")] [],
      .elem "arg" [("name", "x"), ("default", "1")] [.elem "choice" [("value", "1")] [], .elem "choice" [("value", "2")] []],
      .elem "timer" [("period", "1.0"), ("if", "true")] [.elem "shutdown" [("reason", "late")] []]]])) (some "use b.xml")
    [.mk none (.group (some (.bool false)) none (some [([.text "a"], [.text "b"])])
      [.mk none (.arg "x" (some [.text "1"]) none (some ["1", "2"])),
        .mk (some (.ifC [.text "true"])) (.timer (.float ⟨"1"⟩) [.mk none (.shutdown (some [.text "late"]))] none)])] :=
  (C113_file_iff _ _ ⟨_, _⟩).1 ⟨5, rfl⟩

example : WellWrittenFile textFront
    (.yaml (.list [.dict [("let", .dict [("name", .scalar (.str "a")), ("value", .scalar (.str "b"))])], .dict [("group", .list [.dict [("reset_env", .dict [])]])]])
      "launch") none [.mk none (.letLC [.text "a"] [.text "b"]), .mk none (.group none none none [.mk none .resetEnv])] :=
  (C113_file_iff _ _ ⟨_, _⟩).1 ⟨5, rfl⟩

/-! An entity whose value is a number in YAML is not of the right form. -/

example : ¬Formed (.yaml (.dict [("name", .scalar (.str "a")), ("value", .scalar (.int 1))]) "let") := by
  rintro ⟨h, _⟩
  rcases h "value" (by decide) with h | ⟨s, h⟩
  · simp [Absent, Dict.get?] at h
  · simp [Ent.text, Dict.get?] at h

/-! Directly: an entity with a condition. -/

example : WellWritten textFront (.xml (.elem "log" [("message", "hello"), ("unless", "false")] [])) (.mk (some (.unlessC [.text "false"])) (.log [.text "hello"])) where
  says := .log (.inr (.inr ⟨[.text "false"], rfl, ⟨"false", rfl, rfl⟩, rfl⟩)) rfl ⟨"hello", rfl, rfl⟩
  documented := .mk (by decide) ⟨by decide, fun _ y hy => absurd hy (by simp [Xml.nested])⟩ (fun n hn => absurd hn (by decide +revert))
    (fun h => absurd h (by decide))
  formed := .mk
    (fun n hn => by
      simp [Ent.typeName, Xml.tag, tagTexts] at hn
      rcases hn with rfl | rfl | rfl
      · exact .inl rfl
      · exact .inr ⟨"false", rfl⟩
      · exact .inr ⟨"hello", rfl⟩)
    (fun _ _ => trivial) (fun n hn => absurd hn (by decide +revert)) (fun _ => trivial) (fun h => absurd h (by decide))

end Verif
