import Verif.Lemmas.Typed
import Verif.Props.Frontend

/-!
# Properties C45 and C79: file extensions and list attributes
-/

namespace Verif

/-! ## C45 -/

/-- C45 (extensions): a parser is tried early exactly if the name of the file ends with a dot and one of its extensions. -/
theorem C45_extension {α : Type} (p : Impl α) (name : String) :
    p.mayParse name = true ↔ ∃ e ∈ p.exts, ∃ stem : String, name = stem ++ "." ++ e := by
  simp only [Impl.mayParse, List.any_eq_true, endsWith, List.isSuffixOf_iff_suffix]
  constructor
  · rintro ⟨e, he, t, ht⟩
    refine ⟨e, he, String.ofList t, ?_⟩
    have := congrArg String.ofList ht
    rw [String.ofList_append, String.ofList_toList, String.ofList_toList] at this
    rw [← this, String.append_assoc]
  · rintro ⟨e, he, stem, rfl⟩
    exact ⟨e, he, stem.toList, by simp⟩

/-- C45 (reported extension): if no parser accepts a file, the extension in the error is what comes after the last dot of its name. -/
theorem C45_reported_extension (dir stem ext : List Char) (hd : dir = [] ∨ dir.getLast? = some '/') (h1 : '/' ∉ stem) (h2 : ∃ c ∈ stem, c ≠ '.')
    (h3 : '/' ∉ ext) (h4 : '.' ∉ ext) : extensionOf (String.ofList (dir ++ stem ++ '.' :: ext)) = String.ofList ext := by
  have hb : ((dir ++ stem ++ '.' :: ext).reverse.takeWhile (· != '/')).reverse = stem ++ '.' :: ext := by
    have hall : ∀ c ∈ (stem ++ '.' :: ext).reverse, (c != '/') = true := by
      intro c hc
      simp only [List.mem_reverse, List.mem_append, List.mem_cons] at hc
      rcases hc with hc | rfl | hc
      · simp only [bne_iff_ne]; rintro rfl; exact h1 hc
      · decide
      · simp only [bne_iff_ne]; rintro rfl; exact h3 hc
    rw [List.append_assoc, List.reverse_append, List.takeWhile_append_of_pos hall]
    have : dir.reverse.takeWhile (· != '/') = [] := by
      rcases hd with rfl | hd
      · rfl
      · rw [← List.head?_reverse] at hd
        cases h : dir.reverse with
        | nil => rfl
        | cons c cs => rw [h] at hd; simp only [List.head?_cons, Option.some.injEq] at hd; subst hd; rfl
    rw [this]; simp
  have hn : ∃ s, (stem ++ '.' :: ext).dropWhile (· == '.') = s ++ '.' :: ext := by
    clear hb h1
    induction stem with
    | nil => obtain ⟨c, hc, _⟩ := h2; simp at hc
    | cons c cs ih =>
      by_cases hc : c = '.'
      · subst hc
        obtain ⟨d, hd, hne⟩ := h2
        have hd' : d ∈ cs := by
          rcases List.mem_cons.1 hd with rfl | h
          · exact absurd rfl hne
          · exact h
        obtain ⟨s, hs⟩ := ih ⟨d, hd', hne⟩
        exact ⟨s, by simpa using hs⟩
      · exact ⟨c :: cs, by simp [hc]⟩
  obtain ⟨s, hs⟩ := hn
  unfold extensionOf
  simp only [String.toList_ofList, hb, hs]
  have hc : (s ++ '.' :: ext).contains '.' = true := by simp
  rw [if_pos hc]
  congr 1
  have hall : ∀ c ∈ ext.reverse, (c != '.') = true := by
    intro c hc
    simp only [List.mem_reverse] at hc
    simp only [bne_iff_ne]; rintro rfl; exact h4 hc
  simp only [List.reverse_append, List.reverse_cons, List.append_assoc]
  rw [List.takeWhile_append_of_pos hall]
  simp

example : extensionOf "/a.b/.robot.launch.xml" = "xml" := by decide +kernel

/-! ## C79 -/

theorem splitSep_skip (sep : List Char) (n : Nat) (cur cs : List Char) (h : n ≤ cs.length) : splitSep sep n cur cs = splitSep sep 0 cur (cs.drop n) := by
  induction n generalizing cs with
  | zero => rfl
  | succ n ih =>
    cases cs with
    | nil => simp at h
    | cons c cs =>
      simp only [splitSep, List.drop_succ_cons]
      exact ih cs (by simpa using h)

/-- The pieces, found from left to right. -/
theorem splitSep_pieces (sep : List Char) (hs : sep ≠ []) (cur text : List Char) (hcur : ∀ a b, cur.reverse ++ text = a ++ sep ++ b → cur.length ≤ a.length) :
    Pieces sep (cur.reverse ++ text) (splitSep sep 0 cur text) := by
  have main : ∀ n, ∀ cur text : List Char, text.length ≤ n → (∀ a b, cur.reverse ++ text = a ++ sep ++ b → cur.length ≤ a.length) →
      Pieces sep (cur.reverse ++ text) (splitSep sep 0 cur text) := by
    intro n
    induction n with
    | zero =>
      intro cur text hl hc
      cases text with
      | cons _ _ => simp at hl
      | nil =>
        simp only [splitSep, List.append_nil] at hc ⊢
        refine .last (fun a b hab => ?_)
        have := hc a b hab
        have hlen := congrArg List.length hab
        simp only [List.length_append, List.length_reverse] at hlen
        have : 0 < sep.length := List.length_pos_iff.2 hs
        omega
    | succ n ih =>
      intro cur text hl hc
      cases text with
      | nil =>
        simp only [splitSep, List.append_nil] at hc ⊢
        refine .last (fun a b hab => ?_)
        have := hc a b hab
        have hlen := congrArg List.length hab
        simp only [List.length_append, List.length_reverse] at hlen
        have : 0 < sep.length := List.length_pos_iff.2 hs
        omega
      | cons c cs =>
        simp only [splitSep]
        by_cases hp : sep.isPrefixOf (c :: cs) = true
        · rw [if_pos hp]
          rw [List.isPrefixOf_iff_prefix] at hp
          obtain ⟨rest, hr⟩ := hp
          have hpos : 0 < sep.length := List.length_pos_iff.2 hs
          have hlen := congrArg List.length hr
          simp only [List.length_append, List.length_cons] at hlen
          rw [splitSep_skip _ _ _ _ (by omega)]
          have hdrop : cs.drop (sep.length - 1) = rest := by
            have : (c :: cs).drop sep.length = rest := by rw [← hr]; simp
            cases sep with
            | nil => exact absurd rfl hs
            | cons d ds => simpa using this
          rw [hdrop, ← hr]
          have ih' := ih [] rest (by simp only [List.length_cons] at hl; omega) (by intro a b _; exact Nat.zero_le _)
          have := Pieces.first (sep := sep) (p := cur.reverse) (rest := rest) (fun a b hab => by
            have := hc a b (by rw [← hr, ← List.append_assoc]; exact hab)
            simpa using this) ih'
          simpa using this
        · rw [if_neg hp]
          have := ih (c :: cur) cs (by simp only [List.length_cons] at hl; omega) (by
            intro a b hab
            have hab' : cur.reverse ++ c :: cs = a ++ sep ++ b := by rw [← hab]; simp
            have h1 := hc a b hab'
            simp only [List.length_cons]
            rcases Nat.lt_or_ge cur.length a.length with h | h
            · exact h
            · exfalso
              have he : cur.reverse.length = a.length := by simp only [List.length_reverse]; omega
              rw [List.append_assoc] at hab'
              have := (List.append_inj hab' he).2
              exact hp (List.isPrefixOf_iff_prefix.2 ⟨b, this.symm⟩))
          simpa using this
  exact main _ cur text (Nat.le_refl _) hcur

/-- C79 (splitting): a list attribute `name` with `name-sep` in XML is split at the occurrences of the separator, found from left to right. -/
theorem C79_split (sep text : List Char) (hs : sep ≠ []) : Pieces sep text (splitSep sep 0 [] text) :=
  splitSep_pieces sep hs [] text (by intro a b _; exact Nat.zero_le _)

/-- The description `Pieces` leaves no choice. -/
theorem C79_pieces_unique (sep text : List Char) (ps qs : List (List Char)) (h1 : Pieces sep text ps) (h2 : Pieces sep text qs) : ps = qs := by
  induction h1 generalizing qs with
  | last hno =>
    cases h2 with
    | last _ => rfl
    | first _ _ => exact absurd rfl (hno _ _)
  | @first p rest ps hf hp ih =>
    generalize ht : p ++ sep ++ rest = t at h2
    cases h2 with
    | last hno => exact absurd ht.symm (hno _ _)
    | @first q rest' qs' hf' hq =>
      have e1 := hf q rest' ht
      have e2 := hf' p rest ht.symm
      have hl : p.length = q.length := Nat.le_antisymm e1 e2
      rw [List.append_assoc, List.append_assoc] at ht
      obtain ⟨rfl, h3⟩ := List.append_inj ht hl
      obtain ⟨_, rfl⟩ := List.append_inj h3 rfl
      rw [ih qs' hq]

/-- C79 (nothing lost): joined with the separator, the pieces are the text again. -/
theorem C79_join (sep text : List Char) (hs : sep ≠ []) : sep.intercalate (splitSep sep 0 [] text) = text := by
  have h := C79_split sep text hs
  generalize splitSep sep 0 [] text = ps at h
  induction h with
  | last _ => simp [List.intercalate]
  | @first p rest ps _ hp ih =>
    cases ps with
    | nil => cases hp
    | cons q qs =>
      simp only [List.intercalate, List.intersperse_cons_cons, List.flatten_cons] at ih ⊢
      rw [ih]; simp

/-- C79 (round trip): values that do not contain the separator, nor one that overlaps with it, are read back as they were written. -/
theorem C79_round_trip (c : Char) (vs : List (List Char)) (hne : vs ≠ []) (hv : ∀ v ∈ vs, c ∉ v) : splitSep [c] 0 [] ([c].intercalate vs) = vs := by
  refine C79_pieces_unique [c] _ _ _ (C79_split [c] _ (by simp)) ?_
  induction vs with
  | nil => exact absurd rfl hne
  | cons v vs ih =>
    have hc := hv v (List.mem_cons_self ..)
    cases vs with
    | nil =>
      simp only [List.intercalate, List.intersperse_singleton, List.flatten_cons, List.flatten_nil, List.append_nil]
      exact .last (fun a b hab => hc (by rw [hab]; simp))
    | cons w ws =>
      have ih' := ih (by simp) (fun x hx => hv x (List.mem_cons_of_mem _ hx))
      have e : [c].intercalate (v :: w :: ws) = v ++ [c] ++ [c].intercalate (w :: ws) := by
        simp [List.intercalate]
      rw [e]
      refine .first (fun a b hab => ?_) ih'
      rcases Nat.lt_or_ge a.length v.length with h | h
      · exfalso
        apply hc
        have h2 := congrArg (fun l : List Char => l[a.length]?) hab
        simp only [List.append_assoc] at h2
        rw [List.getElem?_append_left h, List.getElem?_append_right (Nat.le_refl _)] at h2
        simp only [Nat.sub_self, List.singleton_append, List.getElem?_cons_zero] at h2
        exact List.mem_of_getElem? h2
      · exact h

/-- C79 (errors): an attribute that cannot be converted is a TypeError, never a ValueError, unless the separator is empty. -/
theorem C79_conversion_error (O : Oracle) (x : Xml) (r : Reads) (name : String) (ty : AttrTy) (optional canBeStr : Bool)
    (h : (xmlGetAttr O x r name ty optional canBeStr).2 = .error .valueError) : x.attrs.get? (name ++ "-sep") = some "" := by
  have ht : ∀ v t b, xmlTyped O v t b ≠ .error .valueError := by
    intro v t b hx
    unfold xmlTyped at hx
    split at hx
    · cases hx
    · cases hx
    · rename_i e hne _
      simp only [Except.error.injEq] at hx
      exact hne hx
  unfold xmlGetAttr at h
  split at h
  · split at h
    · cases optional <;> simp at h
    · simp at h
  · split at h
    · cases optional <;> simp at h
    · split at h
      · exact absurd h (ht _ _ _)
      · rename_i sep hsep
        simp only at h
        split at h
        · rename_i he; rw [hsep, he]
        · exact absurd h (ht _ _ _)

/-- C79 (`get_attr`): for an attribute with a separator, a list of the member type is given, whose members are the pieces of the attribute's text, each
converted; for lists of texts the pieces themselves. -/
theorem C79_list_attribute (O : Oracle) (x : Xml) (r : Reads) (name text sep : String) (optional canBeStr : Bool) (ht : x.attrs.get? name = some text)
    (hs : x.attrs.get? (name ++ "-sep") = some sep) (hne : sep ≠ "") : ∃ ps, Pieces sep.toList text.toList ps ∧
      (xmlGetAttr O x r name (.value (some (.list .str))) optional canBeStr).2 = .ok (.value (.list (ps.map (fun p => .str (String.ofList p))))) ∧
      ∀ t w, (xmlGetAttr O x r name (.value (some (.list t))) optional canBeStr).2 = .ok w →
        ∃ vs, w = .value (.list vs) ∧ Each2 (fun p v => coerceToType O (String.ofList p) (some (.scalar t)) canBeStr = .ok v) ps vs := by
  have hl : sep.toList ≠ [] := by simpa using hne
  refine ⟨_, C79_split sep.toList text.toList hl, ?_, ?_⟩
  · simp only [xmlGetAttr, ht, hs, hne, if_false, xmlTyped, getTypedValue, coerceList, Option.map_some]
    generalize splitSep sep.toList 0 [] text.toList = ps
    have hm : mapRes (fun s => coerceToType O s (some (.scalar .str)) canBeStr) (ps.map String.ofList) = .ok (ps.map (fun p => .str (String.ofList p))) := by
      induction ps with
      | nil => rfl
      | cons p ps ih =>
        simp only [List.map_cons, mapRes]
        rw [ih]
        rfl
    have hv : isInstanceOfValidType (.list (ps.map (fun p => PyVal.str (String.ofList p)))) canBeStr = true := by
      cases ps with
      | nil => rfl
      | cons p ps =>
        have hf : ((p :: ps).map (fun p => PyVal.str (String.ofList p))).find? (fun x => !x.isStr) = none := by
          rw [List.find?_eq_none]
          intro y hy
          obtain ⟨q, _, rfl⟩ := List.mem_map.1 hy
          simp [PyVal.isStr]
        simp only [isInstanceOfValidType, List.map_cons] at hf ⊢
        rw [hf]
        simp [isInstOrStr, PyVal.isInst]
    simp only [hm, hv, if_true]
  · intro t w h
    simp only [xmlGetAttr, ht, hs, hne, if_false, xmlTyped, getTypedValue, coerceList, Option.map_some] at h
    generalize splitSep sep.toList 0 [] text.toList = ps at h
    cases hm : mapRes (fun s => coerceToType O s (some (.scalar t)) canBeStr) (ps.map String.ofList) with
    | error e =>
      rw [hm] at h
      cases e <;> simp at h
    | ok vs =>
      rw [hm] at h
      simp only at h
      split at h
      · rename_i v hv
        split at hv
        · rename_i hiv
          simp only [Except.ok.injEq] at hv h
          refine ⟨vs, by rw [← h, hv], ?_⟩
          have := mapRes_forall₂.1 hm
          clear hm h hv hiv
          generalize hq : ps.map String.ofList = qs at this
          induction this generalizing ps with
          | nil =>
            cases ps with
            | nil => exact .nil
            | cons p ps => simp at hq
          | cons h1 _ ih =>
            cases ps with
            | nil => simp at hq
            | cons p ps =>
              simp only [List.map_cons, List.cons.injEq] at hq
              obtain ⟨rfl, hq⟩ := hq
              exact .cons h1 (ih ps hq)
        · simp at hv
      · simp at h
      · simp at h

/-- C79 (YAML): a list of values of the type asked for is given as it is. -/
theorem C79_yaml_list (d : List (String × Yaml)) (r : Reads) (name : String) (t : ScalarTy) (vs : List PyVal) (optional canBeStr : Bool)
    (h : Dict.get? d name = some (.list (vs.map .scalar))) (hv : ∀ v ∈ vs, IsA v t) :
    (yamlGetAttr (.dict d) r name (.value (some (.list t))) optional canBeStr).2 = .ok (.value (.list vs)) := by
  have hp : (Yaml.list (vs.map .scalar)).toPyVal = .list vs := by
    simp only [Yaml.toPyVal, PyVal.list.injEq]
    clear h hv
    induction vs with
    | nil => rfl
    | cons v vs ih => simp [Yaml.toPyVals, Yaml.toPyVal, ih]
  have hi : isInstanceOf (.list vs) (some (.list t)) canBeStr = true := by
    simp only [isInstanceOf, List.all_eq_true]
    intro v hm
    exact (isInstOrStr_iff canBeStr v t).2 (.inl (hv v hm))
  simp [yamlGetAttr, yamlLookup, h, hp, hi]

example : (Xml.elem "a" [("v", "1;2"), ("v-sep", ";")] []).attrs.get? ("v" ++ "-sep") = some ";" := by decide

example : Dict.get? [("v", Yaml.list ([PyVal.int 1, .int 2].map .scalar))] "v" = some (.list ([PyVal.int 1, .int 2].map .scalar)) ∧
    ∀ v ∈ [PyVal.int 1, .int 2], IsA v .int := ⟨rfl, by intro v hv; simp at hv; rcases hv with rfl | rfl <;> constructor⟩

example : Pieces ", ".toList "a, b".toList ["a".toList, "b".toList] := C79_split ", ".toList "a, b".toList (by decide)

theorem text_occurs_iff (sub : List Char) : ∀ l : List Char, isInfix sub l = true ↔ sub <:+: l
  | [] => by simp [isInfix]
  | c :: cs => by rw [isInfix, Bool.or_eq_true, text_occurs_iff sub cs, List.infix_cons_iff, List.isPrefixOf_iff_prefix]

/-- C79 (YAML): where a mapping is expected and a text is given, an attribute is absent unless its name occurs somewhere in the text; then TypeError is raised. -/
theorem C79_yaml_text (s : String) (r : Reads) (name : String) (ty : AttrTy) (canBeStr : Bool) :
    (name.toList <:+: s.toList → ∀ optional, yamlGetAttr (.scalar (.str s)) r name ty optional canBeStr = (r, .error .typeError)) ∧
    (¬ name.toList <:+: s.toList →
      yamlGetAttr (.scalar (.str s)) r name ty true canBeStr = (r, .ok .none) ∧
      yamlGetAttr (.scalar (.str s)) r name ty false canBeStr = (r, .error .attributeError)) := by
  rw [← text_occurs_iff name.toList s.toList]
  refine ⟨fun h o => by simp [yamlGetAttr, yamlLookup, h], fun h => ?_⟩
  constructor <;> simp [yamlGetAttr, yamlLookup, h]

example : "name".toList <:+: "my name".toList ∧ ¬ "name".toList <:+: "other".toList :=
  ⟨by rw [← text_occurs_iff]; decide +kernel, by rw [← text_occurs_iff]; decide +kernel⟩

end Verif
