import Verif.Spec.ParseIf
import Verif.Props.Typed
import Verif.Props.Meaning
import Verif.Props.Grammar
import Verif.Props.Setting

/-! # C114: values that may contain substitutions, scalars and lists -/

namespace Verif

theorem sameType_iff (v w : PyVal) : SameType v w ↔ v.pyType = w.pyType := by
  cases v <;> cases w <;> simp [SameType, PyVal.pyType]

/-- The type that a result adds to `data_types`. -/
def IfSub.typed : IfSub → List PyType
  | .val v => [v.pyType]
  | .subs _ => []

theorem parseIfItem_ok {F : Front} {ts : List PyType} {v : PyVal} {r : IfSub} {ts' : List PyType} :
    parseIfItem F ts v = .ok (r, ts') ↔ Becomes F v r ∧ ts' = r.typed.foldl (fun a t => a.insert t) ts := by
  constructor
  · intro h
    cases v with
    | str s =>
      simp only [parseIfItem] at h
      cases hs : F.subst s with
      | error e => simp [hs] at h
      | ok l =>
        rw [hs] at h
        split at h
        · simp at *
        · rename_i t heq; injection heq with heq; subst heq
          simp only [Except.ok.injEq, Prod.mk.injEq] at h
          obtain ⟨rfl, rfl⟩ := h
          exact ⟨.plain hs, rfl⟩
        · rename_i l' hn heq; injection heq with heq; subst heq
          simp only [Except.ok.injEq, Prod.mk.injEq] at h
          obtain ⟨rfl, rfl⟩ := h
          exact ⟨.parts hs (fun t e => hn t (by rw [e])), rfl⟩
    | _ => all_goals
      simp only [parseIfItem, Except.ok.injEq, Prod.mk.injEq] at h
      obtain ⟨rfl, rfl⟩ := h
      exact ⟨.same (by intro s e; cases e), rfl⟩
  · rintro ⟨h, rfl⟩
    cases h with
    | plain hs => simp [parseIfItem, hs, IfSub.typed, PyVal.pyType]
    | @parts s l hs hn =>
      cases l with
      | nil => simp only [parseIfItem, hs, IfSub.typed, List.foldl_nil]
      | cons x xs =>
        cases xs with
        | nil =>
          cases x with
          | text t => exact absurd rfl (hn t)
          | _ => simp only [parseIfItem, hs, IfSub.typed, List.foldl_nil]
        | cons y ys => simp only [parseIfItem, hs, IfSub.typed, List.foldl_nil]
    | same hn =>
      cases v with
      | str s => exact absurd rfl (hn s)
      | _ => rfl

theorem mem_insert_fold (r : IfSub) (ts : List PyType) (x : PyType) : x ∈ r.typed.foldl (fun a t => a.insert t) ts ↔ x ∈ ts ∨ ∃ v, r = .val v ∧ v.pyType = x := by
  cases r with
  | val v => simp [IfSub.typed, eq_comm, or_comm]
  | subs l => simp [IfSub.typed]

theorem nodup_insert_fold (r : IfSub) {ts : List PyType} (h : ts.Nodup) : (r.typed.foldl (fun a t => a.insert t) ts).Nodup := by
  cases r with
  | val v =>
    simp only [IfSub.typed, List.foldl_cons, List.foldl_nil, List.insert]
    split
    · exact h
    · rename_i hm; exact List.nodup_cons.2 ⟨by simpa using hm, h⟩
  | subs l => exact h

theorem parseIfItems_ok {F : Front} {vs : List PyVal} {rs : List IfSub} (ts : List PyType) (hn : ts.Nodup) :
    (∃ ts', parseIfItems F ts vs = .ok (rs, ts')) ↔ Each2 (Becomes F) vs rs := by
  induction vs generalizing ts rs with
  | nil =>
    constructor
    · rintro ⟨ts', h⟩; simp only [parseIfItems, Except.ok.injEq, Prod.mk.injEq] at h; rw [← h.1]; exact .nil
    · intro h; cases h; exact ⟨ts, rfl⟩
  | cons v vs ih =>
    constructor
    · rintro ⟨ts', h⟩
      simp only [parseIfItems] at h
      cases h1 : parseIfItem F ts v with
      | error e => simp [h1] at h
      | ok p =>
        obtain ⟨r, ts1⟩ := p
        rw [h1] at h; dsimp only at h
        cases h2 : parseIfItems F ts1 vs with
        | error e => simp [h2] at h
        | ok q =>
          obtain ⟨rs', ts2⟩ := q
          rw [h2] at h
          simp only [Except.ok.injEq, Prod.mk.injEq] at h
          obtain ⟨h3, h4⟩ := parseIfItem_ok.1 h1
          rw [← h.1]
          exact .cons h3 ((ih ts1 (h4 ▸ nodup_insert_fold r hn)).1 ⟨ts2, h2⟩)
    · intro h
      cases h with
      | @cons _ r _ rs' h1 h2 =>
        obtain ⟨ts2, e⟩ := (ih _ (nodup_insert_fold r hn)).2 h2
        exact ⟨ts2, by simp only [parseIfItems, parseIfItem_ok.2 ⟨h1, rfl⟩, e]⟩

theorem parseIfItems_types {F : Front} {vs : List PyVal} {rs : List IfSub} {ts ts' : List PyType} (hn : ts.Nodup)
    (h : parseIfItems F ts vs = .ok (rs, ts')) : ts'.Nodup ∧ ∀ x, x ∈ ts' ↔ x ∈ ts ∨ ∃ v, IfSub.val v ∈ rs ∧ v.pyType = x := by
  induction vs generalizing ts rs with
  | nil =>
    simp only [parseIfItems, Except.ok.injEq, Prod.mk.injEq] at h
    obtain ⟨rfl, rfl⟩ := h
    exact ⟨hn, by simp⟩
  | cons v vs ih =>
    simp only [parseIfItems] at h
    cases h1 : parseIfItem F ts v with
    | error e => simp [h1] at h
    | ok p =>
      obtain ⟨r, ts1⟩ := p
      rw [h1] at h; dsimp only at h
      cases h2 : parseIfItems F ts1 vs with
      | error e => simp [h2] at h
      | ok q =>
        obtain ⟨rs', ts2⟩ := q
        rw [h2] at h
        simp only [Except.ok.injEq, Prod.mk.injEq] at h
        obtain ⟨rfl, rfl⟩ := h
        obtain ⟨h3, h4⟩ := parseIfItem_ok.1 h1
        obtain ⟨h5, h6⟩ := ih (h4 ▸ nodup_insert_fold r hn) h2
        refine ⟨h5, fun x => ?_⟩
        rw [h6 x, h4, mem_insert_fold, or_assoc]
        refine or_congr Iff.rfl ?_
        constructor
        · rintro (⟨w, rfl, hw⟩ | ⟨w, hw, e⟩)
          · exact ⟨w, by simp, hw⟩
          · exact ⟨w, by simp [hw], e⟩
        · rintro ⟨w, hw, e⟩
          rcases List.mem_cons.1 hw with hw | hw
          · exact .inl ⟨w, hw.symm, e⟩
          · exact .inr ⟨w, hw, e⟩

theorem nodup_length {l : List PyType} (h : l.Nodup) : l.length > 1 ↔ ∃ x ∈ l, ∃ y ∈ l, x ≠ y := by
  constructor
  · intro hl
    match l, h, hl with
    | x :: y :: l, h, _ =>
      simp only [List.nodup_cons, List.mem_cons, not_or] at h
      exact ⟨x, by simp, y, by simp, h.1.1⟩
  · rintro ⟨x, hx, y, hy, hxy⟩
    match l, hx, hy with
    | [z], hx, hy => simp at hx hy; exact absurd (hx.trans hy.symm) hxy
    | _ :: _ :: _, _, _ => simp

theorem uniform_iff {F : Front} {vs : List PyVal} {rs : List IfSub} {ts' : List PyType} (h : parseIfItems F [] vs = .ok (rs, ts')) :
    ¬ ts'.length > 1 ↔ Uniform rs := by
  obtain ⟨h1, h2⟩ := parseIfItems_types List.nodup_nil h
  rw [nodup_length h1]
  constructor
  · intro hno v w hv hw
    rw [sameType_iff]
    exact Decidable.byContradiction fun hne => hno ⟨_, (h2 _).2 (.inr ⟨v, hv, rfl⟩), _, (h2 _).2 (.inr ⟨w, hw, rfl⟩), hne⟩
  · rintro hu ⟨x, hx, y, hy, hxy⟩
    obtain ⟨v, hv, rfl⟩ := ((h2 x).1 hx).resolve_left (by simp)
    obtain ⟨w, hw, rfl⟩ := ((h2 y).1 hy).resolve_left (by simp)
    exact hxy ((sameType_iff v w).1 (hu v w hv hw))

/-- C114.  The result for a list is, item by item and in order, what each item becomes, and it exists exactly if every text can be parsed and
all values without substitutions have one type. -/
theorem C114_lists (F : Front) (vs : List PyVal) (rs : List IfSub) :
    parseIfSubstitutions F (.list vs) = .ok (.many rs) ↔ Each2 (Becomes F) vs rs ∧ Uniform rs := by
  constructor
  · intro h
    simp only [parseIfSubstitutions] at h
    cases h1 : parseIfItems F [] vs with
    | error e => simp [h1] at h
    | ok p =>
      obtain ⟨rs', ts⟩ := p
      rw [h1] at h; dsimp only at h
      split at h
      · cases h
      · rename_i hl
        injection h with h; injection h with h; subst h
        exact ⟨(parseIfItems_ok [] List.nodup_nil).1 ⟨ts, h1⟩, (uniform_iff h1).1 hl⟩
  · rintro ⟨h1, h2⟩
    obtain ⟨ts, e⟩ := (parseIfItems_ok [] List.nodup_nil).2 h1
    simp only [parseIfSubstitutions, e, if_neg ((uniform_iff e).2 h2)]

/-- C114.  A list never becomes a single value, anything else never becomes a list. -/
theorem C114_shape (F : Front) (v : PyVal) (o : IfOut) (h : parseIfSubstitutions F v = .ok o) : (∃ rs, o = .many rs) ↔ ∃ vs, v = .list vs := by
  cases v with
  | list vs =>
    simp only [parseIfSubstitutions] at h
    split at h
    · cases h
    · split at h
      · cases h
      · injection h with h; subst h; simp
  | _ => all_goals
    simp only [parseIfSubstitutions] at h
    split at h
    · cases h
    · split at h
      · cases h
      · injection h with h; subst h; simp

/-- C114.  A value that is not a list becomes what the rule for one value says. -/
theorem C114_scalars (F : Front) (v : PyVal) (hv : ∀ vs, v ≠ .list vs) (r : IfSub) : parseIfSubstitutions F v = .ok (.one r) ↔ Becomes F v r := by
  have key : parseIfSubstitutions F v = match parseIfItem F [] v with
      | .error e => .error e
      | .ok (r, types) => if types.length > 1 then .error .valueError else .ok (.one r) := by
    cases v with
    | list vs => exact absurd rfl (hv vs)
    | _ => rfl
  rw [key]
  constructor
  · intro h
    split at h
    · cases h
    · rename_i r' ts h1
      split at h
      · cases h
      · injection h with h; injection h with h; subst h; exact (parseIfItem_ok.1 h1).1
  · intro h
    rw [parseIfItem_ok.2 ⟨h, rfl⟩]
    cases h <;> simp [IfSub.typed]

/-- C114.  This is how actions read their typed attributes. -/
theorem C114_attributes (F : Front) (v : PyVal) (hv : ∀ vs, v ≠ .list vs) (r : IfSub) : parseIfSubs F v = .ok r ↔ Becomes F v r := by
  rw [← C114_scalars F v hv r]
  cases v with
  | list vs => exact absurd rfl (hv vs)
  | str s =>
    simp only [parseIfSubs, parseIfSubstitutions, parseIfItem]
    cases F.subst s with
    | error e => simp
    | ok l =>
      match l with
      | [] => simp
      | [.text t] => simp
      | [x] => cases x <;> simp
      | _ :: _ :: _ => simp
  | _ => simp [parseIfSubs, parseIfSubstitutions, parseIfItem]

/-- The errors of the list comprehension are those of the first text that cannot be parsed. -/
theorem parseIfItems_error {F : Front} {vs : List PyVal} {ts : List PyType} {e : Err} :
    parseIfItems F ts vs = .error e ↔
      ∃ pre s post rs, vs = pre ++ .str s :: post ∧ Each2 (Becomes F) pre rs ∧ F.subst s = .error e := by
  induction vs generalizing ts with
  | nil => simp [parseIfItems]
  | cons v vs ih =>
    cases h1 : parseIfItem F ts v with
    | error e' =>
      cases v with
      | str s =>
        have hs : F.subst s = .error e' := by
          simp only [parseIfItem] at h1
          split at h1
          · rename_i hs; injection h1 with h1; rw [hs, h1]
          · cases h1
          · cases h1
        simp only [parseIfItems, h1, Except.error.injEq]
        constructor
        · rintro rfl; exact ⟨[], s, vs, [], rfl, .nil, hs⟩
        · rintro ⟨pre, s', post, rs, hv, hp, he⟩
          cases pre with
          | nil => simp only [List.nil_append, List.cons.injEq, PyVal.str.injEq] at hv; rw [← hv.1, hs] at he; injection he
          | cons p pre =>
            simp only [List.cons_append, List.cons.injEq] at hv
            rw [← hv.1] at hp
            cases hp with
            | cons hb _ =>
              cases hb with
              | plain h => rw [hs] at h; cases h
              | parts h _ => rw [hs] at h; cases h
              | same h => exact absurd rfl (h s)
      | _ => all_goals simp [parseIfItem] at h1
    | ok p =>
      obtain ⟨r, ts1⟩ := p
      obtain ⟨hb, -⟩ := parseIfItem_ok.1 h1
      have : parseIfItems F ts (v :: vs) = .error e ↔ parseIfItems F ts1 vs = .error e := by
        simp only [parseIfItems, h1]
        cases parseIfItems F ts1 vs <;> simp
      rw [this, ih]
      constructor
      · rintro ⟨pre, s, post, rs, rfl, hp, he⟩
        exact ⟨v :: pre, s, post, r :: rs, rfl, .cons hb hp, he⟩
      · rintro ⟨pre, s, post, rs, hv, hp, he⟩
        cases hp with
        | nil =>
          simp only [List.nil_append, List.cons.injEq] at hv
          rw [hv.1] at hb
          cases hb with
          | plain h => rw [he] at h; cases h
          | parts h _ => rw [he] at h; cases h
          | same h => exact absurd rfl (h s)
        | cons hb' hp' =>
          simp only [List.cons_append, List.cons.injEq] at hv
          exact ⟨_, s, post, _, hv.2, hp', he⟩

/-- C114.  A list is rejected exactly with the error of its first text that cannot be parsed or, if there is none, with ValueError because of two
values of different types. -/
theorem C114_rejected (F : Front) (vs : List PyVal) (e : Err) :
    parseIfSubstitutions F (.list vs) = .error e ↔
      (∃ pre s post rs, vs = pre ++ .str s :: post ∧ Each2 (Becomes F) pre rs ∧ F.subst s = .error e) ∨
      (e = .valueError ∧ ∃ rs v w, Each2 (Becomes F) vs rs ∧ IfSub.val v ∈ rs ∧ IfSub.val w ∈ rs ∧ ¬ SameType v w) := by
  rw [← parseIfItems_error (ts := [])]
  cases h1 : parseIfItems F [] vs with
  | error e' =>
    simp only [parseIfSubstitutions, h1, Except.error.injEq]
    constructor
    · exact .inl
    · rintro (h | ⟨-, rs, v, w, hb, -⟩)
      · exact h
      · obtain ⟨ts, h2⟩ := (parseIfItems_ok [] List.nodup_nil).2 hb
        rw [h1] at h2; cases h2
  | ok p =>
    obtain ⟨rs, ts⟩ := p
    have hb := (parseIfItems_ok [] List.nodup_nil).1 ⟨ts, h1⟩
    have hu := uniform_iff h1
    simp only [parseIfSubstitutions, h1, reduceCtorEq, false_or]
    constructor
    · intro h
      split at h
      · rename_i hl
        refine ⟨by injection h with h; exact h.symm, rs, ?_⟩
        have hnu : ¬ Uniform rs := fun hn => hu.2 hn hl
        simp only [Uniform, Classical.not_forall] at hnu
        obtain ⟨v, w, hv, hw, hn⟩ := hnu
        exact ⟨v, w, hb, hv, hw, hn⟩
      · cases h
    · rintro ⟨rfl, rs', v, w, hb', hv, hw, hn⟩
      obtain ⟨ts', h2⟩ := (parseIfItems_ok [] List.nodup_nil).2 hb'
      rw [h1] at h2; injection h2 with h2; injection h2 with h2 _; subst h2
      have : ts.length > 1 := Decidable.byContradiction fun hl => hn (hu.1 hl v w hv hw)
      rw [if_pos this]

theorem becomes_written {F : Front} {s : String} {l : List Sub} (hs : F.subst s = .ok l) (hne : l ≠ []) (c c1 : Ctx) (v : String)
    (hp : performSubs F.O l c = (c1, .ok v)) (r : IfSub) (hb : Becomes F (.str s) r) :
    (r = .val (.str v) ∧ c1 = c) ∨ (r = .subs l ∧ Written r.toTVal l) := by
  cases hb with
  | @plain _ t h =>
    rw [hs] at h; injection h with h; subst h
    refine .inl ?_
    rw [performSubs_text] at hp; injection hp with h1 h2; injection h2 with h2
    exact ⟨by rw [h2], h1.symm⟩
  | parts h hnt =>
    rw [hs] at h; injection h with h; subst h
    refine .inr ⟨rfl, .several ?_ ?_⟩
    · clear hs hne hp hnt
      induction l with
      | nil => exact .nil
      | cons x xs ih => exact .cons (.inl rfl) (by simpa using ih)
    · cases l with
      | nil => exact absurd rfl hne
      | cons x xs => exact ⟨x, by simp⟩
  | same h => exact absurd rfl (h s)

/-- C114.  A list of texts, read with parse_if_substitutions, normalised and performed as a list of strings, gives the texts with their substitutions
replaced, item by item from left to right. -/
theorem C114_texts (F : Front) (hne : ∀ s l, F.subst s = .ok l → l ≠ []) (ss vs : List String) (c c' : Ctx) (h : TextsGive F ss c c' vs) :
    ∃ o n, parseIfSubstitutions F (.list (ss.map .str)) = .ok o ∧ normalizeTyped F.O o.toTVal (some (.list .str)) = .ok n ∧
      performTyped F.O n (some (.list .str)) c = (c', .ok (.list (vs.map .str))) := by
  have key : ∃ rs, Each2 (Becomes F) (ss.map .str) rs ∧ (∀ v, IfSub.val v ∈ rs → ∃ t, v = .str t) ∧
      ItemsGive F.O .str (rs.map IfSub.toTVal) c c' (vs.map .str) ∧ ∀ r ∈ rs, r.toTVal.isSub = false := by
    induction h with
    | nil c => exact ⟨[], .nil, by simp, .nil c, by simp⟩
    | @cons s v l ss vs c c1 c' hs hp _ ih =>
      obtain ⟨rs, h1, h2, h3, h4⟩ := ih
      have hb : ∃ r, Becomes F (.str s) r := by
        by_cases ht : ∃ t, l = [.text t]
        · obtain ⟨t, rfl⟩ := ht; exact ⟨_, .plain hs⟩
        · exact ⟨_, .parts hs (fun t e => ht ⟨t, e⟩)⟩
      obtain ⟨r, hb⟩ := hb
      rcases becomes_written hs (hne s l hs) c c1 v hp r hb with ⟨rfl, rfl⟩ | ⟨rfl, hw⟩
      · refine ⟨.val (.str v) :: rs, .cons hb h1, ?_, .scalar rfl (.str v) h3, ?_⟩
        · intro w hw; rcases List.mem_cons.1 hw with hw | hw
          · injection hw with hw; exact ⟨v, hw⟩
          · exact h2 w hw
        · intro r hr; rcases List.mem_cons.1 hr with rfl | hr
          · rfl
          · exact h4 r hr
      · refine ⟨.subs l :: rs, .cons hb h1, ?_, .written hw hp rfl h3, ?_⟩
        · intro w hw; rcases List.mem_cons.1 hw with hw | hw
          · cases hw
          · exact h2 w hw
        · intro r hr; rcases List.mem_cons.1 hr with rfl | hr
          · rfl
          · exact h4 r hr
  obtain ⟨rs, h1, h2, h3, h4⟩ := key
  have hu : Uniform rs := by
    intro v w hv hw
    obtain ⟨t, rfl⟩ := h2 v hv
    obtain ⟨u, rfl⟩ := h2 w hw
    trivial
  obtain ⟨n, hn, hp⟩ := C40_lists F.O .str _ c c' _ h3 (.inr rfl) (by
    rintro ⟨l, hw⟩
    cases hw with
    | several _ hs =>
      obtain ⟨x, hx⟩ := hs
      obtain ⟨r, hr, e⟩ := List.mem_map.1 hx
      have := h4 r hr
      rw [e] at this; cases this)
  exact ⟨.many rs, n, (C114_lists F _ rs).2 ⟨h1, hu⟩, hn, hp⟩

theorem parseSubstitution_ne_nil (s : String) (l : List Sub) (h : parseSubstitution s = .ok l) : l ≠ [] := by
  unfold parseSubstitution at h
  split at h
  · injection h with h; subst h; simp
  · split at h
    · cases h
    · rename_i fs hf
      have hfs : fs ≠ [] := by
        intro e; subst e
        have := (parseFrags_iff s.toList []).1 hf
        exact this.choose_spec.2 rfl
      cases fs with
      | nil => exact absurd rfl hfs
      | cons f fs =>
        simp only [Frag.buildAll] at h
        split at h
        · rename_i hb; split at hb
          · cases hb
          · split at hb
            · cases hb
            · injection hb with hb; injection h with h; subst hb; subst h; simp
        · cases h

/-- C114.  With the grammar of launch files: the same for any list of texts. -/
theorem C114_texts_of_files (F : Front) (hF : F.subst = parseSubstitution) (ss vs : List String) (c c' : Ctx) (h : TextsGive F ss c c' vs) :
    ∃ o n, parseIfSubstitutions F (.list (ss.map .str)) = .ok o ∧ normalizeTyped F.O o.toTVal (some (.list .str)) = .ok n ∧
      performTyped F.O n (some (.list .str)) c = (c', .ok (.list (vs.map .str))) :=
  C114_texts F (by rw [hF]; exact parseSubstitution_ne_nil) ss vs c c' h

/-- C114.  Any list of texts can be written literally: escaped texts become the texts. -/
theorem C114_escaped (F : Front) (hF : F.subst = parseSubstitution) (ss : List String) :
    parseIfSubstitutions F (.list (ss.map fun s => .str (String.ofList (escapeAll isSpecial s.toList)))) = .ok (.many (ss.map fun s => .val (.str s))) := by
  refine (C114_lists F _ _).2 ⟨?_, ?_⟩
  · induction ss with
    | nil => exact .nil
    | cons s ss ih => exact .cons (.plain (by rw [hF]; exact C76_escaped s)) ih
  · intro v w hv hw
    obtain ⟨s, -, h1⟩ := List.mem_map.1 hv
    obtain ⟨t, -, h2⟩ := List.mem_map.1 hw
    injection h1 with h1; injection h2 with h2; subst h1; subst h2; trivial

/-- Texts with and without substitutions, performed in order. -/
example : TextsGive { textFront with subst := fun s => if s = "$(var a)" then .ok [.launchConfig [.text "a"] none] else .ok [.text s] }
    ["x", "$(var a)"] { lc := [("a", "1")] } { lc := [("a", "1")] } ["x", "1"] :=
  .cons rfl rfl (.cons rfl rfl (.nil _))

/-- A list of an int and a text that stays a text is rejected; with a text that has a substitution it is not. -/
example : parseIfSubstitutions textFront (.list [.int 1, .str "b"]) = .error .valueError ∧
    parseIfSubstitutions { textFront with subst := fun _ => .ok [.launchConfig [.text "a"] none] } (.list [.int 1, .str "$(var a)"]) =
      .ok (.many [.val (.int 1), .subs [.launchConfig [.text "a"] none]]) := ⟨rfl, rfl⟩

end Verif
