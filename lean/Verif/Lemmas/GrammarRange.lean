import Verif.Lemmas.GrammarWrite

/-! # What the parser returns can be written -/

namespace Verif

theorem getLast_cons {α : Type} (a : α) (l : List α) (h : l ≠ []) : (a :: l).getLast? = l.getLast? := by
  cases l with
  | nil => exact absurd rfl h
  | cons b l => exact List.getLast?_cons_cons

theorem unescape_ne_nil : (t : List Char) → t ≠ [] → unescape t ≠ []
  | [], h => absurd rfl h
  | [c], _ => by simp [unescape]
  | c :: d :: cs, _ => by
    unfold unescape
    split <;> simp

/-- Replacing escapes keeps the last character. -/
theorem unescape_last : (t : List Char) → (unescape t).getLast? = t.getLast?
  | [] => rfl
  | [c] => rfl
  | [c, d] => by
    unfold unescape
    split
    · simp [unescape]
    · simp [unescape]
  | c :: d :: e :: cs => by
    unfold unescape
    split
    · rw [getLast_cons _ _ (unescape_ne_nil _ (by simp)), unescape_last (e :: cs)]
      simp
    · rw [getLast_cons _ _ (unescape_ne_nil _ (by simp)), unescape_last (d :: e :: cs)]
      simp

theorem unescape_mem : (t : List Char) → ∀ c, c ∈ unescape t → c ∈ t
  | [], _, h => h
  | [_], _, h => h
  | a :: b :: cs, c, h => by
    unfold unescape at h
    split at h
    · rcases List.mem_cons.1 h with rfl | h
      · simp
      · simp [unescape_mem cs c h]
    · rcases List.mem_cons.1 h with rfl | h
      · simp
      · exact List.mem_cons_of_mem _ (unescape_mem (b :: cs) c h)

theorem munch_prev (m : QMode) (r st : Bool) (p : Option Char) (cs : List Char) :
    (munch m r st p cs).2.1 = ((munch m r st p cs).1.getLast?).or p := by
  induction cs generalizing st p with
  | nil => rfl
  | cons c cs ih =>
    unfold munch
    split
    · simp only [ih]
      cases (munch m r true (some c) cs).1 with
      | nil => simp
      | cons d ds => simp [List.getLast?_cons]
    · rfl

theorem munch_blank (m : QMode) (st : Bool) (p : Option Char) (cs : List Char) : ' ' ∉ (munch m true st p cs).1 := by
  induction cs generalizing st p with
  | nil => simp [munch]
  | cons c cs ih =>
    unfold munch
    split
    · rename_i h
      simp only [List.mem_cons, not_or]
      refine ⟨?_, ih _ _⟩
      rintro rfl
      exact absurd h (by simp [accepts])
    · simp

theorem token_prev {m : QMode} {r : Bool} {s : GState} {t : List Char} {s' : GState} (h : token m r s = some (t, s')) : s'.1 = t.getLast? := by
  obtain ⟨h1, h2⟩ := token_some h
  have := munch_prev m r false s.1 s.2
  rw [h1] at this
  simp only at this
  rw [this]
  cases t with
  | nil => exact absurd rfl h2
  | cons c t => simp [List.getLast?_cons]

theorem token_next {m : QMode} {r : Bool} {s : GState} {t : List Char} {s' : GState} (h : token m r s = some (t, s')) {c : Char} {cs : List Char}
    (hc : s'.2 = c :: cs) : accepts m r true s'.1 c cs.head? = false := by
  obtain ⟨h1, h2⟩ := token_some h
  have := munch_stop m r false s.1 s.2
  rw [h1] at this
  rcases this with h3 | ⟨d, ds, h3, h4⟩
  · rw [hc] at h3; cases h3
  · rw [hc] at h3; cases h3
    have : t.isEmpty = false := by cases t with
      | nil => exact absurd rfl h2
      | cons _ _ => rfl
    simpa [this] using h4

theorem idTail_chars (p : Option Char) (cs : List Char) : (idTail p cs).1.all isIdChar = true := by
  induction cs generalizing p with
  | nil => rfl
  | cons c cs ih =>
    unfold idTail
    split
    · rename_i h; simp only [List.all_cons, h, Bool.true_and]; exact ih _
    · rfl

theorem ident_isName {s : GState} {n : List Char} {s' : GState} (h : ident s = some (n, s')) : isName n = true := by
  obtain ⟨p, cs⟩ := s
  cases cs with
  | nil => simp [ident] at h
  | cons c cs =>
    simp only [ident] at h
    split at h
    · rename_i hc
      simp only [Option.some.injEq, Prod.mk.injEq] at h
      obtain ⟨rfl, rfl⟩ := h
      simp only [isName_cons, hc, Bool.true_and]
      exact idTail_chars _ _
    · cases h

/-! ## Writing outside of quotation marks what can be written inside -/

theorem needsQuotes_r {q free : Bool} {a : List Frag} (hne : a ≠ []) (h : Frag.WritableAll q true free a) : needsQuotes a = false := by
  unfold needsQuotes
  have he : a.isEmpty = false := by cases a with
    | nil => exact absurd rfl hne
    | cons _ _ => rfl
  rw [he, Bool.false_or]
  clear hne he
  induction a with
  | nil => rfl
  | cons f fs ih =>
    unfold Frag.WritableAll at h
    rw [List.any_cons, ih h.2.2, Bool.or_false]
    cases f with
    | text t =>
      have := h.1
      simp only [Frag.Writable] at this
      simpa using this.2
    | sub _ _ => rfl

mutual

theorem Frag.Writable.mono : (f : Frag) → (r r' : Bool) → (r' = true → r = true ∨ needsQuotes [f] = false) → f.Writable true r → f.Writable false r'
  | .text t, r, r', hr, h => by
    simp only [Frag.Writable] at h ⊢
    refine ⟨h.1, fun hr' => ?_⟩
    rcases hr hr' with h1 | h1
    · exact h.2 h1
    · simpa [needsQuotes] using h1
  | .sub name args, r, r', _, h => by
    simp only [Frag.Writable] at h ⊢
    exact ⟨h.1, Frag.WritableArgs.mono args h.2⟩

theorem Frag.WritableArgs.mono : (as : List (List Frag)) → Frag.WritableArgs true as → Frag.WritableArgs false as
  | [], _ => by simp only [Frag.WritableArgs]
  | a :: as, h => by
    simp only [Frag.WritableArgs, Bool.not_true, Bool.false_and, Bool.false_eq_true, if_false, Bool.not_false, Bool.true_and] at h ⊢
    obtain ⟨⟨h1, h2⟩, h3⟩ := h
    rw [needsQuotes_r h1 h2]
    simp only [Bool.false_eq_true, if_false]
    exact ⟨⟨h1, Frag.WritableAll.mono a true true _ _ (fun _ => .inl rfl) (fun h => h) h2⟩, Frag.WritableArgs.mono as h3⟩

theorem Frag.WritableAll.mono : (fs : List Frag) → (r r' free free' : Bool) → (r' = true → r = true ∨ (fs.any fun f => needsQuotes [f]) = false) →
    (free = true → free' = true) → Frag.WritableAll true r free fs → Frag.WritableAll false r' free' fs
  | [], _, _, _, _, _, _, _ => by simp only [Frag.WritableAll]
  | f :: fs, r, r', free, free', hr, hf, h => by
    unfold Frag.WritableAll at h ⊢
    refine ⟨Frag.Writable.mono f r r' (fun hr' => ?_) h.1, ?_, Frag.WritableAll.mono fs r r' free free' (fun hr' => ?_) hf h.2.2⟩
    · rcases hr hr' with h1 | h1
      · exact .inl h1
      · simp only [List.any_cons, Bool.or_eq_false_iff] at h1; exact .inr h1.1
    · have h2 := h.2.1
      cases f with
      | sub _ _ => trivial
      | text t =>
        cases fs with
        | nil =>
          simp only at h2 ⊢
          rcases h2 with h2 | h2
          · exact .inl (hf h2)
          · exact .inr h2
        | cons g fs => exact h2
    · rcases hr hr' with h1 | h1
      · exact .inl h1
      · simp only [List.any_cons, Bool.or_eq_false_iff] at h1; exact .inr h1.2

end

theorem needsQuotes_each {a : List Frag} (h : needsQuotes a = false) : (a.any fun f => needsQuotes [f]) = false := by
  unfold needsQuotes at h
  simp only [Bool.or_eq_false_iff] at h
  have h2 := h.2
  clear h
  induction a with
  | nil => rfl
  | cons f fs ih =>
    simp only [List.any_cons, Bool.or_eq_false_iff] at h2 ⊢
    refine ⟨?_, ih h2.2⟩
    cases f with
    | text t => simpa [needsQuotes] using h2.1
    | sub _ _ => rfl

theorem writableArgs_append (q : Bool) (as : List (List Frag)) (v : List Frag) (h1 : ∀ a ∈ as, ArgOk q true a) (h2 : ArgOk q false v) :
    Frag.WritableArgs q (as ++ [v]) := by
  induction as with
  | nil =>
    rw [List.nil_append, writableArgs_cons]
    exact ⟨h2, by simp only [Frag.WritableArgs]⟩
  | cons a as ih =>
    rw [List.cons_append, writableArgs_cons]
    refine ⟨?_, ih (fun b hb => h1 b (List.mem_cons_of_mem _ hb))⟩
    have : (as ++ [v]).isEmpty = false := by cases as <;> rfl
    rw [this]
    exact h1 a (List.mem_cons_self ..)

/-! ## Derivations -/

/-- What comes after a list that does not end with a backslash. -/
def AfterOk (m : QMode) (r free : Bool) (s : GState) : Prop :=
  free = true ∨ (r = true ∧ s.2.head? = some ')') ∨ (m ≠ .unq ∧ r = false ∧ s.2.head? = some m.quote)

/-- Inside of quotation marks? -/
def QMode.inner : QMode → Bool
  | .unq => false
  | _ => true

theorem after_text {m : QMode} {r free : Bool} {s : GState} {t : List Char} {s' : GState} (h : token m r s = some (t, s')) (ha : AfterOk m r free s') :
    free = true ∨ endsBackslash (unescape t) = false := by
  have hl : endsBackslash (unescape t) = (s'.1 == some '\\') := by
    unfold endsBackslash; rw [unescape_last, ← token_prev h]
  rw [hl]
  rcases ha with ha | ⟨rfl, ha⟩ | ⟨hm, rfl, ha⟩
  · exact .inl ha
  · right
    cases hs : s'.2 with
    | nil => rw [hs] at ha; cases ha
    | cons c cs =>
      have hn := token_next h hs
      rw [hs] at ha
      simp only [List.head?_cons, Option.some.injEq] at ha
      subst ha
      simpa [accepts] using hn
  · right
    cases hs : s'.2 with
    | nil => rw [hs] at ha; cases ha
    | cons c cs =>
      have hn := token_next h hs
      rw [hs] at ha
      simp only [List.head?_cons, Option.some.injEq] at ha
      subst ha
      cases m with
      | unq => exact absurd rfl hm
      | single => simpa [accepts, QMode.quote] using hn
      | double => simpa [accepts, QMode.quote] using hn

theorem before_sub {m : QMode} {r : Bool} {s : GState} {t : List Char} {s' : GState} (h : token m r s = some (t, s')) {cs : List Char}
    (hs : s'.2 = '$' :: '(' :: cs) : endsBackslash (unescape t) = false := by
  have hl : endsBackslash (unescape t) = (s'.1 == some '\\') := by
    unfold endsBackslash; rw [unescape_last, ← token_prev h]
  rw [hl]
  have hn := token_next h hs
  simpa [accepts] using hn

theorem token_writable {m : QMode} {r : Bool} {s : GState} {t : List Char} {s' : GState} (h : token m r s = some (t, s')) (q : Bool) :
    (Frag.text (unescape t)).Writable q r := by
  obtain ⟨h1, h2⟩ := token_some h
  simp only [Frag.Writable]
  refine ⟨unescape_ne_nil t h2, ?_⟩
  rintro rfl hb
  have := munch_blank m false s.1 s.2
  rw [h1] at this
  exact this (unescape_mem t ' ' hb)

theorem GSub.isSub {m : QMode} {s : GState} {f : Frag} {s' : GState} (h : GSub m s f s') : f.isText = false := by
  cases h <;> rfl

mutual

theorem GSub.writable {m : QMode} {s : GState} {f : Frag} {s' : GState} : GSub m s f s' → ∀ r, f.Writable m.inner r
  | .plain _ _ h3 _, r => by simp only [Frag.Writable, Frag.WritableArgs]; exact ⟨ident_isName h3, trivial⟩
  | .args _ _ h3 _ h5 h6, r => by
      simp only [Frag.Writable]
      exact ⟨ident_isName h3, h5.writable.2 (by rw [(lit_eq.1 h6).1]; rfl)⟩

theorem GArgs.writable {m : QMode} {s : GState} {as : List (List Frag)} {s' : GState} :
    GArgs m s as s' → (s'.2.head? = some ' ' → ∀ a ∈ as, ArgOk m.inner true a) ∧ (s'.2.head? = some ')' → Frag.WritableArgs m.inner as)
  | .one h => by
    have ihv := h.writable
    refine ⟨fun hh a ha => ?_, fun hh => ?_⟩
    · rw [List.mem_singleton] at ha; rw [ha]; exact ihv.1
    · exact writableArgs_append _ [] _ (by simp) (ihv.2 hh)
  | .more h1 h2 h3 => by
    have ih := h1.writable.1 (by rw [(lit_eq.1 h2).1]; rfl)
    have ihv := h3.writable
    refine ⟨fun hh a ha => ?_, fun hh => writableArgs_append _ _ _ ih (ihv.2 hh)⟩
    rcases List.mem_append.1 ha with ha | ha
    · exact ih a ha
    · rw [List.mem_singleton] at ha; rw [ha]; exact ihv.1

theorem GValue.writable {m : QMode} {s : GState} {a : List Frag} {s' : GState} :
    GValue m s a s' → ArgOk m.inner true a ∧ (s'.2.head? = some ')' → ArgOk m.inner false a)
  | .parts h hne => by
    have key : ∀ free, AfterOk m true free s' → ArgOk m.inner free a := by
      intro free ha
      have hw := h.writable free ha
      unfold ArgOk
      rw [needsQuotes_r hne hw, Bool.and_false]
      simp only [Bool.false_eq_true, if_false]
      exact ⟨hne, hw⟩
    exact ⟨key true (.inl rfl), fun hh => key false (.inr (.inl ⟨rfl, hh⟩))⟩
  | .quoted (q := q) hq _ h2 h3 => by
    have hw := h2.writable false (.inr (.inr ⟨hq, rfl, by rw [(lit_eq.1 h3).1]; rfl⟩))
    have hi : q.inner = true := by cases q with
      | unq => exact absurd rfl hq
      | single => rfl
      | double => rfl
    rw [hi] at hw
    have key : ∀ free, ArgOk false free a := by
      intro free
      unfold ArgOk
      by_cases hn : needsQuotes a = true
      · rw [hn]; exact hw
      · have hn' : needsQuotes a = false := by simpa using hn
        rw [hn']
        refine ⟨?_, Frag.WritableAll.mono a false true false free (fun _ => .inr (needsQuotes_each hn')) (fun h => by cases h) hw⟩
        rintro rfl
        cases hn'
    exact ⟨key true, fun _ => key false⟩

theorem GItems.writable {m : QMode} {r : Bool} {s : GState} {fs : List Frag} {s' : GState} :
    GItems m r s fs s' → ∀ free, AfterOk m r free s' → Frag.WritableAll m.inner r free fs
  | .nil, _, _ => by simp only [Frag.WritableAll]
  | .sub (f := f) h1 h2, free, ha => by
    unfold Frag.WritableAll
    refine ⟨h1.writable r, ?_, h2.writable free ha⟩
    have := h1.isSub
    cases f with
    | text t => cases this
    | sub _ _ => trivial
  | .text h1 h2, free, ha => by
    have ih := h2.writable free ha
    unfold Frag.WritableAll
    refine ⟨token_writable h1 _, ?_, ih⟩
    clear ih
    cases h2 with
    | nil => exact after_text h1 ha
    | sub h3 h4 =>
      obtain ⟨cs, hcs⟩ := h3.head
      exact ⟨h3.isSub, before_sub h1 hcs⟩
    | text h3 h4 =>
      rw [token_stop h1] at h3
      cases h3

end

/-- What is parsed can be written. -/
theorem parse_writable {cs : List Char} {fs : List Frag} (h : parseFrags cs = some fs) : Frag.WritableAll false false true fs := by
  rw [parseFrags_iff] at h
  obtain ⟨p, hp, _⟩ := h
  exact hp.writable true (.inl rfl)

theorem parse_nonempty {cs : List Char} {fs : List Frag} (h : parseFrags cs = some fs) : fs ≠ [] := by
  rw [parseFrags_iff] at h
  obtain ⟨p, _, hp⟩ := h
  exact hp

end Verif
