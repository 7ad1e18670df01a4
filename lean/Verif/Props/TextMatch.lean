import Verif.Model.TextMatch
import Verif.Spec.Lines

/-! # C58 output expectations are found in order; C69 the output filter; C70 expect_output -/

namespace Verif

/-! ## Specification -/

/-- The expectations are found one after another, from `start` on and without overlap, each within the range `found` allows; with `strict` nothing lies
between them or before the first.  `a` is where the first begins and `c` where the last ends. -/
inductive InSequence (found : Expect → Nat → Nat → Prop) (strict : Bool) : Nat → List Expect → Nat → Nat → Prop
  | last {start a b : Nat} {e : Expect} : start ≤ a → (strict = true → a = start) → found e a b → InSequence found strict start [e] a b
  | next {start a b a' c : Nat} {e : Expect} {es : List Expect} : start ≤ a → (strict = true → a = start) → found e a b →
      InSequence found strict b es a' c → InSequence found strict start (e :: es) a c

/-- The expectation, a string or a regular expression, stands in the text from `a` to `b`. -/
def InText (text : List Char) : Expect → Nat → Nat → Prop
  | .str s, a, b => OccursAt s text a ∧ b = a + s.length
  | .pat p, a, b => ∃ pos, p.search text pos = some (a, b)
  | .seq _, _, _ => False

/-- The expectation, a string or a regular expression, is met by line `a` (and `b` is the next line). -/
def InLine (lines : List (List Char)) : Expect → Nat → Nat → Prop
  | .str s, a, b => b = a + 1 ∧ ∃ line, lines[a]? = some line ∧ ∃ i, OccursAt s line i
  | .pat p, a, b => b = a + 1 ∧ ∃ line, lines[a]? = some line ∧ ∃ r, p.atPos line 0 = some r
  | .seq _, _, _ => False

/-- What the `search` of every regular expression does: it looks at or behind the given position. -/
def Expect.Honest : Expect → Prop
  | .pat p => ∀ text pos a b, p.search text pos = some (a, b) → pos ≤ a ∧ a ≤ b ∧ b ≤ text.length
  | _ => True

/-- No list. -/
def Expect.single : Expect → Bool
  | .seq _ => false
  | _ => true

/-- A string. -/
def Expect.isStr : Expect → Bool
  | .str _ => true
  | _ => false

/-! ## The loop -/

/-- The matcher of a list with the matcher `m` of its members. -/
def chainTail (m : Nat → Expect → Option (Nat × Nat)) (strict : Bool) (end_ : Nat) : List Expect → Option Nat
  | [] => some end_
  | e :: es =>
    match checkNext strict end_ (m end_ e) with
    | none => none
    | some (_, b) => chainTail m strict b es

/-- The matcher of a list, with its head. -/
def chain (m : Nat → Expect → Option (Nat × Nat)) (strict : Bool) (start : Nat) : List Expect → Option (Nat × Nat)
  | [] => none
  | e :: es =>
    match checkNext strict start (m start e) with
    | none => none
    | some (a, b) =>
      match chainTail m strict b es with
      | none => none
      | some c => some (a, c)

theorem textTail_eq (strict : Bool) (text : List Char) : ∀ (es : List Expect) (n : Nat),
    textAt.textTail strict text n es = chainTail (fun st e => textAt false text st e) strict n es
  | [], n => by simp [textAt.textTail, chainTail]
  | e :: es, n => by
    simp only [textAt.textTail, chainTail]
    cases checkNext strict n (textAt false text n e) with
    | none => rfl
    | some r => exact textTail_eq strict text es _

theorem lineTail_eq (strict : Bool) (lines : List (List Char)) : ∀ (es : List Expect) (n : Nat),
    lineAt.lineTail strict lines n es = chainTail (fun st e => lineAt false lines st e) strict n es
  | [], n => by simp [lineAt.lineTail, chainTail]
  | e :: es, n => by
    simp only [lineAt.lineTail, chainTail]
    cases checkNext strict n (lineAt false lines n e) with
    | none => rfl
    | some r => exact lineTail_eq strict lines es _

theorem textAt_seq (strict : Bool) (text : List Char) (start : Nat) (l : List Expect) :
    textAt strict text start (.seq l) = chain (fun st e => textAt false (normSeps text) st e) strict start l := by
  cases l with
  | nil => simp [textAt, chain]
  | cons e es =>
    simp only [textAt, chain, textTail_eq]
    cases checkNext strict start (textAt false (normSeps text) start e) with
    | none => rfl
    | some r =>
      simp only
      cases chainTail (fun st e => textAt false (normSeps text) st e) strict r.2 es <;> rfl

theorem lineAt_seq (strict : Bool) (lines : List (List Char)) (start : Nat) (l : List Expect) :
    lineAt strict lines start (.seq l) = chain (fun st e => lineAt false lines st e) strict start l := by
  cases l with
  | nil => simp [lineAt, chain]
  | cons e es =>
    simp only [lineAt, chain, lineTail_eq]
    cases checkNext strict start (lineAt false lines start e) with
    | none => rfl
    | some r =>
      simp only
      cases chainTail (fun st e => lineAt false lines st e) strict r.2 es <;> rfl

theorem checkNext_some {strict : Bool} {start a b : Nat} {r : Option (Nat × Nat)} (h : checkNext strict start r = some (a, b)) :
    r = some (a, b) ∧ start ≤ a ∧ (strict = true → a = start) := by
  unfold checkNext at h
  cases r with
  | none => simp at h
  | some p =>
    obtain ⟨x, y⟩ := p
    simp only at h
    split at h
    · simp at h
    · rename_i hn
      simp only [Option.some.injEq, Prod.mk.injEq] at h
      obtain ⟨rfl, rfl⟩ := h
      simp only [Bool.or_eq_true, decide_eq_true_eq, Bool.and_eq_true, bne_iff_ne, not_or, not_and, Decidable.not_not] at hn
      exact ⟨rfl, by omega, hn.2⟩

theorem chain_sound {m : Nat → Expect → Option (Nat × Nat)} {found : Expect → Nat → Nat → Prop} {strict : Bool} : ∀ {es : List Expect} {e : Expect}
    {start a c : Nat}, (∀ x ∈ e :: es, ∀ p a b, m p x = some (a, b) → found x a b) → chain m strict start (e :: es) = some (a, c) →
    InSequence found strict start (e :: es) a c
  | [], e, start, a, c, hm, h => by
    simp only [chain, chainTail] at h
    split at h
    · simp at h
    · rename_i x y hx
      simp only [Option.some.injEq, Prod.mk.injEq] at h
      obtain ⟨rfl, rfl⟩ := h
      obtain ⟨h1, h2, h3⟩ := checkNext_some hx
      exact .last h2 h3 (hm e (by simp) _ _ _ h1)
  | e' :: es, e, start, a, c, hm, h => by
    simp only [chain] at h
    split at h
    · simp at h
    · rename_i x y hx
      obtain ⟨h1, h2, h3⟩ := checkNext_some hx
      split at h
      · simp at h
      · rename_i c' hc
        simp only [Option.some.injEq, Prod.mk.injEq] at h
        obtain ⟨rfl, rfl⟩ := h
        simp only [chainTail] at hc
        split at hc
        · simp at hc
        · rename_i x' y' hx'
          have : chain m strict y (e' :: es) = some (x', c') := by
            simp only [chain, hx', hc]
          exact .next h2 h3 (hm e (by simp) _ _ _ h1) (chain_sound (fun z hz => hm z (by simp [List.mem_cons.1 hz])) this)

theorem chain_complete {m : Nat → Expect → Option (Nat × Nat)} {found : Expect → Nat → Nat → Prop} {strict : Bool} {l : List Expect} {start a c : Nat}
    (h : InSequence found strict start l a c) :
    (∀ x ∈ l, ∀ p a b, found x a b → p ≤ a → ∃ a' b', m p x = some (a', b') ∧ p ≤ a' ∧ a' ≤ a ∧ b' ≤ b ∧ (a' = a → b' = b)) →
    ∀ start', start' ≤ start → (strict = true → start' = start) →
    ∃ a' c', chain m strict start' l = some (a', c') ∧ a' ≤ a ∧ c' ≤ c := by
  induction h with
  | @last start a b e h1 h2 h3 =>
    intro hm start' hs hss
    obtain ⟨a', b', hm1, hm2, hm3, hm4, _⟩ := hm e (by simp) start' a b h3 (by omega)
    refine ⟨a', b', ?_, hm3, hm4⟩
    have : checkNext strict start' (m start' e) = some (a', b') := by
      rw [hm1]
      simp only [checkNext]
      rw [if_neg]
      simp only [Bool.or_eq_true, decide_eq_true_eq, Bool.and_eq_true, bne_iff_ne, not_or, not_and, Decidable.not_not]
      refine ⟨by omega, ?_⟩
      intro hst
      have := h2 hst; have := hss hst; omega
    simp only [chain, chainTail, this]
  | @next start a b a2 c e es h1 h2 h3 hrest ih =>
    intro hm start' hs hss
    obtain ⟨a', b', hm1, hm2, hm3, hm4, hm5⟩ := hm e (by simp) start' a b h3 (by omega)
    have hck : checkNext strict start' (m start' e) = some (a', b') := by
      rw [hm1]
      simp only [checkNext]
      rw [if_neg]
      simp only [Bool.or_eq_true, decide_eq_true_eq, Bool.and_eq_true, bne_iff_ne, not_or, not_and, Decidable.not_not]
      refine ⟨by omega, ?_⟩
      intro hst
      have := h2 hst; have := hss hst; omega
    obtain ⟨a3, c3, h5, h6, h7⟩ := ih (fun x hx => hm x (by simp [hx])) b' hm4 (by
      intro hst
      apply hm5
      have := h2 hst; have := hss hst; omega)
    refine ⟨a', c3, ?_, hm3, h7⟩
    have htail : chainTail m strict b' es = some c3 := by
      cases es with
      | nil => simp [chain] at h5
      | cons e' es' =>
        simp only [chain] at h5
        simp only [chainTail]
        split at h5
        · simp at h5
        · rename_i x y hx
          split at h5
          · simp at h5
          · rename_i c' hc'
            simp only [Option.some.injEq, Prod.mk.injEq] at h5
            rw [hc', h5.2]
    simp only [chain, hck, htail]

/-! ## Single expectations -/

theorem textAt_found {text : List Char} {e : Expect} (hs : e.single = true) {p a b : Nat} (h : textAt false text p e = some (a, b)) :
    InText (normSeps text) e a b := by
  cases e with
  | seq l => simp [Expect.single] at hs
  | str s =>
    simp only [textAt, Bool.false_eq_true, if_false] at h
    split at h
    · rename_i i hi
      simp only [Option.some.injEq, Prod.mk.injEq] at h
      obtain ⟨rfl, rfl⟩ := h
      exact ⟨(pyFind_some hi).2.1, rfl⟩
    · simp at h
  | pat q =>
    simp only [textAt, Bool.false_eq_true, if_false] at h
    exact ⟨p, h⟩

theorem textAt_finds {text : List Char} {e : Expect} (hs : e.isStr = true) (p a b : Nat) (h : InText (normSeps text) e a b) (hp : p ≤ a) :
    ∃ a' b', textAt false text p e = some (a', b') ∧ p ≤ a' ∧ a' ≤ a ∧ b' ≤ b ∧ (a' = a → b' = b) := by
  cases e with
  | seq l => simp [Expect.isStr] at hs
  | pat q => simp [Expect.isStr] at hs
  | str s =>
    obtain ⟨ho, rfl⟩ := h
    simp only [textAt, Bool.false_eq_true, if_false]
    cases hf : pyFind (normSeps text) s p with
    | none => exact absurd ho (pyFind_none hf a hp)
    | some i =>
      obtain ⟨h1, _, h3⟩ := pyFind_some hf
      have := h3 a hp ho
      exact ⟨i, i + s.length, rfl, h1, this, by omega, by omega⟩

theorem firstLine_some {q : List Char → Bool} : ∀ {ls : List (List Char)} {i a b : Nat}, firstLine q ls i = some (a, b) →
    i ≤ a ∧ b = a + 1 ∧ ∃ l, ls[a - i]? = some l ∧ q l = true
  | [], _, _, _, h => by simp [firstLine] at h
  | l :: ls, i, a, b, h => by
    simp only [firstLine] at h
    split at h
    · rename_i hq
      simp only [Option.some.injEq, Prod.mk.injEq] at h
      obtain ⟨rfl, rfl⟩ := h
      exact ⟨Nat.le_refl _, rfl, l, by simp, hq⟩
    · obtain ⟨h1, h2, l', h3, h4⟩ := firstLine_some h
      refine ⟨by omega, h2, l', ?_, h4⟩
      have : a - i = (a - (i + 1)) + 1 := by omega
      rw [this]
      simpa using h3

theorem firstLine_finds {q : List Char → Bool} : ∀ {ls : List (List Char)} {i a : Nat} {l : List Char}, i ≤ a → ls[a - i]? = some l → q l = true →
    ∃ a', firstLine q ls i = some (a', a' + 1) ∧ i ≤ a' ∧ a' ≤ a
  | [], _, _, _, _, h, _ => by simp at h
  | x :: xs, i, a, l, hi, h, hq => by
    simp only [firstLine]
    by_cases hx : q x = true
    · rw [if_pos hx]; exact ⟨i, rfl, Nat.le_refl _, hi⟩
    · rw [if_neg hx]
      have hne : a ≠ i := by
        rintro rfl
        simp at h
        subst h
        exact hx hq
      have e : a - i = (a - (i + 1)) + 1 := by omega
      rw [e] at h
      obtain ⟨a', h1, h2, h3⟩ := firstLine_finds (i := i + 1) (a := a) (by omega) (by simpa using h) hq
      exact ⟨a', h1, by omega, h3⟩

theorem pyFind_isSome {hay needle : List Char} : (pyFind hay needle 0).isSome = true ↔ ∃ i, OccursAt needle hay i := by
  constructor
  · intro h
    cases hf : pyFind hay needle 0 with
    | none => simp [hf] at h
    | some i => exact ⟨i, (pyFind_some hf).2.1⟩
  · rintro ⟨i, ho⟩
    cases hf : pyFind hay needle 0 with
    | none => exact absurd ho (pyFind_none hf i (Nat.zero_le _))
    | some i => rfl

theorem inLine_iff {lines : List (List Char)} {e : Expect} {a b : Nat} :
    InLine lines e a b ↔ b = a + 1 ∧ ∃ l, lines[a]? = some l ∧ e.onLine l = true := by
  cases e with
  | str s =>
    simp only [InLine, Expect.onLine]
    constructor
    · rintro ⟨h1, l, h2, h3⟩; exact ⟨h1, l, h2, pyFind_isSome.2 h3⟩
    · rintro ⟨h1, l, h2, h3⟩; exact ⟨h1, l, h2, pyFind_isSome.1 h3⟩
  | pat p =>
    simp only [InLine, Expect.onLine]
    constructor
    · rintro ⟨h1, l, h2, r, h3⟩; exact ⟨h1, l, h2, by simp [h3]⟩
    · rintro ⟨h1, l, h2, h3⟩; exact ⟨h1, l, h2, Option.isSome_iff_exists.1 h3⟩
  | seq l =>
    simp [InLine, Expect.onLine]

theorem lineAt_single {lines : List (List Char)} {e : Expect} (hs : e.single = true) (p : Nat) :
    lineAt false lines p e = firstLine e.onLine (lines.drop p) p := by
  cases e with
  | seq l => simp [Expect.single] at hs
  | str s => simp [lineAt]
  | pat q => simp [lineAt]

theorem lineAt_found {lines : List (List Char)} {e : Expect} (hs : e.single = true) {p a b : Nat} (h : lineAt false lines p e = some (a, b)) :
    InLine lines e a b := by
  rw [lineAt_single hs] at h
  obtain ⟨h1, h2, l, h3, h4⟩ := firstLine_some h
  rw [inLine_iff]
  refine ⟨h2, l, ?_, h4⟩
  rw [List.getElem?_drop] at h3
  have : p + (a - p) = a := by omega
  rwa [this] at h3

theorem lineAt_finds {lines : List (List Char)} {e : Expect} (hs : e.single = true) (p a b : Nat) (h : InLine lines e a b) (hp : p ≤ a) :
    ∃ a' b', lineAt false lines p e = some (a', b') ∧ p ≤ a' ∧ a' ≤ a ∧ b' ≤ b ∧ (a' = a → b' = b) := by
  rw [inLine_iff] at h
  obtain ⟨rfl, l, h2, h3⟩ := h
  rw [lineAt_single hs]
  have : p + (a - p) = a := by omega
  obtain ⟨a', h4, h5, h6⟩ := firstLine_finds (ls := lines.drop p) hp (by rw [List.getElem?_drop, this]; exact h2) h3
  exact ⟨a', a' + 1, h4, h5, h6, by omega, by omega⟩

theorem buildable_seq {l : List Expect} (hne : l ≠ []) (hs : ∀ e ∈ l, e.single = true) : (Expect.seq l).buildable = true := by
  have : ∀ l : List Expect, (∀ e ∈ l, e.single = true) → Expect.buildable.buildableAll l = true := by
    intro l
    induction l with
    | nil => intro _; rfl
    | cons e es ih =>
      intro h
      simp only [Expect.buildable.buildableAll, Bool.and_eq_true]
      refine ⟨?_, ih fun x hx => h x (by simp [hx])⟩
      cases e with
      | seq l => have := h (.seq l) (by simp); simp [Expect.single] at this
      | str s => rfl
      | pat p => rfl
  simp only [Expect.buildable, this l hs, Bool.and_true, Bool.not_eq_true', List.isEmpty_eq_false_iff]
  exact hne

/-! ## C58 -/

/-- C58: matching text with a list of strings and regular expressions succeeds only if they are found one after another in the text (with normalised line
ends) without overlap; the reported range goes from the beginning of the first to the end of the last.  With strict=True nothing lies between them. -/
theorem C58_text_sound (strict : Bool) (l : List Expect) (hs : ∀ e ∈ l, e.single = true) (text : List Char) (a c : Nat)
    (h : textMatch strict (.seq l) text = .ok (some (a, c))) : InSequence (InText (normSeps (normSeps text))) strict 0 l a c := by
  unfold textMatch at h
  split at h
  · simp only [Except.ok.injEq, textAt_seq] at h
    cases l with
    | nil => simp [chain] at h
    | cons e es => exact chain_sound (fun x hx p a b hm => textAt_found (hs x hx) hm) h
  · cases h

/-- C58: normalising line ends replaces each `\r\n` by `\n` and nothing else. -/
theorem C58_line_ends (ls : List (List Char)) (h : ∀ l ∈ ls, ∀ a b, l ≠ a ++ '\r' :: '\n' :: b) :
    normSeps (['\r', '\n'].intercalate ls) = ['\n'].intercalate ls := by
  have one : ∀ (l rest : List Char), (∀ a b, l ≠ a ++ '\r' :: '\n' :: b) → (rest = [] ∨ rest.head? = some '\r') → normSeps (l ++ rest) = l ++ normSeps rest := by
    intro l rest hl hr
    induction l with
    | nil => rfl
    | cons c l ih =>
      have ih' := ih (fun a b hab => hl (c :: a) b (by rw [hab]; rfl))
      have hne : ∀ cs, c :: (l ++ rest) ≠ '\r' :: '\n' :: cs := by
        intro cs hcs
        simp only [List.cons.injEq] at hcs
        obtain ⟨rfl, hcs⟩ := hcs
        cases l with
        | nil =>
          simp only [List.nil_append] at hcs
          rcases hr with rfl | hr
          · cases hcs
          · rw [hcs] at hr; simp at hr
        | cons d l =>
          simp only [List.cons_append, List.cons.injEq] at hcs
          obtain ⟨rfl, _⟩ := hcs
          exact hl [] l rfl
      rw [List.cons_append, normSeps]
      · rw [ih']; rfl
      · intro cs h1 h2; exact hne cs (by rw [h1, h2])
  induction ls with
  | nil => rfl
  | cons l ls ih =>
    have h1 := h l (List.mem_cons_self ..)
    cases ls with
    | nil =>
      have := one l [] h1 (.inl rfl)
      simpa [List.intercalate, normSeps] using this
    | cons m ms =>
      have e : ∀ sep : List Char, sep.intercalate (l :: m :: ms) = l ++ (sep ++ sep.intercalate (m :: ms)) := by
        intro sep; simp [List.intercalate]
      rw [e, e, one l _ h1 (.inr rfl), ← ih (fun x hx => h x (List.mem_cons_of_mem _ hx))]
      rfl

example : normSeps "a\r\nb\rc\n".toList = "a\nb\rc\n".toList := by decide

/-- C58: if the expectations are strings, matching finds them wherever they are in the text in this order, and reports a range that begins and ends as early as
possible. -/
theorem C58_text_complete (strict : Bool) (l : List Expect) (hs : ∀ e ∈ l, e.isStr = true) (text : List Char) (a c : Nat)
    (h : InSequence (InText (normSeps (normSeps text))) strict 0 l a c) :
    ∃ a' c', textMatch strict (.seq l) text = .ok (some (a', c')) ∧ a' ≤ a ∧ c' ≤ c := by
  obtain ⟨a', c', h1, h2, h3⟩ := chain_complete (m := fun st e => textAt false (normSeps text) st e) h
    (fun x hx p a b hf hp => textAt_finds (hs x hx) p a b hf hp) 0 (Nat.le_refl _) (fun _ => rfl)
  refine ⟨a', c', ?_, h2, h3⟩
  unfold textMatch
  rw [if_pos]
  · rw [textAt_seq, h1]
  · apply buildable_seq
    · rintro rfl; cases h
    · intro e he
      have := hs e he
      cases e with
      | str s => rfl
      | pat p => simp [Expect.isStr] at this
      | seq l => simp [Expect.isStr] at this

/-- C58: matching lines with a non-empty list of strings and regular expressions succeeds exactly if there are as many lines, in this order, that meet them (adjacent
ones from the first line on with strict=True), and then reports the earliest possible range of lines. -/
theorem C58_lines_exact (strict : Bool) (l : List Expect) (hne : l ≠ []) (hs : ∀ e ∈ l, e.single = true) (lines : List (List Char)) :
    ((∃ a c, InSequence (InLine lines) strict 0 l a c) ∧ ∃ a c, lineMatch strict (.seq l) lines = .ok (some (a, c)) ∧
      InSequence (InLine lines) strict 0 l a c ∧ ∀ a' c', InSequence (InLine lines) strict 0 l a' c' → a ≤ a' ∧ c ≤ c') ∨
    ((¬ ∃ a c, InSequence (InLine lines) strict 0 l a c) ∧ lineMatch strict (.seq l) lines = .ok none) := by
  have hb := buildable_seq hne hs
  simp only [lineMatch, hb, if_true, lineAt_seq]
  cases hc : chain (fun st e => lineAt false lines st e) strict 0 l with
  | none =>
    right
    refine ⟨?_, rfl⟩
    rintro ⟨a, c, h⟩
    obtain ⟨a', c', h1, _⟩ := chain_complete (m := fun st e => lineAt false lines st e) h
      (fun x hx p a b hf hp => lineAt_finds (hs x hx) p a b hf hp) 0 (Nat.le_refl _) (fun _ => rfl)
    rw [hc] at h1; cases h1
  | some r =>
    obtain ⟨a, c⟩ := r
    left
    have hseq : InSequence (InLine lines) strict 0 l a c := by
      cases l with
      | nil => exact absurd rfl hne
      | cons e es => exact chain_sound (fun x hx p a b hm => lineAt_found (hs x hx) hm) hc
    refine ⟨⟨a, c, hseq⟩, a, c, rfl, hseq, ?_⟩
    intro a' c' h
    obtain ⟨a2, c2, h1, h2, h3⟩ := chain_complete (m := fun st e => lineAt false lines st e) h
      (fun x hx p a b hf hp => lineAt_finds (hs x hx) p a b hf hp) 0 (Nat.le_refl _) (fun _ => rfl)
    rw [hc] at h1
    simp only [Option.some.injEq, Prod.mk.injEq] at h1
    omega

theorem textMatch_string (s text : List Char) :
    (textMatch false (.str s) text ≠ .ok none ↔ ∃ i, OccursAt s (normSeps text) i) ∧
    (textMatch true (.str s) text ≠ .ok none ↔ normSeps text = s) := by
  constructor
  · simp only [textMatch, Expect.buildable, if_true, textAt, Bool.false_eq_true, if_false, ← pyFind_isSome]
    cases pyFind (normSeps text) s 0 with
    | none => simp
    | some i => simp
  · simp only [textMatch, Expect.buildable, if_true, textAt, List.drop_zero]
    by_cases h : normSeps text = s
    · simp [h]
    · simp [h]

/-- C58: one string matches text exactly if it is part of it, and its first occurrence is reported; with strict=True exactly if it is all of the text.  Line ends are
normalised before. -/
theorem C58_text_string (s text : List Char) :
    (∀ a b, textMatch false (.str s) text = .ok (some (a, b)) ↔
      OccursAt s (normSeps text) a ∧ b = a + s.length ∧ ∀ a', OccursAt s (normSeps text) a' → a ≤ a') ∧
    (textMatch false (.str s) text = .ok none ↔ ∀ i, ¬ OccursAt s (normSeps text) i) ∧
    textMatch true (.str s) text = .ok (if normSeps text = s then some (0, s.length) else none) := by
  simp only [textMatch, Expect.buildable, if_true, textAt, Bool.false_eq_true, if_false, List.drop_zero, Nat.zero_add]
  refine ⟨?_, ?_, trivial⟩
  · intro a b
    cases hf : pyFind (normSeps text) s 0 with
    | none =>
      simp only [Except.ok.injEq, reduceCtorEq, false_iff]
      exact fun h => pyFind_none hf a (Nat.zero_le _) h.1
    | some i =>
      obtain ⟨_, h1, h2⟩ := pyFind_some hf
      simp only [Except.ok.injEq, Option.some.injEq, Prod.mk.injEq]
      constructor
      · rintro ⟨rfl, rfl⟩
        exact ⟨h1, rfl, fun a' h => h2 a' (Nat.zero_le _) h⟩
      · rintro ⟨h3, rfl, h4⟩
        have := Nat.le_antisymm (h2 a (Nat.zero_le _) h3) (h4 i h1)
        exact ⟨this, by rw [this]⟩
  · cases hf : pyFind (normSeps text) s 0 with
    | none => simp only [true_iff]; exact fun i => pyFind_none hf i (Nat.zero_le _)
    | some i =>
      simp only [Except.ok.injEq, reduceCtorEq, false_iff]
      exact fun h => h i (pyFind_some hf).2.1

/-- C58: one string matches lines exactly if it is part of one, and the first such line is reported; with strict=True exactly if all lines are equal to it. -/
theorem C58_line_string (s : List Char) (lines : List (List Char)) :
    (∀ a b, lineMatch false (.str s) lines = .ok (some (a, b)) ↔
      (InLine lines (.str s) a b ∧ ∀ a', a' < a → ¬ InLine lines (.str s) a' (a' + 1))) ∧
    lineMatch true (.str s) lines = .ok (if ∀ l ∈ lines, l = s then some (0, lines.length) else none) := by
  constructor
  · intro a b
    simp only [lineMatch, Expect.buildable, if_true, Except.ok.injEq]
    constructor
    · intro h
      refine ⟨lineAt_found rfl h, ?_⟩
      intro a' ha hi
      obtain ⟨a2, b2, h1, h2, h3, h4, _⟩ := lineAt_finds (e := .str s) rfl 0 a' (a' + 1) hi (Nat.zero_le _)
      rw [h] at h1
      simp only [Option.some.injEq, Prod.mk.injEq] at h1
      omega
    · rintro ⟨hi, hno⟩
      obtain ⟨a2, b2, h1, h2, h3, h4, h5⟩ := lineAt_finds (e := .str s) rfl 0 a b hi (Nat.zero_le _)
      have h6 := lineAt_found (e := .str s) rfl h1
      have hb2 : b2 = a2 + 1 := (inLine_iff.1 h6).1
      have ha : a2 = a := by
        apply Classical.byContradiction
        intro hne
        apply hno a2 (by omega)
        rw [← hb2]; exact h6
      rw [h1, h5 ha, ha]
  · simp only [lineMatch, Expect.buildable, if_true, lineAt, linesStrict, List.drop_zero]
    by_cases h : lines.all (Expect.str s).onLineStrict = true
    · rw [if_pos h]
      simp only [List.all_eq_true, Expect.onLineStrict, beq_iff_eq] at h
      rw [if_pos fun l hl => (h l hl).symm, Nat.zero_add]
    · rw [if_neg h]
      simp only [List.all_eq_true, Expect.onLineStrict, beq_iff_eq] at h
      rw [if_neg fun h2 => h fun l hl => (h2 l hl).symm]

/-- C58: an empty list of expectations is rejected, and so is, for lines, a regular expression that is not in a list. -/
theorem C58_rejected_violated (strict : Bool) (p : Pat) (text : List Char) (lines : List (List Char)) :
    textMatch strict (.seq []) text = .error .valueError ∧ lineMatch strict (.seq []) lines = .error .valueError ∧
    lineMatch strict (.pat p) lines = .error .typeError := ⟨rfl, rfl, rfl⟩

/-- A pattern for any single character 'x', leftmost. -/
def samplePat : Pat :=
  { atPos := fun t p => if (t.drop p).head? = some 'x' then some (p, p + 1) else none
    search := fun t p => match pyFind t ['x'] p with
      | some i => some (i, i + 1)
      | none => none }

example : (Expect.pat samplePat).Honest := by
  intro text pos a b h
  simp only [samplePat] at h
  split at h
  · rename_i i hi
    simp only [Option.some.injEq, Prod.mk.injEq] at h
    obtain ⟨rfl, rfl⟩ := h
    have h1 := pyFind_some hi
    have h2 := h1.2.1.le
    simp at h2
    exact ⟨h1.1, by omega, h2⟩
  · simp at h
example : textMatch false (.seq [.str "ab".toList, .pat samplePat, .str "b".toList]) "--ab\r\n x b".toList = .ok (some (2, 9)) := rfl
example : textMatch false (.seq [.str "b".toList, .str "ab".toList]) "ab".toList = .ok none := rfl
example : lineMatch false (.seq [.str "a".toList, .str "b".toList]) ["xa".toList, "c".toList, "b".toList] = .ok (some (0, 3)) := rfl
example : lineMatch true (.seq [.str "a".toList, .str "b".toList]) ["xa".toList, "c".toList, "b".toList] = .ok none := rfl

/-! ## C69 -/

theorem isLineEnd_iff (c : Char) : isLineEnd c = true ↔ c ∈ lineEnds := by
  simp [isLineEnd, lineEnds, or_assoc]

theorem notEnd_iff (c : Char) : isLineEnd c = false ↔ c ∉ lineEnds := by
  rw [← isLineEnd_iff, Bool.not_eq_true]

theorem notEnd_all {l : List Char} (h : ∀ c ∈ l, c ∉ lineEnds) : ∀ c ∈ l, isLineEnd c = false := fun c hc => (notEnd_iff c).2 (h c hc)

theorem splitAux_last {l : List Char} (h : ∀ c ∈ l, isLineEnd c = false) : ∀ acc : List Char, acc ++ l ≠ [] → splitLinesAux acc l = [(acc ++ l, [])] := by
  induction l with
  | nil =>
    intro acc hne
    rw [splitLinesAux, if_neg (by simpa using hne)]
    simp
  | cons c l ih =>
    intro acc _
    have hc := h c List.mem_cons_self
    rw [splitLinesAux, if_neg (by simp [hc]), ih (fun x hx => h x (List.mem_cons_of_mem _ hx))]
    · simp
    · simp
    · rintro cs rfl
      exact absurd hc (by decide)

theorem splitAux_line {l stop rest : List Char} (h : ∀ c ∈ l, isLineEnd c = false)
    (hs : stop = ['\r', '\n'] ∨ ∃ c, isLineEnd c = true ∧ stop = [c] ∧ (c = '\r' → rest.head? ≠ some '\n')) : ∀ acc : List Char,
    splitLinesAux acc (l ++ stop ++ rest) = (acc ++ l, stop) :: splitLinesAux [] rest := by
  induction l with
  | nil =>
    intro acc
    rcases hs with rfl | ⟨c, hc, rfl, hr⟩
    · simp [splitLinesAux]
    · rw [List.nil_append, List.cons_append, List.nil_append, splitLinesAux, if_pos hc, List.append_nil]
      intro cs h1 h2
      subst h2
      exact hr h1 rfl
  | cons c l ih =>
    intro acc
    have hc := h c List.mem_cons_self
    rw [List.cons_append, List.cons_append, splitLinesAux, if_neg (by simp [hc]), ih (fun x hx => h x (List.mem_cons_of_mem _ hx))]
    · simp
    · rintro cs rfl
      exact absurd hc (by decide)

theorem splitAux_withEnds : ∀ (acc t : List Char), (∀ c ∈ acc, isLineEnd c = false) → LinesWithEnds (acc ++ t) (splitLinesAux acc t) := by
  intro acc t
  induction acc, t using splitLinesAux.induct with
  | case1 acc h =>
    intro _
    simp only [splitLinesAux, if_pos h]
    have : acc = [] := by simpa using h
    subst this
    exact .none
  | case2 acc h =>
    intro hacc
    simp only [splitLinesAux, if_neg h, List.append_nil]
    exact .last (by simpa using h) fun c hc => (notEnd_iff c).1 (hacc c hc)
  | case3 acc cs ih =>
    intro hacc
    simp only [splitLinesAux]
    have := LinesWithEnds.line (fun c hc => (notEnd_iff c).1 (hacc c hc)) (.inl rfl) (ih (by simp))
    simpa using this
  | case4 acc c cs hnot h ih =>
    intro hacc
    rw [splitLinesAux]
    · rw [if_pos h]
      have := LinesWithEnds.line (stop := [c]) (fun c hc => (notEnd_iff c).1 (hacc c hc)) (.inr ⟨c, (isLineEnd_iff c).1 h, rfl, fun h1 h2 => by
        cases cs with
        | nil => cases h2
        | cons x cs =>
          simp only [List.nil_append, List.head?_cons, Option.some.injEq] at h2
          subst h1 h2
          exact hnot cs rfl rfl⟩) (ih (by simp))
      simpa using this
    · exact hnot
  | case5 acc c cs hnot h ih =>
    intro hacc
    rw [splitLinesAux]
    · rw [if_neg h]
      have := ih (by
        intro x hx
        rcases List.mem_append.1 hx with hx | hx
        · exact hacc x hx
        · simp at hx; subst hx; simpa using h)
      simpa using this
    · exact hnot

theorem withEnds_unique {t : List Char} {ps : List (List Char × List Char)} (h : LinesWithEnds t ps) : ps = splitLinesAux [] t := by
  induction h with
  | none => rfl
  | last hne hl => rw [splitAux_last (notEnd_all hl) [] (by simpa using hne)]; rfl
  | line hl hs _ ih =>
    rw [splitAux_line (notEnd_all hl) (hs.imp id fun ⟨c, h1, h2, h3⟩ => ⟨c, (isLineEnd_iff c).2 h1, h2, h3⟩), ih]
    rfl

/-- C69: the output filter takes the output apart into its lines, drops exactly those that begin with one of the prefixes or match one of the patterns, and keeps all
others, with their line ends, in their order. -/
theorem C69_filter (prefixes : List (List Char)) (patterns : List Pat) (output : List Char) :
    ∃ ps, LinesWithEnds output ps ∧ (∀ qs, LinesWithEnds output qs → qs = ps) ∧ ∃ lines kept : List (List Char), lines = ps.map (fun p => p.1 ++ p.2) ∧
      outputFilter (some prefixes) (some patterns) output = kept.flatten ∧ kept.Sublist lines ∧
      (∀ l ∈ lines, l ∈ kept ↔ (¬ ∃ p ∈ prefixes, p <+: l) ∧ ¬ ∃ p ∈ patterns, ∃ r, p.atPos l 0 = some r) ∧
      (∀ l, l ∈ kept → kept.count l = lines.count l) := by
  refine ⟨_, splitAux_withEnds [] output (by simp), fun qs h => withEnds_unique h, splitLinesKeep output, _, rfl, rfl, List.filter_sublist, ?_, ?_⟩
  · intro l hl
    simp only [Option.getD_some, List.mem_filter, hl, true_and, Bool.and_eq_true, Bool.not_eq_true', List.any_eq_false, List.isPrefixOf_iff_prefix,
      not_exists, not_and]
    constructor
    · rintro ⟨h1, h2⟩
      exact ⟨h1, fun p hp r hr => by have := h2 p hp; simp [hr] at this⟩
    · rintro ⟨h1, h2⟩
      refine ⟨h1, fun p hp => ?_⟩
      cases hr : p.atPos l 0 with
      | none => simp
      | some r => exact absurd hr (h2 p hp r)
  · intro l hl
    rw [List.count_filter]
    simpa using (List.mem_filter.1 hl).2

example : LinesWithEnds "a\r\n\nb".toList [("a".toList, ['\r', '\n']), ([], ['\n']), ("b".toList, [])] := splitAux_withEnds [] _ (by simp)

/-- C69: without arguments the lines that begin with 'pid' or 'rc' are dropped. -/
theorem C69_defaults (output : List Char) :
    outputFilter none none output = outputFilter (some ["pid".toList, "rc".toList]) (some []) output := rfl

example : outputFilter none none "pid 1\nhello\r\nrc 0\nbye".toList = "hello\r\nbye".toList := by decide +kernel

/-! ## C70 -/

/-- C70: exactly one of text and lines, and exactly one of expected text and expected lines, must be given; otherwise ValueError is raised. -/
theorem C70_exclusive (ansi : List Char → List Char) (text : Option (List Char)) (lines : Option (List (List Char))) (et el : Option Expect)
    (strip strict : Bool) (h : (text.isSome = lines.isSome) ∨ (et.isSome = el.isSome)) :
    expectOutput ansi text lines et el strip strict = .error .valueError := by
  unfold expectOutput
  rcases h with h | h
  · rw [if_pos h]
  · by_cases h' : text.isSome = lines.isSome
    · rw [if_pos h']
    · rw [if_neg h', if_pos h]

/-- C70: an expected string is found in text exactly if it is part of the text, after escape sequences have been removed (unless disabled) and line ends
normalised; lines count as text joined with newlines. -/
theorem C70_text (ansi : List Char → List Char) (strip : Bool) (given : List Char ⊕ List (List Char)) (s : List Char) :
    let text : List Char := match given with
      | .inl t => t
      | .inr ls => ['\n'].intercalate ls
    let seen := normSeps (if strip then ansi text else text)
    let args (strict : Bool) := expectOutput ansi given.getLeft? given.getRight? (some (.str s)) none strip strict
    (args false = .ok true ↔ ∃ i, OccursAt s seen i) ∧ (args true = .ok true ↔ seen = s) ∧ ∀ strict, ∃ b, args strict = .ok b := by
  have key : ∀ (t : List Char) (strict : Bool), ∃ r, textMatch strict (.str s) t = .ok r := by
    intro t strict
    simp [textMatch, Expect.buildable]
  have main : ∀ (t : List Char), ((match textMatch false (.str s) t with
        | .ok r => (.ok r.isSome : Res Bool)
        | .error x => .error x) = .ok true ↔ ∃ i, OccursAt s (normSeps t) i) ∧ ((match textMatch true (.str s) t with
        | .ok r => (.ok r.isSome : Res Bool)
        | .error x => .error x) = .ok true ↔ normSeps t = s) := by
    intro t
    obtain ⟨h1, h2⟩ := textMatch_string s t
    constructor
    · rw [← h1]
      obtain ⟨r, hr⟩ := key t false
      rw [hr]
      cases r with
      | none => simp
      | some x => simp
    · rw [← h2]
      obtain ⟨r, hr⟩ := key t true
      rw [hr]
      cases r with
      | none => simp
      | some x => simp
  cases given with
  | inl t =>
    refine ⟨(main _).1, (main _).2, ?_⟩
    intro strict
    obtain ⟨r, hr⟩ := key (if strip then ansi t else t) strict
    refine ⟨r.isSome, ?_⟩
    simp only [expectOutput, Sum.getLeft?, Sum.getRight?, Option.isSome, Expect.buildable, hr]
    simp
  | inr ls =>
    refine ⟨(main _).1, (main _).2, ?_⟩
    intro strict
    obtain ⟨r, hr⟩ := key (if strip then ansi (joinNl ls) else joinNl ls) strict
    refine ⟨r.isSome, ?_⟩
    simp only [expectOutput, Sum.getLeft?, Sum.getRight?, Option.isSome, Expect.buildable, Option.getD, hr]
    simp

/-- C70: the lines that text is split into are those between line ends. -/
theorem C70_split_lines (text : List Char) (ps : List (List Char × List Char)) (h : LinesWithEnds text ps) : splitLines text = ps.map (·.1) := by
  rw [withEnds_unique h]; rfl

/-- C70: a list of expected lines is found exactly if there are lines in this order (adjacent from the first on if strict) that meet them; text counts as the lines it is split
into, and escape sequences are removed from each line unless that is disabled. -/
theorem C70_lines (ansi : List Char → List Char) (strip strict : Bool) (given : List Char ⊕ List (List Char)) (l : List Expect) (hne : l ≠ [])
    (hs : ∀ e ∈ l, e.single = true) :
    let lines : List (List Char) := match given with
      | .inl t => splitLines t
      | .inr ls => ls
    let seen := if strip then lines.map ansi else lines
    let result := expectOutput ansi given.getLeft? given.getRight? none (some (.seq l)) strip strict
    (result = .ok true ↔ ∃ a c, InSequence (InLine seen) strict 0 l a c) ∧ ∃ b, result = .ok b := by
  have main : ∀ seen : List (List Char), ((match lineMatch strict (.seq l) seen with
        | .ok r => (.ok r.isSome : Res Bool)
        | .error x => .error x) = .ok true ↔ ∃ a c, InSequence (InLine seen) strict 0 l a c) ∧ ∃ b, (match lineMatch strict (.seq l) seen with
        | .ok r => (.ok r.isSome : Res Bool)
        | .error x => .error x) = .ok b := by
    intro seen
    rcases C58_lines_exact strict l hne hs seen with ⟨h1, a, c, h2, _⟩ | ⟨h1, h2⟩
    · rw [h2]; simp [h1]
    · rw [h2]; simp [h1]
  cases given with
  | inl t => exact main _
  | inr ls => exact main _

example : expectOutput id (some "a\nb".toList) none none (some (.seq [.str "b".toList])) true false = .ok true := rfl

end Verif
