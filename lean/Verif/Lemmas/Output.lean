import Verif.Spec.Output

/-! # Lemmas about output -/

namespace Verif

/-- Lines and rest are determined by the text. -/
theorem IsLines.unique {text : List Char} {ls ls' : List (List Char)} {r r' : List Char} (h : IsLines text ls r) (h' : IsLines text ls' r') :
    ls = ls' ∧ r = r' := by
  have key : ∀ (ls ls' : List (List Char)) (r r' : List Char), ls.flatMap (· ++ ['\n']) ++ r = ls'.flatMap (· ++ ['\n']) ++ r' →
      (∀ l ∈ ls, '\n' ∉ l) → (∀ l ∈ ls', '\n' ∉ l) → '\n' ∉ r → '\n' ∉ r' → ls = ls' ∧ r = r' := by
    -- two texts without newline followed by a newline
    have line : ∀ (l l' x x' : List Char), l ++ '\n' :: x = l' ++ '\n' :: x' → '\n' ∉ l → '\n' ∉ l' → l = l' ∧ x = x' := by
      intro l
      induction l with
      | nil =>
        intro l' x x' h _ h2
        cases l' with
        | nil => simpa using h
        | cons c l' => simp at h h2; exact absurd h.1 h2.1
      | cons c l ih =>
        intro l' x x' h h1 h2
        cases l' with
        | nil => simp at h; simp [h.1] at h1
        | cons c' l' =>
          simp at h h1 h2
          obtain ⟨a, b⟩ := ih l' x x' h.2 h1.2 h2.2
          exact ⟨by rw [h.1, a], b⟩
    intro ls
    induction ls with
    | nil =>
      intro ls' r r' h _ _ hr _
      cases ls' with
      | nil => simpa using h
      | cons l ls' => simp at h; rw [h] at hr; simp at hr
    | cons l ls ih =>
      intro ls' r r' h h1 h2 hr hr'
      cases ls' with
      | nil => simp at h; rw [← h] at hr'; simp at hr'
      | cons l' ls' =>
        simp at h
        obtain ⟨a, b⟩ := line l l' _ _ h (h1 l (by simp)) (h2 l' (by simp))
        obtain ⟨c, d⟩ := ih ls' r r' (by simpa using b) (fun x hx => h1 x (by simp [hx])) (fun x hx => h2 x (by simp [hx])) hr hr'
        exact ⟨by rw [a, c], d⟩
  exact key ls ls' r r' (h.text.symm.trans h'.text) h.lines h'.lines h.rest h'.rest

theorem IsLines.append {t t' : List Char} {ls ls' : List (List Char)} {r r' : List Char} (h : IsLines t ls r) (h' : IsLines (r ++ t') ls' r') :
    IsLines (t ++ t') (ls ++ ls') r' := by
  refine ⟨?_, ?_, h'.rest⟩
  · rw [h.text, List.append_assoc, h'.text]; simp
  · intro l hl
    rcases List.mem_append.mp hl with hl | hl
    · exact h.lines l hl
    · exact h'.lines l hl

theorem IsLines.nil : IsLines [] [] [] := ⟨rfl, by simp, by simp⟩

/-- A line read. -/
theorem readLines_spec (t : List Char) : ∃ ls r, IsLines t ls r ∧
    readLines t = ls.map (· ++ ['\n']) ++ (if r = [] then [] else [r]) := by
  induction t with
  | nil => exact ⟨[], [], IsLines.nil, rfl⟩
  | cons c t ih =>
    obtain ⟨ls, r, h, e⟩ := ih
    by_cases hc : c = '\n'
    · refine ⟨[] :: ls, r, ⟨by simp [hc, h.text], ?_, h.rest⟩, by simp [readLines, hc, e]⟩
      intro l hl
      simp at hl
      rcases hl with rfl | hl
      · simp
      · exact h.lines l hl
    · cases ls with
      | nil =>
        refine ⟨[], c :: r, ⟨by simp [h.text], by simp, by simp [h.rest, Ne.symm hc]⟩, ?_⟩
        simp only [readLines, hc, if_false, e]
        by_cases hr : r = []
        · simp [hr]
        · simp [hr]
      | cons l ls =>
        refine ⟨(c :: l) :: ls, r, ⟨by simp [h.text], ?_, h.rest⟩, by simp [readLines, hc, e]⟩
        intro x hx
        simp at hx
        rcases hx with rfl | hx
        · have := h.lines l (by simp); simp [this, Ne.symm hc]
        · exact h.lines x (by simp [hx])

theorem endsLine_append (l : List Char) : endsLine (l ++ ['\n']) = true := by simp [endsLine]

theorem endsLine_rest {r : List Char} (h : '\n' ∉ r) : endsLine r = false := by
  unfold endsLine
  cases hr : r.getLast? with
  | none => rfl
  | some c =>
    have hm := List.mem_of_getLast? hr
    have : c ≠ '\n' := by rintro rfl; exact h hm
    simp [this]

theorem logLines_spec (ls : List (List Char)) (r : List Char) (h : '\n' ∉ r) :
    logLines (ls.map (· ++ ['\n']) ++ (if r = [] then [] else [r])) = (ls, if r = [] then none else some r) := by
  induction ls with
  | nil =>
    by_cases hr : r = []
    · simp [hr, logLines]
    · simp [hr, logLines, endsLine_rest h]
  | cons l ls ih =>
    simp only [List.map_cons, List.cons_append, logLines, endsLine_append, if_true, ih]
    simp

theorem logCached_spec (ls : List (List Char)) (r : List Char) (h : '\n' ∉ r) :
    OutBuf.logCached (ls.map (· ++ ['\n']) ++ (if r = [] then [] else [r])) = (ls, (ls.flatMap (· ++ ['\n'])).length) := by
  induction ls with
  | nil =>
    by_cases hr : r = []
    · simp [hr, OutBuf.logCached]
    · simp [hr, OutBuf.logCached, endsLine_rest h]
  | cons l ls ih =>
    simp only [List.map_cons, List.cons_append, OutBuf.logCached, endsLine_append, if_true, ih]
    simp
    omega

/-- The buffer holds the rest of a text, and its lines were logged after `old`. -/
structure OutBuf.Plain (old : List (List Char)) (t : List Char) (b : OutBuf) : Prop where
  lines : ∃ ls, IsLines t ls b.text ∧ b.logged = old ++ ls
  isOpen : b.closed = false

theorem OutBuf.Plain.receive {old : List (List Char)} {t : List Char} {b : OutBuf} (h : b.Plain old t) (w : List Char) :
    (b.receive w).Plain old (t ++ w) := by
  obtain ⟨⟨ls, hl, he⟩, hc⟩ := h
  obtain ⟨ls', r, hs, hr⟩ := readLines_spec (b.text ++ w)
  have e : b.receive w = { b with logged := b.logged ++ ls', text := r } := by
    unfold OutBuf.receive
    rw [if_neg (by simp [hc]), hr, logLines_spec ls' r hs.rest]
    by_cases hr : r = []
    · simp [hr]
    · simp [hr]
  rw [e]
  exact ⟨⟨ls ++ ls', hl.append hs, by simp [he]⟩, hc⟩

/-- With cached output. -/
structure OutBuf.Cached (old : List (List Char)) (skip : Nat) (t : List Char) (b : OutBuf) : Prop where
  text : b.text = t
  le : skip ≤ b.pos ∧ b.pos ≤ t.length
  lines : ∃ ls, IsLines (t.drop skip) ls (t.drop b.pos) ∧ b.logged = old ++ ls

theorem OutBuf.Cached.receive {old : List (List Char)} {skip : Nat} {t : List Char} {b : OutBuf} (h : b.Cached old skip t) (w : List Char) :
    (b.receiveCached w).Cached old skip (t ++ w) := by
  obtain ⟨ht, ⟨h1, h2⟩, ls, hl, he⟩ := h
  obtain ⟨ls', r, hs, hr⟩ := readLines_spec ((t ++ w).drop b.pos)
  have e : b.receiveCached w = { b with text := t ++ w, logged := b.logged ++ ls', pos := b.pos + (ls'.flatMap (· ++ ['\n'])).length } := by
    unfold OutBuf.receiveCached
    simp only
    rw [ht, hr, logCached_spec ls' r hs.rest]
  have hd : (t ++ w).drop b.pos = t.drop b.pos ++ w := by rw [List.drop_append]; simp [Nat.sub_eq_zero_of_le h2]
  have hd' : (t ++ w).drop skip = t.drop skip ++ w := by
    rw [List.drop_append]; simp [Nat.sub_eq_zero_of_le (Nat.le_trans h1 h2)]
  have hrest : (t ++ w).drop (b.pos + (ls'.flatMap (· ++ ['\n'])).length) = r := by
    rw [← List.drop_drop, hs.text]; simp
  have hlen : b.pos + (ls'.flatMap (· ++ ['\n'])).length ≤ (t ++ w).length := by
    have h3 : ((t ++ w).drop b.pos).length = (ls'.flatMap (· ++ ['\n']) ++ r).length := by rw [← hs.text]
    rw [List.length_drop, List.length_append (as := ls'.flatMap _)] at h3
    have : b.pos ≤ (t ++ w).length := by simp; omega
    omega
  rw [e]
  refine ⟨rfl, ⟨Nat.le_trans h1 (Nat.le_add_right _ _), hlen⟩, ls ++ ls', ?_, by simp [he]⟩
  show IsLines ((t ++ w).drop skip) (ls ++ ls') ((t ++ w).drop (b.pos + _))
  rw [hrest, hd']
  rw [hd] at hs
  exact hl.append hs

/-! ## Decoding -/

theorem decodeAux_fuel (bad : List UInt8 → Nat) : ∀ (n m : Nat) (bs : List UInt8), bs.length ≤ n → bs.length ≤ m →
    decodeAux bad n bs = decodeAux bad m bs
  | 0, 0, _, _, _ => rfl
  | 0, m + 1, bs, h, _ => by
    have : bs = [] := List.length_eq_zero_iff.mp (by omega)
    subst this; rfl
  | n + 1, 0, bs, _, h => by
    have : bs = [] := List.length_eq_zero_iff.mp (by omega)
    subst this; rfl
  | n + 1, m + 1, [], _, _ => rfl
  | n + 1, m + 1, b :: bs, h1, h2 => by
    simp at h1 h2
    simp only [decodeAux]
    split
    · rename_i c _
      have hc := c.utf8Size_pos
      rw [decodeAux_fuel bad n m _ (by simp; omega) (by simp; omega)]
    · rw [decodeAux_fuel bad n m _ (by simp; omega) (by simp; omega)]

theorem encode_cons (c : Char) (t : List Char) : encode (c :: t) = String.utf8EncodeChar c ++ encode t := by
  simp [encode]

/-- Decoding an encoded text followed by other bytes. -/
theorem decode_encode_append (bad : List UInt8 → Nat) (t : List Char) (bs : List UInt8) :
    decodeReplace bad (encode t ++ bs) = t ++ decodeReplace bad bs := by
  induction t with
  | nil => simp [encode]
  | cons c t ih =>
    have hlen : (String.utf8EncodeChar c).length = c.utf8Size := by simp
    have hpos := c.utf8Size_pos
    rw [encode_cons, List.append_assoc]
    unfold decodeReplace
    cases he : String.utf8EncodeChar c ++ (encode t ++ bs) with
    | nil => simp at he
    | cons b rest =>
      have hd : (b :: rest).toByteArray.utf8DecodeChar? 0 = some c := by
        rw [← he, List.toByteArray_append]
        exact ByteArray.utf8DecodeChar?_utf8EncodeChar_append
      have hdrop : (b :: rest).drop c.utf8Size = encode t ++ bs := by
        rw [← he, ← hlen]; simp
      have hl : (encode t ++ bs).length ≤ rest.length := by
        rw [← hdrop]; simp; omega
      simp only [List.length_cons, decodeAux, hd, hdrop]
      rw [decodeAux_fuel bad rest.length (encode t ++ bs).length _ hl (Nat.le_refl _)]
      simp only [List.cons_append, List.cons.injEq, true_and]
      exact ih

theorem decode_encode (bad : List UInt8 → Nat) (t : List Char) : decodeReplace bad (encode t) = t := by
  have := decode_encode_append bad t []
  simpa [decodeReplace, decodeAux] using this

/-! ## Streams -/

/-- An event that is no exit. -/
def OutEv.notExit : OutEv → Bool
  | .exit => false
  | _ => true

theorem stream_plain (bad : List UInt8 → Nat) (s : Stream) (es : List OutEv) (hne : ∀ e ∈ es, e.notExit = true) :
    ∀ (o : Output) (old : List (List Char)) (t : List Char), (o.stream s).Plain old t →
      ((o.handleAll bad false es).stream s).Plain old (t ++ (chunksOf s es).flatMap (decodeReplace bad)) := by
  induction es with
  | nil => intro o old t h; simpa [Output.handleAll, chunksOf] using h
  | cons e es ih =>
    intro o old t h
    have hne' : ∀ e ∈ es, e.notExit = true := fun x hx => hne x (by simp [hx])
    show (((o.handle bad false e).handleAll bad false es).stream s).Plain _ _
    cases e with
    | io s' bytes =>
      by_cases hs : s' = s
      · subst hs
        have h2 : ((o.handle bad false (.io s' bytes)).stream s').Plain old (t ++ decodeReplace bad bytes) := by
          cases s' <;> exact h.receive _
        have := ih hne' _ old _ h2
        simpa [chunksOf] using this
      · have h2 : ((o.handle bad false (.io s' bytes)).stream s).Plain old t := by
          cases s' <;> cases s <;> first | exact absurd rfl hs | exact h
        have := ih hne' _ old _ h2
        simpa [chunksOf, hs] using this
    | exit => have := hne .exit (by simp); simp [OutEv.notExit] at this
    | shutdown =>
      have h2 : ((o.handle bad false .shutdown).stream s).Plain old t := by cases s <;> exact h
      simpa [chunksOf] using ih hne' _ old _ h2

theorem stream_cached (bad : List UInt8 → Nat) (s : Stream) (es : List OutEv) (hne : ∀ e ∈ es, e.notExit = true) :
    ∀ (o : Output) (old : List (List Char)) (k : Nat) (t : List Char), (o.stream s).Cached old k t →
      ((o.handleAll bad true es).stream s).Cached old k (t ++ (chunksOf s es).flatMap (decodeReplace bad)) := by
  induction es with
  | nil => intro o old k t h; simpa [Output.handleAll, chunksOf] using h
  | cons e es ih =>
    intro o old k t h
    have hne' : ∀ e ∈ es, e.notExit = true := fun x hx => hne x (by simp [hx])
    show (((o.handle bad true e).handleAll bad true es).stream s).Cached _ _ _
    cases e with
    | io s' bytes =>
      by_cases hs : s' = s
      · subst hs
        have h2 : ((o.handle bad true (.io s' bytes)).stream s').Cached old k (t ++ decodeReplace bad bytes) := by
          cases s' <;> exact h.receive _
        have := ih hne' _ old k _ h2
        simpa [chunksOf] using this
      · have h2 : ((o.handle bad true (.io s' bytes)).stream s).Cached old k t := by
          cases s' <;> cases s <;> first | exact absurd rfl hs | exact h
        have := ih hne' _ old k _ h2
        simpa [chunksOf, hs] using this
    | exit => have := hne .exit (by simp); simp [OutEv.notExit] at this
    | shutdown =>
      have h2 : ((o.handle bad true .shutdown).stream s).Cached old k t := by cases s <;> exact h
      simpa [chunksOf] using ih hne' _ old k _ h2

end Verif
