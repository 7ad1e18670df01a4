import Verif.Py.Utf8
import Verif.Lemmas.Output

/-! # Strict decoding -/

namespace Verif

theorem decodeStrictAux_fuel : ∀ (n m : Nat) (bs : List UInt8), bs.length ≤ n → bs.length ≤ m → decodeStrictAux n bs = decodeStrictAux m bs
  | _, _, [], _, _ => by simp [decodeStrictAux]
  | 0, _, _ :: _, h, _ => by simp at h
  | _, 0, _ :: _, _, h => by simp at h
  | n + 1, m + 1, b :: bs, h1, h2 => by
    simp only [List.length_cons] at h1 h2
    simp only [decodeStrictAux]
    split
    · rename_i c _
      have hc := c.utf8Size_pos
      rw [decodeStrictAux_fuel n m _ (by simp; omega) (by simp; omega)]
    · rfl

theorem decodeStrict_cons (c : Char) (bs : List UInt8) :
    decodeStrict (String.utf8EncodeChar c ++ bs) = (decodeStrict bs).map (c :: ·) := by
  have hlen : (String.utf8EncodeChar c).length = c.utf8Size := by simp
  have hpos := c.utf8Size_pos
  unfold decodeStrict
  cases he : String.utf8EncodeChar c ++ bs with
  | nil => simp at he
  | cons b rest =>
    have hd : (b :: rest).toByteArray.utf8DecodeChar? 0 = some c := by
      rw [← he, List.toByteArray_append]
      exact ByteArray.utf8DecodeChar?_utf8EncodeChar_append
    have hdrop : (b :: rest).drop c.utf8Size = bs := by
      rw [← he, ← hlen]; simp
    have hl : bs.length ≤ rest.length := by
      rw [← hdrop]; simp; omega
    simp only [List.length_cons, decodeStrictAux, hd, hdrop]
    rw [decodeStrictAux_fuel rest.length bs.length _ hl (Nat.le_refl _)]

theorem decodeStrict_append (t : List Char) (bs : List UInt8) : decodeStrict (encode t ++ bs) = (decodeStrict bs).map (t ++ ·) := by
  induction t with
  | nil => simp [encode]
  | cons c t ih =>
    rw [encode_cons, List.append_assoc, decodeStrict_cons, ih]
    simp [Option.map_map, Function.comp_def]

theorem decodeStrict_encode (t : List Char) : decodeStrict (encode t) = some t := by
  have := decodeStrict_append t []
  simpa [decodeStrict, decodeStrictAux] using this

theorem decodeStrictAux_sound : ∀ (n : Nat) (bs : List UInt8) (t : List Char), decodeStrictAux n bs = some t → bs = encode t
  | _, [], t, h => by
    simp only [decodeStrictAux, Option.some.injEq] at h
    subst h; simp [encode]
  | 0, _ :: _, _, h => by simp [decodeStrictAux] at h
  | n + 1, b :: bs, t, h => by
    simp only [decodeStrictAux] at h
    split at h
    · rename_i c hc
      obtain ⟨l, hl⟩ := ByteArray.exists_of_utf8DecodeChar?_eq_some hc
      have hbs : b :: bs = String.utf8EncodeChar c ++ l.data.toList := by
        have := congrArg (fun x => x.data.toList) hl
        simpa using this
      rw [Option.map_eq_some_iff] at h
      obtain ⟨t', ht', rfl⟩ := h
      have hlen : (String.utf8EncodeChar c).length = c.utf8Size := by simp
      have := decodeStrictAux_sound n _ _ ht'
      rw [encode_cons, ← this, hbs, ← hlen]
      simp
    · simp at h

/-- Decoding succeeds exactly for the encodings of texts. -/
theorem decodeStrict_iff (bs : List UInt8) (t : List Char) : decodeStrict bs = some t ↔ bs = encode t :=
  ⟨decodeStrictAux_sound _ _ _, fun h => h ▸ decodeStrict_encode t⟩

theorem encode_append (a b : List Char) : encode (a ++ b) = encode a ++ encode b := by simp [encode]

theorem encode_inj {a b : List Char} (h : encode a = encode b) : a = b := by
  have := decodeStrict_encode a
  rw [h, decodeStrict_encode] at this
  exact (Option.some.inj this).symm

/-- Where a character begins in a text can be seen from the bytes. -/
theorem encode_boundary {b : UInt8} (hb : b.IsUTF8FirstByte) : ∀ (t : List Char) (u w : List UInt8), u ++ b :: w = encode t →
    ∃ t1 t2, t = t1 ++ t2 ∧ u = encode t1 ∧ b :: w = encode t2
  | [], u, w, h => by simp [encode] at h
  | c :: t, u, w, h => by
    have hc : encode (c :: t) = String.utf8EncodeChar c ++ encode t := by simp [encode]
    rw [hc] at h
    rcases List.append_eq_append_iff.mp h with ⟨z, h1, h2⟩ | ⟨z, h1, h2⟩
    · cases u with
      | nil => exact ⟨[], c :: t, rfl, rfl, by rw [hc, ← h]; rfl⟩
      | cons x u =>
        cases z with
        | nil =>
          obtain ⟨t1, t2, e1, e2, e3⟩ := encode_boundary hb t [] w (by simpa using h2)
          refine ⟨c :: t1, t2, by rw [e1]; rfl, ?_, e3⟩
          have : encode t1 = [] := e2.symm
          rw [List.append_nil] at h1
          simp only [encode, List.flatMap_cons] at this ⊢
          rw [this, List.append_nil, h1]
        | cons y z =>
          exfalso
          have hy : y = b := by
            rw [List.cons_append, List.cons.injEq] at h2; exact h2.1.symm
          subst hy
          have hlt : (x :: u).length < (String.utf8EncodeChar c).length := by rw [h1]; simp
          have hget : (String.utf8EncodeChar c)[(x :: u).length] = y := by
            have : (String.utf8EncodeChar c)[(x :: u).length]? = some y := by
              rw [h1, List.getElem?_append_right (Nat.le_refl _)]; simp
            exact (List.getElem?_eq_some_iff.mp this).2
          rw [← hget, UInt8.isUTF8FirstByte_getElem_utf8EncodeChar] at hb
          simp at hb
    · obtain ⟨t1, t2, e1, e2, e3⟩ := encode_boundary hb t z w (by rw [h2])
      exact ⟨c :: t1, t2, by rw [e1]; rfl, by rw [h1, e2]; simp [encode], e3⟩

theorem encode_first (c : Char) (t : List Char) : ∃ b w, encode (c :: t) = b :: w ∧ b.IsUTF8FirstByte := by
  have hp : 0 < (String.utf8EncodeChar c).length := by
    rw [String.length_utf8EncodeChar]; exact Char.utf8Size_pos c
  cases he : String.utf8EncodeChar c with
  | nil => rw [he] at hp; simp at hp
  | cons b w =>
    refine ⟨b, w ++ encode t, by simp [encode, he], ?_⟩
    have hg : (String.utf8EncodeChar c)[0] = b := by
      have : (String.utf8EncodeChar c)[0]? = some b := by rw [he]; rfl
      exact (List.getElem?_eq_some_iff.mp this).2
    rw [← hg, UInt8.isUTF8FirstByte_getElem_utf8EncodeChar]

/-- A text occurs in another one exactly if its bytes do. -/
theorem encode_infix {p t : List Char} : encode p <:+: encode t ↔ p <:+: t := by
  constructor
  · rintro ⟨u, v, h⟩
    cases p with
    | nil => exact List.nil_infix
    | cons c p =>
      obtain ⟨b, w, hb, hf⟩ := encode_first c p
      rw [hb, List.append_assoc, List.cons_append] at h
      obtain ⟨t1, t2, e1, e2, e3⟩ := encode_boundary hf t u _ h
      have h3 : decodeStrict (encode (c :: p) ++ v) = some t2 := by
        rw [hb, List.cons_append, e3, decodeStrict_encode]
      rw [decodeStrict_append] at h3
      cases hv : decodeStrict v with
      | none => rw [hv] at h3; cases h3
      | some s =>
        rw [hv] at h3
        simp only [Option.map_some, Option.some.injEq] at h3
        exact ⟨t1, s, by rw [e1, ← h3, List.append_assoc]⟩
  · rintro ⟨x, y, rfl⟩
    exact ⟨encode x, encode y, by simp [encode_append]⟩

end Verif
