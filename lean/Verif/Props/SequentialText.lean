import Verif.Model.SequentialText

/-!
# C49: sequential output assertions
-/

namespace Verif

/-- An independent specification: the messages stand in the chunks, one after another without overlap, from position `(a, b)` on.  A message stands inside
one chunk. -/
inductive Placed (output : List (List Char)) : Nat → Nat → List (List Char) → Prop
  | nil {a b : Nat} : Placed output a b []
  | cons {a b a' i : Nat} {text msg : List Char} {msgs : List (List Char)} :
      output[a']? = some text → OccursAt msg text i → (a < a' ∨ (a = a' ∧ b ≤ i)) →
      Placed output a' (i + msg.length) msgs → Placed output a b (msg :: msgs)

/-- Starting earlier does not hurt. -/
theorem Placed.mono {output : List (List Char)} {a b a0 b0 : Nat} {msgs : List (List Char)} (h : Placed output a b msgs)
    (hle : a0 < a ∨ (a0 = a ∧ b0 ≤ b)) : Placed output a0 b0 msgs := by
  cases h with
  | nil => exact .nil
  | cons h1 h2 h3 h4 => exact .cons h1 h2 (by omega) h4

theorem seqFind_some {msg : List Char} : ∀ {l : List (List Char)} {a b a' e : Nat}, seqFind msg l a b = some (a', e) →
    ∃ text i, l[a' - a]? = some text ∧ a ≤ a' ∧ OccursAt msg text i ∧ e = i + msg.length ∧ (a < a' ∨ (a = a' ∧ b ≤ i)) ∧
      ∀ a1 text1 i1, a ≤ a1 → l[a1 - a]? = some text1 → OccursAt msg text1 i1 → (a < a1 ∨ (a = a1 ∧ b ≤ i1)) →
        (a' < a1 ∨ (a' = a1 ∧ i ≤ i1))
  | [], a, b, a', e, h => by simp [seqFind] at h
  | text :: rest, a, b, a', e, h => by
    simp only [seqFind] at h
    cases hf : pyFind text msg b with
    | some found =>
      rw [hf] at h
      simp only [Option.some.injEq, Prod.mk.injEq] at h
      obtain ⟨rfl, rfl⟩ := h
      obtain ⟨h1, h2, h3⟩ := pyFind_some hf
      refine ⟨text, found, by simp, Nat.le_refl _, h2, rfl, Or.inr ⟨rfl, h1⟩, ?_⟩
      intro a1 text1 i1 hle ht ho hpos
      by_cases ha : a < a1
      · exact Or.inl ha
      · have : a1 = a := by omega
        subst this
        simp only [Nat.sub_self, List.getElem?_cons_zero, Option.some.injEq] at ht
        subst ht
        exact Or.inr ⟨rfl, h3 i1 (by omega) ho⟩
    | none =>
      rw [hf] at h
      obtain ⟨text', i, h1, h2, h3, h4, h5, h6⟩ := seqFind_some h
      refine ⟨text', i, ?_, by omega, h3, h4, Or.inl (by omega), ?_⟩
      · have e : a' - a = (a' - (a + 1)) + 1 := by omega
        rw [e]; simpa using h1
      · intro a1 text1 i1 hle ht ho hpos
        by_cases ha : a < a1
        · have e : a1 - a = (a1 - (a + 1)) + 1 := by omega
          rw [e] at ht
          exact h6 a1 text1 i1 (by omega) (by simpa using ht) ho (by omega)
        · have : a1 = a := by omega
          subst this
          simp only [Nat.sub_self, List.getElem?_cons_zero, Option.some.injEq] at ht
          subst ht
          exact absurd ho (pyFind_none hf i1 (by omega))

theorem seqFind_none {msg : List Char} : ∀ {l : List (List Char)} {a b : Nat}, seqFind msg l a b = none →
    ∀ k text i, l[k]? = some text → (0 < k ∨ b ≤ i) → ¬ OccursAt msg text i
  | [], a, b, h, k, text, i, hk, _ => by simp at hk
  | t :: rest, a, b, h, k, text, i, hk, hpos => by
    simp only [seqFind] at h
    cases hf : pyFind t msg b with
    | some found => rw [hf] at h; simp at h
    | none =>
      rw [hf] at h
      cases k with
      | zero =>
        simp only [List.getElem?_cons_zero, Option.some.injEq] at hk
        subst hk
        exact pyFind_none hf i (by omega)
      | succ k => exact seqFind_none h k text i (by simpa using hk) (Or.inr (Nat.zero_le _))

/-- C49: a sequence of calls succeeds throughout exactly if the messages stand in the output one after another without overlap, each
inside one chunk, from the position reached before. -/
theorem C49_sound_complete (s : SeqChecker) (msgs : List (List Char)) :
    (∀ r ∈ s.runAll msgs, r = true) ↔ Placed s.output s.array s.sub msgs := by
  induction msgs generalizing s with
  | nil => simp [SeqChecker.runAll, Placed.nil]
  | cons m ms ih =>
    simp only [SeqChecker.runAll, SeqChecker.assertIn]
    cases hf : seqFind m (s.output.drop s.array) s.array s.sub with
    | none =>
      simp only [List.mem_cons, forall_eq_or_imp, Bool.false_eq_true, false_and, false_iff]
      intro h
      cases h with
      | cons h1 h2 h3 h4 =>
        rename_i a' i text
        refine seqFind_none hf (a' - s.array) text i ?_ (by omega) h2
        rw [List.getElem?_drop]
        have e : s.array + (a' - s.array) = a' := by omega
        rwa [e]
    | some p =>
      obtain ⟨a', e⟩ := p
      obtain ⟨text, i, h1, h2, h3, h4, h5, h6⟩ := seqFind_some hf
      rw [List.getElem?_drop] at h1
      have ea : s.array + (a' - s.array) = a' := by omega
      rw [ea] at h1
      have ih' := ih { s with array := a', sub := e }
      simp only [List.mem_cons, forall_eq_or_imp, true_and]
      rw [ih']
      constructor
      · intro h
        subst h4
        exact .cons h1 h3 h5 h
      · intro h
        cases h with
        | cons g1 g2 g3 g4 =>
          rename_i a1 i1 text1
          have := h6 a1 text1 i1 (by omega) (by
            rw [List.getElem?_drop]
            have e : s.array + (a1 - s.array) = a1 := by omega
            rwa [e]) g2 g3
          exact g4.mono (by subst h4; simp only; omega)

/-- C49: a failing call raises AssertionError and does not move the position. -/
theorem C49_failure_keeps_position (s : SeqChecker) (msg : List Char) :
    ((s.assertIn msg).2 = .ok () ↔ Placed s.output s.array s.sub [msg]) ∧
    ((s.assertIn msg).2 ≠ .ok () → (s.assertIn msg) = (s, .error .assertionError)) := by
  have h := C49_sound_complete s [msg]
  cases hf : seqFind msg (s.output.drop s.array) s.array s.sub with
  | none =>
    have he : s.assertIn msg = (s, .error .assertionError) := by simp [SeqChecker.assertIn, hf]
    simp only [SeqChecker.runAll, he] at h
    refine ⟨?_, fun _ => he⟩
    rw [he, ← h]
    simp
  | some p =>
    have he : s.assertIn msg = ({ s with array := p.1, sub := p.2 }, .ok ()) := by simp [SeqChecker.assertIn, hf]
    simp only [SeqChecker.runAll, he] at h
    refine ⟨?_, fun hn => by rw [he] at hn; exact absurd rfl hn⟩
    rw [he, ← h]
    simp

/-- C49: the captured output is cut into chunks arbitrarily, and a message cut in two is not found although the process wrote it. -/
theorem C49_cut_message_violated : ∃ (s : SeqChecker) (msg : List Char),
    OccursAt msg s.output.flatten 0 ∧ (s.assertIn msg).2 = .error .assertionError :=
  ⟨{ output := ["hel".toList, "lo".toList] }, "hello".toList, ⟨[], [], by decide, rfl⟩, by rfl⟩

/-! ## Examples -/

example : ({ output := ["ab ab".toList, "cd".toList] } : SeqChecker).runAll
    ["ab".toList, "ab".toList, "ab".toList, "d".toList, "c".toList] = [true, true, false, true, false] := by decide +kernel

example : Placed ["ab ab".toList, "cd".toList] 0 0 ["ab".toList, "ab".toList, "d".toList] :=
  .cons (a' := 0) (i := 0) rfl ⟨[], " ab".toList, by decide, rfl⟩ (by omega)
    (.cons (a' := 0) (i := 3) rfl ⟨"ab ".toList, [], by decide, rfl⟩ (by simp)
      (.cons (a' := 1) (i := 1) rfl ⟨"c".toList, [], by decide, rfl⟩ (by omega) .nil))

end Verif
