/-!
# str.find

`str.find(sub, start)` of Python on lists of characters.  (Language semantics, not code of `/repo`.)
-/

namespace Verif

/-- The first position at which `needle` is a prefix of what is left; `i` is the position of the head. -/
def findAux (needle : List Char) : List Char → Nat → Option Nat
  | [], i => if needle = [] then some i else none
  | c :: cs, i => if needle.isPrefixOf (c :: cs) then some i else findAux needle cs (i + 1)

/-- `hay.find(needle, start)` for `0 ≤ start`; `none` is -1. -/
def pyFind (hay needle : List Char) (start : Nat) : Option Nat :=
  if start ≤ hay.length then findAux needle (hay.drop start) start else none

/-- `needle` stands at position `i` of `hay`. -/
def OccursAt (needle hay : List Char) (i : Nat) : Prop := ∃ a b, hay = a ++ needle ++ b ∧ a.length = i

theorem occursAt_iff {needle hay : List Char} {i : Nat} : OccursAt needle hay i ↔ i ≤ hay.length ∧ needle <+: hay.drop i := by
  constructor
  · rintro ⟨a, b, rfl, rfl⟩
    refine ⟨by simp, b, ?_⟩
    simp
  · rintro ⟨hi, b, hb⟩
    refine ⟨hay.take i, b, ?_, by simp; omega⟩
    rw [List.append_assoc, hb, List.take_append_drop]

theorem OccursAt.le {needle hay : List Char} {i : Nat} (h : OccursAt needle hay i) : i + needle.length ≤ hay.length := by
  obtain ⟨a, b, rfl, rfl⟩ := h
  simp

theorem findAux_some {needle : List Char} : ∀ {l : List Char} {i k : Nat}, findAux needle l i = some k →
    i ≤ k ∧ k - i ≤ l.length ∧ needle <+: l.drop (k - i) ∧ ∀ j, j < k - i → ¬ needle <+: l.drop j
  | [], i, k, h => by
    simp only [findAux] at h
    by_cases hn : needle = []
    · rw [if_pos hn] at h; cases h; subst hn; simp
    · rw [if_neg hn] at h; cases h
  | c :: cs, i, k, h => by
    simp only [findAux] at h
    by_cases hp : needle.isPrefixOf (c :: cs) = true
    · rw [if_pos hp] at h; cases h
      refine ⟨Nat.le_refl _, by simp, ?_, ?_⟩
      · simpa using hp
      · intro j hj; simp at hj
    · rw [if_neg hp] at h
      obtain ⟨h1, h2, h3, h4⟩ := findAux_some h
      have e : k - i = (k - (i + 1)) + 1 := by omega
      refine ⟨by omega, by simp; omega, by rw [e]; simpa using h3, ?_⟩
      intro j hj
      cases j with
      | zero => simpa using hp
      | succ j => simpa using h4 j (by omega)

theorem findAux_none {needle : List Char} : ∀ {l : List Char} {i : Nat}, findAux needle l i = none →
    ∀ j, j ≤ l.length → ¬ needle <+: l.drop j
  | [], i, h, j, hj => by
    simp only [findAux] at h
    by_cases hn : needle = []
    · rw [if_pos hn] at h; cases h
    · simpa using hn
  | c :: cs, i, h, j, hj => by
    simp only [findAux] at h
    by_cases hp : needle.isPrefixOf (c :: cs) = true
    · rw [if_pos hp] at h; cases h
    · rw [if_neg hp] at h
      cases j with
      | zero => simpa using hp
      | succ j => simpa using findAux_none h j (by simpa using hj)

/-- `find` returns the first occurrence from `start` on. -/
theorem pyFind_some {hay needle : List Char} {start k : Nat} (h : pyFind hay needle start = some k) :
    start ≤ k ∧ OccursAt needle hay k ∧ ∀ j, start ≤ j → OccursAt needle hay j → k ≤ j := by
  unfold pyFind at h
  by_cases hs : start ≤ hay.length
  · rw [if_pos hs] at h
    obtain ⟨h1, h2, h3, h4⟩ := findAux_some h
    rw [List.drop_drop] at h3
    have e : start + (k - start) = k := by omega
    rw [e] at h3
    rw [List.length_drop] at h2
    refine ⟨h1, occursAt_iff.2 ⟨by omega, h3⟩, ?_⟩
    intro j hj ho
    obtain ⟨_, h6⟩ := occursAt_iff.1 ho
    apply Classical.byContradiction
    intro hlt
    apply h4 (j - start) (by omega)
    rw [List.drop_drop]
    have e : start + (j - start) = j := by omega
    rwa [e]
  · rw [if_neg hs] at h; cases h

/-- `find` returns -1 only if there is no occurrence from `start` on. -/
theorem pyFind_none {hay needle : List Char} {start : Nat} (h : pyFind hay needle start = none) (j : Nat) (hj : start ≤ j) :
    ¬ OccursAt needle hay j := by
  intro ho
  obtain ⟨h5, h6⟩ := occursAt_iff.1 ho
  unfold pyFind at h
  rw [if_pos (by omega)] at h
  apply findAux_none h (j - start) (by rw [List.length_drop]; omega)
  rw [List.drop_drop]
  have e : start + (j - start) = j := by omega
  rwa [e]

end Verif
