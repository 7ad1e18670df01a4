/-!
# Transition systems

The state after a sequence of labels, for the models of asynchronous code.
-/

namespace Verif

/-- The state after these labels; `none` if one of them is not enabled. -/
def runSteps {S L : Type} (step : S → L → Option S) : S → List L → Option S
  | s, [] => some s
  | s, l :: ls =>
    match step s l with
    | none => none
    | some s1 => runSteps step s1 ls

variable {S L : Type} {step : S → L → Option S}

theorem runSteps_append (xs ys : List L) (s : S) :
    runSteps step s (xs ++ ys) = (runSteps step s xs).bind fun s1 => runSteps step s1 ys := by
  induction xs generalizing s with
  | nil => rfl
  | cons l xs ih =>
    simp only [List.cons_append, runSteps]
    cases step s l with
    | none => rfl
    | some s1 => exact ih s1

/-- What every step preserves holds after any sequence of steps. -/
theorem runSteps_induct {R : S → Prop} (hstep : ∀ s l s', R s → step s l = some s' → R s') :
    ∀ (ls : List L) (s s' : S), R s → runSteps step s ls = some s' → R s'
  | [], s, s', h0, h => by simp [runSteps] at h; rw [← h]; exact h0
  | l :: ls, s, s', h0, h => by
    simp only [runSteps] at h
    cases h1 : step s l with
    | none => rw [h1] at h; cases h
    | some s1 => rw [h1] at h; exact runSteps_induct hstep ls s1 s' (hstep s l s1 h0 h1) h

/-- The same with a condition on the labels. -/
theorem runSteps_induct' {R : S → Prop} {C : L → Prop}
    (hstep : ∀ s l s', C l → R s → step s l = some s' → R s') :
    ∀ (ls : List L) (s s' : S), (∀ l ∈ ls, C l) → R s → runSteps step s ls = some s' → R s'
  | [], s, s', _, h0, h => by simp [runSteps] at h; rw [← h]; exact h0
  | l :: ls, s, s', hC, h0, h => by
    simp only [runSteps] at h
    cases h1 : step s l with
    | none => rw [h1] at h; cases h
    | some s1 =>
      rw [h1] at h
      exact runSteps_induct' hstep ls s1 s' (fun x hx => hC x (by simp [hx])) (hstep s l s1 (hC l (by simp)) h0 h1) h

/-- Splitting at a label. -/
theorem runSteps_cons {s s' : S} {l : L} {ls : List L} (h : runSteps step s (l :: ls) = some s') :
    ∃ s1, step s l = some s1 ∧ runSteps step s1 ls = some s' := by
  simp only [runSteps] at h
  cases h1 : step s l with
  | none => rw [h1] at h; cases h
  | some s1 => rw [h1] at h; exact ⟨s1, rfl, h⟩

end Verif
