import Verif.Spec.Executable

/-! # Lemmas about command lines -/

namespace Verif
namespace Shlex

variable {α β : Type}

@[simp] theorem white_back : white '\\' = false := rfl

@[simp] theorem white_single : white '\'' = false := rfl

@[simp] theorem white_double : white '"' = false := rfl

/-- Running the reader. -/
def go (cls : α → Option Char) (back : α) (s : St α) (l : List α) : St α := l.foldl (step cls back) s

theorem go_append (cls : α → Option Char) (back : α) (s : St α) (l l' : List α) :
    go cls back s (l ++ l') = go cls back (go cls back s l) l' := by simp [go, List.foldl_append]

theorem go_cons (cls : α → Option Char) (back : α) (s : St α) (x : α) (l : List α) :
    go cls back s (x :: l) = go cls back (step cls back s x) l := rfl

/-- Renaming symbols. -/
def St.map (f : α → β) (s : St α) : St β := { mode := s.mode, words := s.words.map (·.map f), word := s.word.map (·.map f) }

theorem step_map {clsα : α → Option Char} {clsβ : β → Option Char} {f : α → β} (h : ∀ x, clsβ (f x) = clsα x) (back : α) (s : St α) (x : α) :
    step clsβ (f back) (s.map f) (f x) = (step clsα back s x).map f := by
  obtain ⟨mode, words, word⟩ := s
  cases mode with
  | plain =>
    simp only [step, St.map, h]
    cases clsα x with
    | none => cases word <;> simp
    | some c =>
      simp only
      by_cases h1 : white c = true
      · cases word <;> simp [h1]
      · by_cases h2 : c = '\\'
        · simp [h1, h2]
        · by_cases h3 : c = '\'' ∨ c = '"'
          · cases word <;> simp [h1, h2, h3]
          · cases word <;> simp [h1, h2, h3]
  | quote q =>
    simp only [step, St.map, h]
    by_cases h1 : clsα x = some q
    · simp [h1]
    · by_cases h2 : clsα x = some '\\' ∧ q = '"'
      · simp [h1, h2]
      · cases word <;> simp [h1, h2]
  | esc => cases word <;> simp [step, St.map]
  | escQuote =>
    simp only [step, St.map, h]
    by_cases h1 : clsα x = some '"' ∨ clsα x = some '\\'
    · cases word <;> simp [h1]
    · cases word <;> simp [h1]

theorem go_map {clsα : α → Option Char} {clsβ : β → Option Char} {f : α → β} (h : ∀ x, clsβ (f x) = clsα x) (back : α) :
    ∀ (l : List α) (s : St α), go clsβ (f back) (s.map f) (l.map f) = (go clsα back s l).map f
  | [], _ => rfl
  | x :: l, s => by
    rw [List.map_cons, go_cons, go_cons, step_map h, go_map h back l]

/-- Words read before stay in front. -/
theorem step_words (cls : α → Option Char) (back : α) (W : List (List α)) (s : St α) (x : α) :
    step cls back { s with words := W ++ s.words } x = { step cls back s x with words := W ++ (step cls back s x).words } := by
  obtain ⟨mode, words, word⟩ := s
  cases mode with
  | plain =>
    simp only [step]
    cases cls x with
    | none => simp
    | some c =>
      simp only
      by_cases h1 : white c = true
      · cases word <;> simp [h1]
      · by_cases h2 : c = '\\'
        · simp [h1, h2]
        · by_cases h3 : c = '\'' ∨ c = '"'
          · simp [h1, h2, h3]
          · simp [h1, h2, h3]
  | quote q =>
    simp only [step]
    by_cases h1 : cls x = some q
    · simp [h1]
    · by_cases h2 : cls x = some '\\' ∧ q = '"'
      · simp [h1, h2]
      · simp [h1, h2]
  | esc => simp [step]
  | escQuote =>
    simp only [step]
    by_cases h1 : cls x = some '"' ∨ cls x = some '\\'
    · simp [h1]
    · simp [h1]

theorem go_words (cls : α → Option Char) (back : α) (W : List (List α)) : ∀ (l : List α) (s : St α),
    go cls back { s with words := W ++ s.words } l = { go cls back s l with words := W ++ (go cls back s l).words }
  | [], _ => rfl
  | x :: l, s => by rw [go_cons, step_words, go_words cls back W l, ← go_cons]

/-- In a quotation a word is being read. -/
def St.Ok (s : St α) : Prop := s.mode = .plain ∨ s.mode = .esc ∨ s.word.isSome = true

theorem step_ok (cls : α → Option Char) (back : α) (s : St α) (x : α) (h : s.Ok) : (step cls back s x).Ok := by
  obtain ⟨mode, words, word⟩ := s
  cases mode with
  | plain =>
    simp only [step]
    cases cls x with
    | none => exact .inl rfl
    | some c =>
      simp only
      by_cases h1 : white c = true
      · cases word <;> simp [h1, St.Ok]
      · by_cases h2 : c = '\\'
        · simp [h1, h2, St.Ok]
        · by_cases h3 : c = '\'' ∨ c = '"'
          · simp [h1, h2, h3, St.Ok]
          · simp [h1, h2, h3, St.Ok]
  | quote q =>
    have hw : word.isSome = true := by simpa [St.Ok] using h
    simp only [step]
    by_cases h1 : cls x = some q
    · simp [h1, St.Ok]
    · by_cases h2 : cls x = some '\\' ∧ q = '"'
      · simp [h1, h2, St.Ok, hw]
      · simp [h1, h2, St.Ok]
  | esc => simp [step, St.Ok]
  | escQuote =>
    simp only [step]
    by_cases h1 : cls x = some '"' ∨ cls x = some '\\'
    · simp [h1, St.Ok]
    · simp [h1, St.Ok]

theorem go_ok (cls : α → Option Char) (back : α) : ∀ (l : List α) (s : St α), s.Ok → (go cls back s l).Ok
  | [], _, h => h
  | x :: l, s, h => go_ok cls back l _ (step_ok cls back s x h)

/-- After a symbol other than white space, if no quotation or escape is open, a word is being read. -/
theorem word_after (cls : α → Option Char) (back : α) (s : St α) (x : α) (h : s.Ok) (hx : ∀ c, cls x = some c → white c = false)
    (hm : (step cls back s x).mode = .plain) : (step cls back s x).word.isSome = true := by
  obtain ⟨mode, words, word⟩ := s
  cases mode with
  | plain =>
    simp only [step] at hm ⊢
    cases hc : cls x with
    | none => simp
    | some c =>
      have h1 := hx c hc
      simp only [hc, h1] at hm ⊢
      by_cases h2 : c = '\\'
      · simp [h2] at hm
      · by_cases h3 : c = '\'' ∨ c = '"'
        · simp [h2, h3] at hm
        · simp [h2, h3]
  | quote q =>
    have hw : word.isSome = true := by simpa [St.Ok] using h
    simp only [step] at hm ⊢
    by_cases h1 : cls x = some q
    · simp [h1, hw]
    · by_cases h2 : cls x = some '\\' ∧ q = '"'
      · simp [h1, h2, hw]
      · simp [h1, h2]
  | esc => simp [step]
  | escQuote =>
    simp only [step]
    by_cases h1 : cls x = some '"' ∨ cls x = some '\\'
    · simp [h1]
    · simp [h1]

/-- How reading behind an unfinished word `p` relates to reading from the beginning. -/
inductive Glue (p : List α) : St α → St α → Prop
  | first {m : Mode} {w : Option (List α)} : (w.isSome = true ∨ m = .esc) → Glue p ⟨m, [], w⟩ ⟨m, [], some (p ++ w.getD [])⟩
  | later {m : Mode} {x : List α} {ws : List (List α)} {w : Option (List α)} : Glue p ⟨m, x :: ws, w⟩ ⟨m, (p ++ x) :: ws, w⟩

theorem step_glue (cls : α → Option Char) (back : α) (p : List α) {s t : St α} (x : α) (h : Glue p s t) (hok : s.Ok) :
    Glue p (step cls back s x) (step cls back t x) := by
  cases h with
  | later =>
    rename_i m y ws w
    have e1 := step_words cls back [y] ⟨m, ws, w⟩ x
    have e2 := step_words cls back [p ++ y] ⟨m, ws, w⟩ x
    simp only [List.singleton_append] at e1 e2
    rw [e1, e2]
    exact .later
  | first hw =>
    rename_i m w
    cases m with
    | plain =>
      obtain ⟨w, rfl⟩ : ∃ w', w = some w' := by
        rcases hw with hw | hw
        · exact Option.isSome_iff_exists.mp hw
        · cases hw
      simp only [step]
      cases cls x with
      | none => simpa using Glue.first (p := p) (m := .plain) (w := some (w ++ [x])) (.inl rfl)
      | some c =>
        simp only
        by_cases h1 : white c = true
        · simp only [h1, if_true, List.nil_append, Option.getD_some]
          exact Glue.later
        · by_cases h2 : c = '\\'
          · simp only [h1, h2]; exact Glue.first (.inr rfl)
          · by_cases h3 : c = '\'' ∨ c = '"'
            · simp only [h1, h2, h3]; exact Glue.first (w := some w) (.inl rfl)
            · simpa [h1, h2, h3] using Glue.first (p := p) (m := .plain) (w := some (w ++ [x])) (.inl rfl)
    | quote q =>
      obtain ⟨w, rfl⟩ : ∃ w', w = some w' := by
        rcases hw with hw | hw
        · exact Option.isSome_iff_exists.mp hw
        · cases hw
      simp only [step]
      by_cases h1 : cls x = some q
      · simp only [h1, if_true]; exact Glue.first (w := some w) (.inl rfl)
      · by_cases h2 : cls x = some '\\' ∧ q = '"'
        · simp only [h1, h2]; exact Glue.first (w := some w) (.inl rfl)
        · simpa [h1, h2] using Glue.first (p := p) (m := .quote q) (w := some (w ++ [x])) (.inl rfl)
    | esc =>
      simp only [step]
      have := Glue.first (p := p) (m := .plain) (w := some (w.getD [] ++ [x])) (.inl rfl)
      simpa using this
    | escQuote =>
      obtain ⟨w, rfl⟩ : ∃ w', w = some w' := by
        rcases hw with hw | hw
        · exact Option.isSome_iff_exists.mp hw
        · cases hw
      simp only [step]
      by_cases h1 : cls x = some '"' ∨ cls x = some '\\'
      · simpa [h1] using Glue.first (p := p) (m := .quote '"') (w := some (w ++ [x])) (.inl rfl)
      · simpa [h1] using Glue.first (p := p) (m := .quote '"') (w := some (w ++ [back, x])) (.inl rfl)

theorem go_glue (cls : α → Option Char) (back : α) (p : List α) : ∀ (l : List α) {s t : St α}, Glue p s t → s.Ok → Glue p (go cls back s l) (go cls back t l)
  | [], _, _, h, _ => h
  | x :: l, _, _, h, hok => go_glue cls back p l (step_glue cls back p x h hok) (step_ok cls back _ x hok)

/-- Starting behind an unfinished word with a symbol that is not white. -/
theorem start_glue (cls : α → Option Char) (back : α) (p : List α) (x : α) (hx : ∀ c, cls x = some c → white c = false) :
    Glue p (step cls back {} x) (step cls back { word := some p } x) := by
  simp only [step]
  cases hc : cls x with
  | none => simpa using Glue.first (p := p) (m := .plain) (w := some [x]) (.inl rfl)
  | some c =>
    have h1 := hx c hc
    simp only [h1]
    by_cases h2 : c = '\\'
    · simp only [h2]; simpa using Glue.first (p := p) (m := .esc) (w := none) (.inr rfl)
    · by_cases h3 : c = '\'' ∨ c = '"'
      · simp only [h2, h3]; simpa using Glue.first (p := p) (m := .quote c) (w := some []) (.inl rfl)
      · simpa [h2, h3] using Glue.first (p := p) (m := .plain) (w := some [x]) (.inl rfl)

end Shlex
end Verif
