import Verif.Model.ExpectedFile
import Verif.Spec.ExpectedFile
import Verif.Props.TextMatch

/-! # C116: expected output in files -/

namespace Verif

theorem universal_plain {l : List Char} (h : ∀ c ∈ l, isLineEnd c = false) (rest : List Char) : universalNewlines (l ++ rest) = l ++ universalNewlines rest := by
  induction l with
  | nil => rfl
  | cons c l ih =>
    have hc : c ≠ '\r' := by
      rintro rfl
      exact absurd (h '\r' List.mem_cons_self) (by decide)
    have := ih (fun x hx => h x (List.mem_cons_of_mem _ hx))
    rw [List.cons_append, universalNewlines]
    · rw [if_neg hc, this]; rfl
    · intro cs h1
      exact absurd h1 hc

theorem splitAux_plain {l : List Char} (h : ∀ c ∈ l, isLineEnd c = false) : ∀ (acc rest : List Char),
    splitLinesAux acc (l ++ '\n' :: rest) = (acc ++ l, ['\n']) :: splitLinesAux [] rest := by
  induction l with
  | nil =>
    intro acc rest
    rw [List.nil_append, splitLinesAux, if_pos (by decide), List.append_nil]
    simp
  | cons c l ih =>
    intro acc rest
    have hc := h c List.mem_cons_self
    rw [List.cons_append, splitLinesAux, if_neg (by simp [hc]), ih (fun x hx => h x (List.mem_cons_of_mem _ hx))]
    · simp
    · rintro cs rfl
      exact absurd hc (by decide)

theorem universal_sep {sep rest : List Char} (h : sep = ['\n'] ∨ sep = ['\r', '\n'] ∨ sep = ['\r'] ∧ rest.head? ≠ some '\n') :
    universalNewlines (sep ++ rest) = '\n' :: universalNewlines rest := by
  rcases h with rfl | rfl | ⟨rfl, h⟩
  · rw [List.cons_append, universalNewlines]
    · simp
    · intro cs h1; exact absurd h1 (by decide)
  · simp [universalNewlines]
  · rw [List.cons_append, universalNewlines]
    · simp
    · intro cs _ h1
      simp only [List.nil_append] at h1
      subst h1
      exact h rfl

/-- C116: the lines of a file are what is written between the line ends, whatever convention for line ends it uses. -/
theorem C116_lines (ls : List (List Char)) (content : List Char) (h : WrittenAs ls content) : fileLines content = ls := by
  induction h with
  | empty => rfl
  | last hne hl =>
    rename_i l
    have hl := notEnd_all hl
    have := universal_plain hl []
    rw [List.append_nil] at this
    simp [fileLines, splitLines, this, universalNewlines, splitAux_last hl [] (by simpa using hne)]
  | line hl hs _ ih =>
    rename_i l sep rest ls _
    have hl := notEnd_all hl
    rw [fileLines, splitLines, List.append_assoc, universal_plain hl, universal_sep hs, splitAux_plain hl]
    simp only [List.nil_append, List.map_cons]
    exact congrArg (l :: ·) ih

theorem occurs_iff {s l : List Char} : (∃ i, OccursAt s l i) ↔ s <:+: l := by
  constructor
  · rintro ⟨i, a, b, rfl, _⟩; exact ⟨a, b, rfl⟩
  · rintro ⟨a, b, rfl⟩; exact ⟨a.length, a, b, rfl, rfl⟩

theorem contained_drop {strict : Bool} {es : List (List Char)} {lines : List (List Char)} {p a : Nat} (hp : p ≤ a) (hs : strict = true → a = p)
    (h : ContainedIn strict es (lines.drop a)) : ContainedIn strict es (lines.drop p) := by
  cases strict with
  | true => rw [← hs rfl]; exact h
  | false =>
    obtain ⟨k, rfl⟩ := Nat.exists_eq_add_of_le hp
    clear hp hs
    induction k with
    | zero => exact h
    | succ k ih =>
      apply ih
      by_cases hlen : p + k < lines.length
      · rw [List.drop_eq_getElem_cons hlen]
        exact .skip rfl h
      · rw [List.drop_eq_nil_of_le (by omega)] at h ⊢
        exact h

theorem sequence_contained {lines : List (List Char)} {strict : Bool} : ∀ {es : List (List Char)} {start a c : Nat},
    InSequence (InLine lines) strict start (es.map .str) a c → ContainedIn strict es (lines.drop start)
  | [], _, _, _, h => .done
  | e :: es, start, a, c, h => by
    have here : ∀ {b : Nat}, InLine lines (.str e) a b → start ≤ a → (strict = true → a = start) → ContainedIn strict es (lines.drop (a + 1)) →
        ContainedIn strict (e :: es) (lines.drop start) := by
      rintro b ⟨_, line, h1, h2⟩ h3 h4 h5
      refine contained_drop h3 h4 ?_
      obtain ⟨hlen, hg⟩ := List.getElem?_eq_some_iff.1 h1
      rw [List.drop_eq_getElem_cons hlen, hg]
      exact .here (occurs_iff.1 h2) h5
    rw [List.map_cons] at h
    generalize hx : es.map Expect.str = xs at h
    cases h with
    | last h1 h2 h3 =>
      have : es = [] := by cases es with
        | nil => rfl
        | cons => simp at hx
      subst this
      exact here h3 h1 h2 .done
    | next h1 h2 h3 h4 =>
      subst hx
      have hb := h3.1
      subst hb
      exact here h3 h1 h2 (sequence_contained h4)

theorem contained_sequence {lines : List (List Char)} {strict : Bool} {es l : List (List Char)} (h : ContainedIn strict es l) : ∀ {start : Nat},
    l = lines.drop start → es ≠ [] → ∃ a c, InSequence (InLine lines) strict start (es.map .str) a c := by
  induction h with
  | done => intro _ _ h; exact absurd rfl h
  | skip hs _ ih =>
    intro start hl hne
    have hlen : start < lines.length := by
      apply Classical.byContradiction
      intro hc
      rw [List.drop_eq_nil_of_le (by omega)] at hl
      cases hl
    rw [List.drop_eq_getElem_cons hlen, List.cons.injEq] at hl
    obtain ⟨a, c, h⟩ := ih hl.2 hne
    refine ⟨a, c, ?_⟩
    generalize List.map Expect.str _ = xs at h ⊢
    cases h with
    | last h1 h2 h3 => exact .last (by omega) (by simp [hs]) h3
    | next h1 h2 h3 h4 => exact .next (by omega) (by simp [hs]) h3 h4
  | here he _ ih =>
    rename_i e l es ls _
    intro start hl _
    have hlen : start < lines.length := by
      apply Classical.byContradiction
      intro hc
      rw [List.drop_eq_nil_of_le (by omega)] at hl
      cases hl
    rw [List.drop_eq_getElem_cons hlen, List.cons.injEq] at hl
    have hin : InLine lines (.str e) start (start + 1) := ⟨rfl, l, by rw [hl.1]; exact List.getElem?_eq_getElem hlen, occurs_iff.2 he⟩
    cases es with
    | nil => exact ⟨_, _, .last (Nat.le_refl _) (fun _ => rfl) hin⟩
    | cons e2 es =>
      obtain ⟨a, c, h⟩ := ih hl.2 (by simp)
      exact ⟨_, _, .next (Nat.le_refl _) (fun _ => rfl) hin h⟩

/-- C116: if there is a file with the extension .txt with at least one line, output meets what it expects exactly if its lines are contained in lines of the output, one by
one and in their order, whatever file with the extension .regex there is. -/
theorem C116_text_file_partial (compile : List Char → Option Pat) (ls : List (List Char)) (content : List Char) (regex : Option (List Char)) (hw : WrittenAs ls content)
    (hne : ls ≠ []) (ansi : List Char → List Char) (strip strict : Bool) (text : List Char) :
    ∃ e b, expectedFromFile compile (some content) regex = .ok e ∧ expectOutput ansi (some text) none none (some e) strip strict = .ok b ∧
      (b = true ↔ ContainedIn strict ls ((splitLines text).map (if strip then ansi else id))) := by
  refine ⟨.seq (ls.map .str), ?_⟩
  obtain ⟨h1, b, h2⟩ := C70_lines ansi strip strict (.inl text) (ls.map .str) (by simpa using hne) (by
    intro e he
    obtain ⟨l, _, rfl⟩ := List.mem_map.1 he
    rfl)
  refine ⟨b, by rw [expectedFromFile, C116_lines ls content hw], h2, ?_⟩
  simp only at h1 h2
  rw [h2, Except.ok.injEq] at h1
  rw [h1]
  have : (if strip then (splitLines text).map ansi else splitLines text) = (splitLines text).map (if strip then ansi else id) := by cases strip <;> simp
  rw [this]
  constructor
  · rintro ⟨a, c, h⟩; simpa using sequence_contained h
  · intro h; exact contained_sequence (start := 0) h (by simp) hne

/-- C116: output with the very lines of the file is accepted, also strictly. -/
theorem C116_own_output_partial (compile : List Char → Option Pat) (ls : List (List Char)) (content : List Char) (regex : Option (List Char)) (hw : WrittenAs ls content)
    (hne : ls ≠ []) (ansi : List Char → List Char) (strict : Bool) (text : List Char) (ht : splitLines text = ls) :
    ∃ e, expectedFromFile compile (some content) regex = .ok e ∧ expectOutput ansi (some text) none none (some e) false strict = .ok true := by
  obtain ⟨e, b, h1, h2, h3⟩ := C116_text_file_partial compile ls content regex hw hne ansi false strict text
  refine ⟨e, h1, ?_⟩
  have : b = true := h3.2 (by
    rw [ht]
    simp only [Bool.false_eq_true, if_false, List.map_id]
    clear hw hne h1 h2 h3 ht
    induction ls with
    | nil => exact .done
    | cons l ls ih => exact .here (List.infix_refl l) ih)
  rw [h2, this]

theorem compileAll_ok {compile : List Char → Option Pat} : ∀ {ls : List (List Char)} {ps : List Pat}, compileAll compile ls = .ok ps ↔ ps.map some = ls.map compile
  | [], ps => by cases ps <;> simp [compileAll]
  | l :: ls, ps => by
    simp only [compileAll]
    cases hc : compile l with
    | none => cases ps <;> simp [hc]
    | some p =>
      cases hm : compileAll compile ls with
      | error e =>
        cases ps with
        | nil => simp
        | cons q qs =>
          have : ¬ qs.map some = ls.map compile := fun h => by rw [compileAll_ok.2 h] at hm; cases hm
          simp [hc, this]
      | ok qs =>
        have hq := compileAll_ok.1 hm
        cases ps with
        | nil => simp
        | cons r rs =>
          simp only [Except.ok.injEq, List.cons.injEq, List.map_cons, hc, Option.some.injEq, ← hq]
          rw [List.map_inj_right (fun _ _ h => Option.some.inj h)]
          exact ⟨fun ⟨a, b⟩ => ⟨a.symm, b.symm⟩, fun ⟨a, b⟩ => ⟨a.symm, b.symm⟩⟩

theorem compileAll_error {compile : List Char → Option Pat} : ∀ {ls : List (List Char)}, (∃ l ∈ ls, compile l = none) → compileAll compile ls = .error (.other 0)
  | [], h => by simp at h
  | l :: ls, ⟨x, hx, hn⟩ => by
    simp only [compileAll]
    cases hc : compile l with
    | none => rfl
    | some p =>
      rcases List.mem_cons.1 hx with rfl | hx
      · rw [hn] at hc; cases hc
      · simp [compileAll_error ⟨x, hx, hn⟩]

/-- C116: without a file with the extension .txt, every line of the file with the extension .regex is a regular expression, and output meets them if lines in this order match
them; what is no regular expression is an error, and so is that there is neither file (RuntimeError). -/
theorem C116_regex_file_partial (compile : List Char → Option Pat) (ls : List (List Char)) (content : List Char) (hw : WrittenAs ls content) (hne : ls ≠ []) :
    (∀ ps : List Pat, ps.map some = ls.map compile → ∃ e, expectedFromFile compile none (some content) = .ok e ∧
      ∀ (ansi : List Char → List Char) (strip strict : Bool) (text : List Char),
        (expectOutput ansi (some text) none none (some e) strip strict = .ok true ↔
          ∃ a c, InSequence (InLine ((splitLines text).map (if strip then ansi else id))) strict 0 (ps.map .pat) a c)) ∧
    ((∃ l ∈ ls, compile l = none) → ∀ e, expectedFromFile compile none (some content) = .ok e → False) ∧
    expectedFromFile compile none none = .error .runtimeError := by
  refine ⟨fun ps hps => ?_, fun h e he => ?_, rfl⟩
  · refine ⟨.seq (ps.map .pat), by rw [expectedFromFile, C116_lines ls content hw, compileAll_ok.2 hps], fun ansi strip strict text => ?_⟩
    have hps' : ps ≠ [] := by
      rintro rfl
      exact hne (by simpa using hps.symm)
    have h := (C70_lines ansi strip strict (.inl text) (ps.map .pat) (by simpa using hps') (by
      intro e he
      obtain ⟨l, _, rfl⟩ := List.mem_map.1 he
      rfl)).1
    have : (if strip then (splitLines text).map ansi else splitLines text) = (splitLines text).map (if strip then ansi else id) := by cases strip <;> simp
    simp only at h
    rw [this] at h
    exact h
  · rw [expectedFromFile, C116_lines ls content hw, compileAll_error h] at he
    cases he

/-- C116 is violated for empty files: nothing can be expected, whatever the output is. -/
theorem C116_empty_file_violated (compile : List Char → Option Pat) (regex : Option (List Char)) (ansi : List Char → List Char) (strip strict : Bool) (text : List Char) :
    ∃ e, expectedFromFile compile (some []) regex = .ok e ∧ expectOutput ansi (some text) none none (some e) strip strict = .error .valueError :=
  ⟨.seq [], rfl, by cases strip <;> rfl⟩

/-! A file with line ends of all conventions. -/

example : WrittenAs ["ab".toList, [], "c".toList] "ab\r\n\nc".toList :=
  .line (by decide) (.inr (.inl rfl)) (.line (l := []) (by simp) (.inl rfl) (.last (by decide) (by decide)))

example : WrittenAs ["ab".toList, "c".toList] "ab\rc\n".toList :=
  .line (by decide) (.inr (.inr ⟨rfl, by decide⟩)) (.line (rest := []) (by decide) (.inl rfl) .empty)

example : ContainedIn false ["ab".toList, "c".toList] ["x".toList, "xaby".toList, [], "cd".toList] :=
  .skip rfl (.here ⟨['x'], ['y'], rfl⟩ (.skip rfl (.here ⟨[], ['d'], rfl⟩ .done)))

example : splitLines "ab\n\nc\n".toList = ["ab".toList, [], "c".toList] := by decide +kernel

end Verif
