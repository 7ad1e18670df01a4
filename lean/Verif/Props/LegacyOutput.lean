import Verif.Model.LegacyOutput
import Verif.Lemmas.Legacy

/-! # C93: output tests and output filters of the legacy test service -/

namespace Verif

/-- A byte string without line ends. -/
def OneLine (p : Bytes) : Prop := 10 ∉ p ∧ 13 ∉ p

theorem bIn_iff {p : Bytes} : ∀ {l : Bytes}, bIn p l = true ↔ p <:+: l
  | [] => by simp [bIn, List.infix_nil]
  | c :: cs => by
    rw [bIn, Bool.or_eq_true, bIn_iff, List.infix_cons_iff, List.isPrefixOf_iff_prefix]

theorem infix_sep {α : Type} {p a b : List α} {c : α} (hc : c ∉ p) (hp : p ≠ []) : p <:+: a ++ c :: b ↔ p <:+: a ∨ p <:+: b := by
  constructor
  · rintro ⟨x, y, h⟩
    rw [List.append_assoc, List.append_eq_append_iff] at h
    rcases h with ⟨z, h1, h2⟩ | ⟨z, h1, h2⟩
    · -- p begins within a
      rw [List.append_eq_append_iff] at h2
      rcases h2 with ⟨w, h3, h4⟩ | ⟨w, h3, h4⟩
      · exact .inl ⟨x, w, by rw [h1, h3, List.append_assoc]⟩
      · cases w with
        | nil =>
          rw [List.append_nil] at h3
          exact .inl ⟨x, [], by rw [h1, h3]; simp⟩
        | cons d w =>
          rw [List.cons_append, List.cons.injEq] at h4
          rw [h3, ← h4.1] at hc
          simp at hc
    · cases z with
      | nil =>
        rw [List.nil_append] at h2
        cases p with
        | nil => exact absurd rfl hp
        | cons d p =>
          rw [List.cons_append, List.cons.injEq] at h2
          rw [h2.1] at hc
          simp at hc
      | cons d z =>
        rw [List.cons_append, List.cons.injEq] at h2
        exact .inr ⟨z, y, by rw [h2.2, List.append_assoc]⟩
  · rintro (⟨x, y, h⟩ | ⟨x, y, h⟩)
    · exact ⟨x, y ++ c :: b, by rw [← h]; simp⟩
    · exact ⟨a ++ c :: x, y, by rw [← h]; simp⟩

theorem bLinesAux_crlf (acc cs : Bytes) : bLinesAux acc (13 :: 10 :: cs) = acc :: bLinesAux [] cs := by
  rw [bLinesAux]

theorem bLinesAux_end {acc cs : Bytes} {c : Nat} (h : c = 10 ∨ c = 13) (hn : ¬ (c = 13 ∧ cs.head? = some 10)) :
    bLinesAux acc (c :: cs) = acc :: bLinesAux [] cs := by
  rw [bLinesAux.eq_3]
  · rw [if_pos h]
  · intro cs' h1 h2
    exact hn ⟨h1, by rw [h2]; rfl⟩

theorem bLinesAux_other {acc cs : Bytes} {c : Nat} (h : ¬ (c = 10 ∨ c = 13)) : bLinesAux acc (c :: cs) = bLinesAux (acc ++ [c]) cs := by
  rw [bLinesAux.eq_3]
  · rw [if_neg h]
  · intro cs' h1 h2
    exact h (.inr h1)

/-- The cases of a text that is split into lines. -/
theorem bytes_cases {motive : Bytes → Prop} (nil : motive []) (crlf : ∀ cs, motive cs → motive (13 :: 10 :: cs))
    (ends : ∀ c cs, c = 10 ∨ c = 13 → ¬ (c = 13 ∧ cs.head? = some 10) → motive cs → motive (c :: cs))
    (other : ∀ c cs, ¬ (c = 10 ∨ c = 13) → motive cs → motive (c :: cs)) : ∀ t, motive t := by
  intro t
  induction hn : t.length using Nat.strongRecOn generalizing t with
  | ind n ih =>
    subst hn
    cases t with
    | nil => exact nil
    | cons c cs =>
      by_cases h : c = 10 ∨ c = 13
      · by_cases h2 : c = 13 ∧ cs.head? = some 10
        · obtain ⟨rfl, h3⟩ := h2
          cases cs with
          | nil => cases h3
          | cons d ds =>
            simp only [List.head?_cons, Option.some.injEq] at h3
            subst h3
            exact crlf ds (ih ds.length (by simp; omega) ds rfl)
        · exact ends c cs h h2 (ih cs.length (by simp) cs rfl)
      · exact other c cs h (ih cs.length (by simp) cs rfl)

theorem mem_bLinesAux {p : Bytes} (hp : p ≠ []) (ho : OneLine p) (t : Bytes) : ∀ acc, (∃ l ∈ bLinesAux acc t, p <:+: l) ↔ p <:+: acc ++ t := by
  induction t using bytes_cases with
  | nil =>
    intro acc
    rw [bLinesAux, List.append_nil]
    cases acc with
    | nil => simp [List.infix_nil, hp]
    | cons c cs => simp
  | crlf cs ih =>
    intro acc
    rw [bLinesAux_crlf, infix_sep ho.2 hp, show (10 :: cs : Bytes) = [] ++ 10 :: cs from rfl, infix_sep ho.1 hp, ← List.nil_append cs, ← ih []]
    simp only [List.mem_cons, exists_eq_or_imp, List.infix_nil, hp, false_or, List.nil_append]
  | ends c cs h hn ih =>
    intro acc
    rw [bLinesAux_end h hn, infix_sep (by rcases h with rfl | rfl; exact ho.1; exact ho.2) hp, ← List.nil_append cs, ← ih []]
    simp only [List.mem_cons, exists_eq_or_imp, List.nil_append]
  | other c cs h ih =>
    intro acc
    rw [bLinesAux_other h, ih]
    simp

theorem oneLine_bLinesAux (t : Bytes) : ∀ acc, OneLine acc → ∀ l ∈ bLinesAux acc t, OneLine l := by
  induction t using bytes_cases with
  | nil =>
    intro acc ha l hl
    rw [bLinesAux] at hl
    split at hl
    · cases hl
    · rw [List.mem_singleton] at hl
      rw [hl]
      exact ha
  | crlf cs ih =>
    intro acc ha l hl
    rw [bLinesAux_crlf] at hl
    rcases List.mem_cons.1 hl with rfl | hl
    · exact ha
    · exact ih [] ⟨by simp, by simp⟩ l hl
  | ends c cs h hn ih =>
    intro acc ha l hl
    rw [bLinesAux_end h hn] at hl
    rcases List.mem_cons.1 hl with rfl | hl
    · exact ha
    · exact ih [] ⟨by simp, by simp⟩ l hl
  | other c cs h ih =>
    intro acc ha l hl
    rw [bLinesAux_other h] at hl
    refine ih _ ⟨?_, ?_⟩ l hl
    · simp only [List.mem_append, List.mem_singleton, not_or]
      exact ⟨ha.1, fun x => h (.inl x.symm)⟩
    · simp only [List.mem_append, List.mem_singleton, not_or]
      exact ⟨ha.2, fun x => h (.inr x.symm)⟩

/-- A non-empty pattern is in a line of a text exactly if it contains no line end and is in the text. -/
theorem C93_in_line (t p : Bytes) (hp : p ≠ []) : (bLines t).any (bIn p) = true ↔ OneLine p ∧ p <:+: t := by
  rw [List.any_eq_true]
  constructor
  · rintro ⟨l, hl, h⟩
    rw [bIn_iff] at h
    have h1 := oneLine_bLinesAux t [] ⟨by simp, by simp⟩ l hl
    have ho : OneLine p := ⟨fun x => h1.1 (h.subset x), fun x => h1.2 (h.subset x)⟩
    exact ⟨ho, by simpa using (mem_bLinesAux hp ho t []).1 ⟨l, hl, h⟩⟩
  · rintro ⟨ho, h⟩
    obtain ⟨l, hl, h⟩ := (mem_bLinesAux hp ho t []).2 (by simpa using h)
    exact ⟨l, hl, bIn_iff.2 h⟩

/-- `b` is in the second line of `a\nbc`. -/
example : (bLines [97, 10, 98, 99]).any (bIn [98]) = true := (C93_in_line _ _ (by simp)).2 ⟨⟨by simp, by simp⟩, ⟨[97, 10], [99], rfl⟩⟩

/-! ## The lines test -/

/-- All that the process printed to stdout. -/
def printed (a : Nat) (es : List (LgEvent Bytes)) : Bytes :=
  es.flatMap fun e => match e with | .stdout b t => if a = b then t else [] | _ => []

section
variable {a : Nat} {sfx : String} {sd : Bool}

/-- The invariant of a service with one output test. -/
structure LinesState (t : LgOutput Bytes Bytes Bytes) (ps : List Bytes) (out : Bytes) (s : LgState Bytes Bytes) : Prop where
  out : ∃ left, s.out = [(t.key, out, left)] ∧ ∀ p, p ≠ [] → (p ∈ left ↔ p ∈ ps ∧ ¬ (OneLine p ∧ p <:+: out))
  tests : ∃ x, s.tests = [(t.key, x)] ∧ (x = .succeeded ↔ s.patternsLeft t = false)

theorem linesState_react {ps : List Bytes} {out : Bytes} {s : LgState Bytes Bytes} (h : LinesState (lgLinesTest a sfx id sd) ps out s) (e : LgEvent Bytes)
    (he : ∀ p, e ≠ .shutdown p) :
    LinesState (lgLinesTest a sfx id sd) ps (out ++ printed a [e])
      (s.reactAll e [.outputStdout (lgLinesTest a sfx id sd), .outputShutdown (lgLinesTest a sfx id sd), .outputExit (lgLinesTest a sfx id sd)]).1 := by
  obtain ⟨⟨left, h1, h2⟩, x, h3, h4⟩ := h
  have hk : s.known (lgLinesTest a sfx id sd).key = true := by simp [LgState.known, h3]
  cases e with
  | complete b f => simp only [LgState.reactAll, LgState.react, printed, List.flatMap_cons, List.flatMap_nil, List.append_nil]; exact ⟨⟨left, h1, h2⟩, x, h3, h4⟩
  | shutdown p => exact absurd rfl (he p)
  | exit b n rc sh =>
    simp only [LgState.reactAll, LgState.react, printed, List.flatMap_cons, List.flatMap_nil, List.append_nil]
    by_cases hb : (lgLinesTest a sfx id sd).action = b
    · rw [if_pos hb]
      cases hl : s.patternsLeft (lgLinesTest a sfx id sd) with
      | false => simp only [Bool.false_eq_true, if_false]; exact ⟨⟨left, h1, h2⟩, x, h3, h4⟩
      | true =>
        simp only [if_true, LgState.finish, hk]
        have hx : (s.mark (lgLinesTest a sfx id sd).key .finished).tests = [((lgLinesTest a sfx id sd).key, .finished)] := by simp [LgState.mark, h3]
        have : ∀ s' : LgState Bytes Bytes, s'.out = s.out → s'.tests = [((lgLinesTest a sfx id sd).key, .finished)] → LinesState (lgLinesTest a sfx id sd) ps out s' := by
          intro s' g1 g2
          refine ⟨⟨left, g1.trans h1, h2⟩, .finished, g2, ?_⟩
          have : s'.patternsLeft (lgLinesTest a sfx id sd) = s.patternsLeft (lgLinesTest a sfx id sd) := by
            simp only [LgState.patternsLeft, LgState.outputOf, g1]
          rw [this, hl]
          simp
        split
        · exact this _ rfl hx
        · exact this _ rfl hx
    · rw [if_neg hb]
      exact ⟨⟨left, h1, h2⟩, x, h3, h4⟩
  | stdout b text =>
    simp only [LgState.reactAll, LgState.react, printed, List.flatMap_cons, List.flatMap_nil, List.append_nil]
    by_cases hb : a = b
    · have hb' : (lgLinesTest a sfx id sd).action = b := hb
      rw [if_pos hb', if_pos hb]
      have ho : (s.collate (lgLinesTest a sfx id sd) text).out =
          [((lgLinesTest a sfx id sd).key, out ++ text, left.filter fun p => !(bLines (out ++ text)).any (bIn p))] := by
        simp only [LgState.collate, h1, List.map_cons, List.map_nil, if_true]
        rfl
      have h2' : ∀ p, p ≠ [] → (p ∈ left.filter (fun p => !(bLines (out ++ text)).any (bIn p)) ↔ p ∈ ps ∧ ¬ (OneLine p ∧ p <:+: out ++ text)) := by
        intro p hp
        rw [List.mem_filter, h2 p hp, Bool.not_eq_true', ← Bool.not_eq_true, C93_in_line _ _ hp]
        constructor
        · rintro ⟨⟨x1, -⟩, x2⟩
          exact ⟨x1, x2⟩
        · rintro ⟨x1, x2⟩
          exact ⟨⟨x1, fun x => x2 ⟨x.1, x.2.trans (List.prefix_append _ _).isInfix⟩⟩, x2⟩
      have ht : (s.collate (lgLinesTest a sfx id sd) text).tests = s.tests := rfl
      generalize hs1 : s.collate (lgLinesTest a sfx id sd) text = s1 at ho ht
      cases hl : s1.patternsLeft (lgLinesTest a sfx id sd) with
      | true =>
        simp only [if_true]
        refine ⟨⟨_, ho, h2'⟩, x, ht.trans h3, ?_⟩
        rw [hl]
        constructor
        · intro hx
          have := h4.1 hx
          exfalso
          simp only [LgState.patternsLeft, LgState.outputOf, ho, h1, List.find?_cons, decide_true, Option.map_some] at this hl
          rw [List.any_eq_true] at hl
          obtain ⟨p, hp, hpt⟩ := hl
          rw [List.any_eq_false] at this
          exact this p (List.mem_filter.1 hp).1 hpt
        · intro hx; cases hx
      | false =>
        have hk1 : s1.known (lgLinesTest a sfx id sd).key = true := by rw [LgState.known, ht]; exact hk
        simp only [Bool.false_eq_true, if_false, LgState.succeed, hk1, if_true]
        have hx : (s1.mark (lgLinesTest a sfx id sd).key .succeeded).tests = [((lgLinesTest a sfx id sd).key, .succeeded)] := by simp [LgState.mark, ht, h3]
        have : ∀ s' : LgState Bytes Bytes, s'.out = s1.out → s'.tests = [((lgLinesTest a sfx id sd).key, .succeeded)] →
            LinesState (lgLinesTest a sfx id sd) ps (out ++ text) s' := by
          intro s' g1 g2
          refine ⟨⟨_, g1.trans ho, h2'⟩, .succeeded, g2, ?_⟩
          have : s'.patternsLeft (lgLinesTest a sfx id sd) = s1.patternsLeft (lgLinesTest a sfx id sd) := by
            simp only [LgState.patternsLeft, LgState.outputOf, g1]
          rw [this, hl]
          simp
        split
        · exact this _ rfl hx
        · exact this _ rfl hx
    · have hb' : ¬ (lgLinesTest a sfx id sd).action = b := hb
      rw [if_neg hb', if_neg hb, List.append_nil]
      exact ⟨⟨left, h1, h2⟩, x, h3, h4⟩

theorem linesState_history {ps : List Bytes} : ∀ (es : List (LgEvent Bytes)) {out : Bytes} {s : LgState Bytes Bytes},
    LinesState (lgLinesTest a sfx id sd) ps out s → (∀ p, LgEvent.shutdown p ∉ es) →
    LinesState (lgLinesTest a sfx id sd) ps (out ++ printed a es)
      (s.history [.outputStdout (lgLinesTest a sfx id sd), .outputShutdown (lgLinesTest a sfx id sd), .outputExit (lgLinesTest a sfx id sd)] es).1
  | [], out, s, h, _ => by simpa [printed, LgState.history] using h
  | e :: es, out, s, h, hn => by
    have h1 := linesState_react h e (fun p hp => hn p (by rw [hp]; exact List.mem_cons_self))
    have h2 := linesState_history es h1 (fun p hp => hn p (List.mem_cons_of_mem _ hp))
    rw [List.append_assoc] at h2
    have hp : printed a [e] ++ printed a es = printed a (e :: es) := by simp [printed]
    rw [hp] at h2
    exact h2

end

/-- A lines test has succeeded exactly if every line expected that is not empty is in the output so far (and contains no line end), however the output was cut
into pieces and whenever the process exited. -/
theorem C93_lines_test (a : Nat) (sfx : String) (sd : Bool) (ps : List Bytes) (hps : ∃ p ∈ ps, p ≠ []) (es : List (LgEvent Bytes))
    (hn : ∀ p, LgEvent.shutdown p ∉ es) :
    ∃ s x, lgAfter [.output (lgLinesTest a sfx id sd) [] ps] es = .ok s ∧ s.tests = [((lgLinesTest a sfx id sd).key, x)] ∧
      (x = .succeeded ↔ ∀ p ∈ ps, p ≠ [] → (10 ∉ p ∧ 13 ∉ p) ∧ p <:+: printed a es) := by
  obtain ⟨p, hp, hpn⟩ := hps
  have hany : ps.any (lgLinesTest a sfx id sd).truthy = true := by
    rw [List.any_eq_true]
    refine ⟨p, hp, ?_⟩
    cases p with
    | nil => exact absurd rfl hpn
    | cons c cs => rfl
  have hset : lgSetUp {} [LgAdd.output (lgLinesTest a sfx id sd) [] ps] =
      .ok { tests := [((lgLinesTest a sfx id sd).key, .armed)], out := [((lgLinesTest a sfx id sd).key, [], ps)] } := by
    simp only [lgSetUp, LgAdd.apply, hany, if_true]
    rfl
  have h0 : LinesState (lgLinesTest a sfx id sd) ps []
      ({ tests := [((lgLinesTest a sfx id sd).key, .armed)], out := [((lgLinesTest a sfx id sd).key, [], ps)] } : LgState Bytes Bytes) := by
    refine ⟨⟨ps, rfl, ?_⟩, .armed, rfl, ?_⟩
    · intro q hq
      simp [List.infix_nil, hq]
    · simp only [LgState.patternsLeft, LgState.outputOf, List.find?_cons, decide_true, Option.map_some, hany]
      simp
  obtain ⟨⟨left, h1, h2⟩, x, h3, h4⟩ := linesState_history es h0 hn
  refine ⟨_, x, ?_, h3, ?_⟩
  · simp only [lgAfter, hset]
    rfl
  · rw [h4]
    simp only [LgState.patternsLeft, LgState.outputOf, h1, List.find?_cons, decide_true, Option.map_some]
    rw [List.any_eq_false, List.nil_append] at *
    constructor
    · intro h q hq hqn
      apply Classical.byContradiction
      intro hc
      have := h q ((h2 q hqn).2 ⟨hq, hc⟩)
      cases q with
      | nil => exact hqn rfl
      | cons c cs => exact this rfl
    · intro h q hq
      cases q with
      | nil => simp [lgLinesTest]
      | cons c cs =>
        obtain ⟨g1, g2⟩ := (h2 (c :: cs) (by simp)).1 hq
        exact absurd (h (c :: cs) g1 (by simp)) g2

/-- `ab` is found although it is printed in two pieces, the second one after the process exited. -/
example : ∃ s x, lgAfter [.output (lgLinesTest 0 "output" id false) [] [[97, 98]]] [.stdout 0 [120, 97], .exit 0 "talker" 0 false, .stdout 0 [98, 10]] = .ok s ∧
    s.tests = [(⟨0, some "output"⟩, x)] ∧ x = .succeeded := by
  obtain ⟨s, x, h1, h2, h3⟩ := C93_lines_test 0 "output" false [[97, 98]] ⟨[97, 98], by simp, by simp⟩
    [.stdout 0 [120, 97], .exit 0 "talker" 0 false, .stdout 0 [98, 10]] (by simp)
  refine ⟨s, x, h1, h2, h3.2 ?_⟩
  intro p hp _
  rw [List.mem_singleton] at hp
  subst hp
  exact ⟨by simp, ⟨[120], [10], rfl⟩⟩

/-! ## The regex test -/

theorem bLines_one {l : Bytes} (h : OneLine l) : bLines (l ++ [10]) = [l] := by
  have : ∀ (l acc : Bytes), OneLine l → bLinesAux acc (l ++ [10]) = [acc ++ l] := by
    intro l
    induction l with
    | nil => intro acc _; rw [List.nil_append, bLinesAux_end (.inl rfl) (by simp), List.append_nil]; rfl
    | cons c cs ih =>
      intro acc h
      simp only [OneLine, List.mem_cons, not_or] at h
      rw [List.cons_append, bLinesAux_other (by rintro (x | x); exact h.1.1 x.symm; exact h.2.1 x.symm), ih _ ⟨h.1.2, h.2.2⟩]
      simp
  exact this l [] h

/-- The line ends between two pieces of output are lost: a pattern is looked for in lines glued together. -/
theorem C93_regex_glued_violated (a : Nat) (l m : Bytes) (hl : OneLine l) (hm : OneLine m) (p : Bytes → Bool) :
    ∃ s x, lgAfter [.output (lgRegexTest a "output" id false) [] [p]] [.stdout a (l ++ [10]), .stdout a (m ++ [10])] = .ok s ∧
      s.tests = [(⟨a, some "output"⟩, x)] ∧ (x = .succeeded ↔ p l = true ∨ p (l ++ m) = true) := by
  have e1 : ([10] : Bytes).intercalate (bLines (l ++ [10])) = l := by rw [bLines_one hl]; simp [List.intercalate]
  have e2 : ([10] : Bytes).intercalate (bLines (m ++ [10])) = m := by rw [bLines_one hm]; simp [List.intercalate]
  cases h1 : p l <;> cases h2 : p (l ++ m) <;>
    simp [lgAfter, lgSetUp, LgAdd.apply, LgAdd.handlers, LgState.history, LgState.reactAll, LgState.react, lgRegexTest, LgState.collate, LgState.arm,
      LgOutput.key, LgState.patternsLeft, LgState.outputOf, LgState.succeed, LgState.known, LgState.mark, LgState.noneArmed, LgState.emit, h1, h2, e1, e2]

/-- `ab` is found in the lines `a` and `b`. -/
example : ∃ s, lgAfter [.output (lgRegexTest 0 "output" id false) [] [bIn [97, 98]]] [.stdout 0 [97, 10], .stdout 0 [98, 10]] = .ok s ∧
    s.tests = [(⟨0, some "output"⟩, .succeeded)] := by
  obtain ⟨s, x, h1, h2, h3⟩ := C93_regex_glued_violated 0 [97] [98] ⟨by simp, by simp⟩ ⟨by simp, by simp⟩ (bIn [97, 98])
  exact ⟨s, h1, by rw [h2, h3.2 (.inr (by decide))]⟩

/-! ## The filter -/

theorem anyConsume_none {line : Bytes} : ∀ {ps : List (Bytes → Bool)}, (∀ p ∈ ps, p line = false) → anyConsume line ps = (false, [])
  | [], _ => rfl
  | p :: ps, h => by
    rw [anyConsume, h p List.mem_cons_self]
    exact anyConsume_none (fun q hq => h q (List.mem_cons_of_mem _ hq))

theorem anyConsume_subset {line : Bytes} : ∀ {ps : List (Bytes → Bool)}, ∀ q ∈ (anyConsume line ps).2, q ∈ ps
  | [], q, h => h
  | p :: ps, q, h => by
    rw [anyConsume] at h
    split at h
    · exact List.mem_cons_of_mem _ h
    · exact List.mem_cons_of_mem _ (anyConsume_subset q h)

theorem anyConsume_true {line : Bytes} : ∀ {ps : List (Bytes → Bool)}, (anyConsume line ps).1 = true → ∃ p ∈ ps, p line = true
  | [], h => by cases h
  | p :: ps, h => by
    rw [anyConsume] at h
    split at h
    · next hp => exact ⟨p, List.mem_cons_self, hp⟩
    · obtain ⟨q, hq, h⟩ := anyConsume_true h
      exact ⟨q, List.mem_cons_of_mem _ hq, h⟩

theorem lgKeep_sublist (prefixes : List Bytes) : ∀ (ls : List Bytes) (ps : List (Bytes → Bool)),
    (lgKeep prefixes ps ls).1.Sublist (ls.filter fun l => !prefixes.any (·.isPrefixOf l))
  | [], _ => .slnil
  | l :: ls, ps => by
    rw [lgKeep, List.filter_cons]
    cases h : prefixes.any (·.isPrefixOf l) with
    | true => simpa using lgKeep_sublist prefixes ls ps
    | false =>
      simp only [Bool.false_eq_true, if_false, Bool.not_false, if_true]
      split
      · exact (lgKeep_sublist prefixes ls _).cons _
      · exact (lgKeep_sublist prefixes ls _).cons_cons _

theorem lgKeep_filter (prefixes : List Bytes) (pats : List (Bytes → Bool)) : ∀ (ls : List Bytes) (ps : List (Bytes → Bool)), (∀ p ∈ ps, p ∈ pats) →
    (lgKeep prefixes ps ls).1.filter (fun l => !pats.any (· l)) = ls.filter fun l => !prefixes.any (·.isPrefixOf l) && !pats.any (· l)
  | [], _, _ => rfl
  | l :: ls, ps, hs => by
    rw [lgKeep, List.filter_cons]
    cases h : prefixes.any (·.isPrefixOf l) with
    | true => simpa using lgKeep_filter prefixes pats ls ps hs
    | false =>
      simp only [Bool.false_eq_true, if_false, Bool.not_false, Bool.true_and]
      have ih := lgKeep_filter prefixes pats ls (anyConsume l ps).2 (fun q hq => hs q (anyConsume_subset q hq))
      split
      · next hc =>
        obtain ⟨p, hp, hl⟩ := anyConsume_true hc
        rw [if_neg, ih]
        simp only [Bool.not_eq_true', ← Bool.not_eq_true, Classical.not_not]
        exact List.any_eq_true.2 ⟨p, hs p hp, hl⟩
      · rw [List.filter_cons, ih]

theorem bLinesAux_line {l : Bytes} (t : Bytes) : ∀ acc, OneLine l → bLinesAux acc (l ++ 10 :: t) = (acc ++ l) :: bLines t := by
  induction l with
  | nil => intro acc _; rw [List.nil_append, bLinesAux_end (.inl rfl) (by simp), List.append_nil]; rfl
  | cons c cs ih =>
    intro acc h
    simp only [OneLine, List.mem_cons, not_or] at h
    rw [List.cons_append, bLinesAux_other (by rintro (x | x); exact h.1.1 x.symm; exact h.2.1 x.symm), ih _ ⟨h.1.2, h.2.2⟩]
    simp

theorem bLinesAux_last {l : Bytes} : ∀ acc, OneLine l → bLinesAux acc l = if (acc ++ l).isEmpty then [] else [acc ++ l] := by
  induction l with
  | nil => intro acc _; rw [bLinesAux, List.append_nil]
  | cons c cs ih =>
    intro acc h
    simp only [OneLine, List.mem_cons, not_or] at h
    rw [bLinesAux_other (by rintro (x | x); exact h.1.1 x.symm; exact h.2.1 x.symm), ih _ ⟨h.1.2, h.2.2⟩]
    simp

theorem intercalate_two {sep a b : Bytes} {l : List Bytes} : sep.intercalate (a :: b :: l) = a ++ sep ++ sep.intercalate (b :: l) := by
  simp [List.intercalate]

/-- Lines that are joined and split again: only an empty one at the end is lost. -/
theorem bLines_join : ∀ (ls : List Bytes), (∀ l ∈ ls, OneLine l) →
    bLines ([10].intercalate ls) = if ls.getLast? = some [] then ls.dropLast else ls
  | [], _ => rfl
  | [l], h => by
    have h1 := h l List.mem_cons_self
    have : ([10] : Bytes).intercalate [l] = l := by simp [List.intercalate]
    rw [this, bLines, bLinesAux_last [] h1]
    cases l <;> simp
  | a :: b :: l, h => by
    rw [intercalate_two, List.append_assoc, List.singleton_append, bLines, bLinesAux_line _ [] (h a List.mem_cons_self),
      bLines_join (b :: l) (fun x hx => h x (List.mem_cons_of_mem _ hx)), List.nil_append, List.getLast?_cons_cons]
    split <;> simp

theorem bLines_join_ended : ∀ (ls : List Bytes), (∀ l ∈ ls, OneLine l) → bLines ([10].intercalate (ls ++ [[10]])) = ls ++ [[]]
  | [], _ => by decide
  | a :: l, h => by
    have ih := bLines_join_ended l (fun x hx => h x (List.mem_cons_of_mem _ hx))
    cases l with
    | nil =>
      rw [List.cons_append, List.nil_append, intercalate_two, List.append_assoc, List.singleton_append, bLines, bLinesAux_line _ [] (h a List.mem_cons_self)]
      simpa [List.intercalate] using (show bLines [10] = [[]] by decide)
    | cons b l =>
      rw [List.cons_append, List.cons_append, intercalate_two, List.append_assoc, List.singleton_append, bLines, bLinesAux_line _ [] (h a List.mem_cons_self)]
      rw [List.cons_append] at ih
      rw [ih]
      simp

/-- What is in the filtered output, up to empty lines. -/
theorem lgFilter_lines (prefixes : List Bytes) (ps : List (Bytes → Bool)) (out : Bytes) :
    (bLines (lgFilter prefixes ps out).1).filter (· ≠ []) = (lgKeep prefixes ps (bLines out)).1.filter (· ≠ []) := by
  have ho : ∀ l ∈ (lgKeep prefixes ps (bLines out)).1, OneLine l := by
    intro l hl
    exact oneLine_bLinesAux out [] ⟨by simp, by simp⟩ l (List.mem_filter.1 ((lgKeep_sublist prefixes (bLines out) ps).subset hl)).1
  rw [lgFilter]
  simp only
  split
  · rw [bLines_join_ended _ ho]
    simp
  · rw [bLines_join _ ho]
    split
    · next h =>
      obtain ⟨r, hr⟩ := List.getLast?_eq_some_iff.1 h
      rw [hr, List.dropLast_concat, List.filter_append]
      simp
    · rfl

/-- A filter removes no line that starts with none of the prefixes and matches none of the patterns, adds no line that is not empty, changes neither a line nor
the order, and removes every line with one of the prefixes.  Missing: that it removes the lines that match a pattern (`C93_patterns_violated`), and that
it adds no empty line (`C93_extra_line_violated`). -/
theorem C93_filter_partial (prefixes : List Bytes) (pats : List (Bytes → Bool)) (out : Bytes) :
    let kept := (bLines (lgFilter prefixes pats out).1).filter (· ≠ [])
    kept.Sublist ((bLines out).filter fun l => l ≠ [] ∧ ∀ p ∈ prefixes, ¬ p <+: l) ∧
      kept.filter (fun l => ∀ p ∈ pats, p l = false) =
        (bLines out).filter fun l => l ≠ [] ∧ (∀ p ∈ prefixes, ¬ p <+: l) ∧ ∀ p ∈ pats, p l = false := by
  have e1 : ∀ l : Bytes, (!prefixes.any (·.isPrefixOf l)) = decide (∀ p ∈ prefixes, ¬ p <+: l) := by
    intro l
    rw [Bool.eq_iff_iff, Bool.not_eq_true', List.any_eq_false, decide_eq_true_iff]
    simp only [List.isPrefixOf_iff_prefix]
  have e2 : ∀ l : Bytes, (!pats.any (· l)) = decide (∀ p ∈ pats, p l = false) := by
    intro l
    rw [Bool.eq_iff_iff, Bool.not_eq_true', List.any_eq_false, decide_eq_true_iff]
    simp only [Bool.not_eq_true]
  simp only
  rw [lgFilter_lines]
  constructor
  · have := (lgKeep_sublist prefixes (bLines out) pats).filter (fun l => decide (l ≠ []))
    rw [List.filter_filter] at this
    have hf : (fun l : Bytes => decide (l ≠ []) && !prefixes.any (·.isPrefixOf l)) = fun l => decide (l ≠ [] ∧ ∀ p ∈ prefixes, ¬ p <+: l) := by
      funext l
      rw [e1]
      simp
    rw [hf] at this
    exact this
  · have h := congrArg (List.filter fun l => decide (l ≠ [])) (lgKeep_filter prefixes pats (bLines out) pats (fun _ h => h))
    rw [List.filter_filter, List.filter_filter] at h
    rw [List.filter_filter]
    refine Eq.trans ?_ (h.trans ?_)
    · congr 1
      funext l
      rw [← e2, Bool.and_comm]
    · congr 1
      funext l
      rw [e1, e2]
      simp

/-- Without arguments, the filter removes exactly the lines that begin with `pid` or `rc` (and empty lines, see above): for every output. -/
theorem C93_default_prefixes (out : Bytes) :
    (bLines (lgFilter (lgPrefixes none) [] out).1).filter (· ≠ []) =
      (bLines out).filter fun l => l ≠ [] ∧ ¬ ("pid".toList.map Char.toNat) <+: l ∧ ¬ ("rc".toList.map Char.toNat) <+: l := by
  have h := (C93_filter_partial (lgPrefixes none) [] out).2
  simp only [lgPrefixes, List.not_mem_nil, false_imp_iff, implies_true, decide_true, and_true, List.mem_cons, or_false, forall_eq_or_imp, forall_eq] at h
  have e1 : ("pid".toList.map Char.toNat) = [112, 105, 100] := by decide +kernel
  have e2 : ("rc".toList.map Char.toNat) = [114, 99] := by decide +kernel
  rw [e1, e2, ← h, List.filter_filter]
  congr 1

/-- With the default prefixes and without patterns, `pid 7` is removed. -/
example : (bLines (lgFilter (lgPrefixes none) [] [112, 105, 100, 32, 55, 10, 97]).1).filter (· ≠ []) = [[97]] := by decide +kernel

/-- If the output ends with a line end, the filtered output has one more line. -/
theorem C93_extra_line_violated (prefixes : List Bytes) (out : Bytes) :
    bLines (lgFilter prefixes [] (out ++ [10])).1 = (bLines (out ++ [10])).filter (fun l => ∀ p ∈ prefixes, ¬ p <+: l) ++ [[]] := by
  have e1 : ∀ l : Bytes, (!prefixes.any (·.isPrefixOf l)) = decide (∀ p ∈ prefixes, ¬ p <+: l) := by
    intro l
    rw [Bool.eq_iff_iff, Bool.not_eq_true', List.any_eq_false, decide_eq_true_iff]
    simp only [List.isPrefixOf_iff_prefix]
  have ho : ∀ l ∈ (lgKeep prefixes [] (bLines (out ++ [10]))).1, OneLine l := by
    intro l hl
    exact oneLine_bLinesAux _ [] ⟨by simp, by simp⟩ l (List.mem_filter.1 ((lgKeep_sublist prefixes _ []).subset hl)).1
  have hk := lgKeep_filter prefixes [] (bLines (out ++ [10])) [] (fun _ h => h)
  simp only [List.any_nil, Bool.not_false, Bool.and_true, e1] at hk
  rw [List.filter_eq_self.2 (fun _ _ => rfl)] at hk
  rw [← hk, lgFilter]
  simp only
  rw [if_pos (by rw [List.isSuffixOf_iff_suffix]; exact List.suffix_append _ _), bLines_join_ended _ ho]

/-- `a` and a line end become `a` and two line ends. -/
example : (lgFilter (lgPrefixes none) [] [97, 10]).1 = [97, 10, 10] := by decide

theorem lgKeep_consumed (prefixes : List Bytes) (l : Bytes) (ls' : List Bytes) : ∀ (ls : List Bytes) (ps : List (Bytes → Bool)),
    prefixes.any (·.isPrefixOf l) = false → (∀ p ∈ ps, p l = false) →
    (lgKeep prefixes ps (ls ++ l :: ls')).2 = [] ∧
      (lgKeep prefixes ps (ls ++ l :: ls')).1 = (lgKeep prefixes ps ls).1 ++ l :: (ls'.filter fun l => !prefixes.any (·.isPrefixOf l))
  | [], ps, h1, h2 => by
    have h3 : ∀ ls : List Bytes, lgKeep prefixes [] ls = (ls.filter (fun l => !prefixes.any (·.isPrefixOf l)), []) := by
      intro ls
      induction ls with
      | nil => rfl
      | cons x xs ih =>
        rw [lgKeep, List.filter_cons]
        cases h : prefixes.any (·.isPrefixOf x) with
        | true => simpa using ih
        | false => simp [anyConsume, ih]
    simp only [List.nil_append, lgKeep, h1, anyConsume_none h2, h3, Bool.false_eq_true, if_false, and_self]
  | x :: xs, ps, h1, h2 => by
    rw [List.cons_append, lgKeep, lgKeep]
    split
    · exact lgKeep_consumed prefixes l ls' xs ps h1 h2
    · have := lgKeep_consumed prefixes l ls' xs (anyConsume x ps).2 h1 (fun p hp => h2 p (anyConsume_subset p hp))
      simp only
      split
      · exact this
      · rw [this.2]
        exact ⟨this.1, rfl⟩

theorem lgFilterAll_consumed (prefixes : List Bytes) : ∀ os, lgFilterAll prefixes [] os = os.map fun o => (lgFilter prefixes [] o).1
  | [] => rfl
  | o :: os => by
    have h : ∀ ls : List Bytes, (lgKeep prefixes [] ls).2 = [] := by
      intro ls
      induction ls with
      | nil => rfl
      | cons x xs ih => rw [lgKeep]; split; exact ih; exact ih
    rw [lgFilterAll, List.map_cons]
    have : (lgFilter prefixes [] o).2 = [] := h _
    rw [this, lgFilterAll_consumed prefixes os]

/-- After the first line that is kept because it matches no pattern, the patterns have no effect: neither on the following lines of this output nor on any
later output. -/
theorem C93_patterns_violated (prefixes : List Bytes) (pats : List (Bytes → Bool)) (l : Bytes) (hl : OneLine l) (h1 : ∀ p ∈ prefixes, ¬ p <+: l)
    (h2 : ∀ p ∈ pats, p l = false) (out : Bytes) (os : List Bytes) :
    lgFilterAll prefixes pats ((l ++ 10 :: out) :: os) = ((l ++ 10 :: out) :: os).map fun o => (lgFilter prefixes [] o).1 := by
  have hp : prefixes.any (·.isPrefixOf l) = false := by
    rw [List.any_eq_false]
    intro p hp
    rw [List.isPrefixOf_iff_prefix]
    exact h1 p hp
  have hb : bLines (l ++ 10 :: out) = l :: bLines out := by
    exact bLinesAux_line out [] hl
  obtain ⟨k1, k2⟩ := lgKeep_consumed prefixes l (bLines out) [] pats hp h2
  obtain ⟨k3, k4⟩ := lgKeep_consumed prefixes l (bLines out) [] [] hp (fun _ h => by cases h)
  rw [lgKeep] at k2 k4
  simp only [List.nil_append] at k1 k2 k3 k4
  rw [lgFilterAll, List.map_cons]
  have e1 : (lgFilter prefixes pats (l ++ 10 :: out)).2 = [] := by
    rw [lgFilter]
    simp only [hb]
    exact k1
  have e2 : (lgFilter prefixes pats (l ++ 10 :: out)).1 = (lgFilter prefixes [] (l ++ 10 :: out)).1 := by
    rw [lgFilter, lgFilter]
    simp only [hb, k2, k4]
  rw [e1, e2, lgFilterAll_consumed]

/-- A filter for lines with `x` keeps the line `x` after the line `a`. -/
example : lgFilterAll (lgPrefixes none) [bIn [120]] [[97, 10, 120]] = [[97, 10, 120]] := by
  have := C93_patterns_violated (lgPrefixes none) [bIn [120]] [97] ⟨by simp, by simp⟩ (by decide) (by decide) [120] []
  exact this.trans (by decide)

/-- There is no filter without prefixes: the empty list stands for the defaults. -/
theorem C93_no_prefixes_violated (pats : List (Bytes → Bool)) (out : Bytes) :
    lgFilter (lgPrefixes (some [])) pats out = lgFilter (lgPrefixes none) pats out := rfl

/-- The line `rc` is removed by the filter with the empty list of prefixes. -/
example : (lgFilter (lgPrefixes (some [])) [] [114, 99]).1 = [] := by rw [C93_no_prefixes_violated]; decide

end Verif
