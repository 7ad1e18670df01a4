import Verif.Props.LegacyOutput
import Verif.Spec.Legacy

/-! # C93: output tests in general, regular expressions, and expected output in files -/

namespace Verif

section
variable {O P T : Type} {t : LgOutput O P T} {ps : List P}

/-- The outputs that the test looked at, in order. -/
def looked (t : LgOutput O P T) : O → List (LgEvent T) → List O
  | _, [] => []
  | o, .stdout b x :: es => if t.action = b then t.collate o (t.filter x) :: looked t (t.collate o (t.filter x)) es else looked t o es
  | o, _ :: es => looked t o es

theorem lookedAt_cons {out o : O} {e : LgEvent T} {es : List (LgEvent T)} :
    LookedAt t out (e :: es) o ↔ (∃ x, e = .stdout t.action x ∧ o = t.collate out (t.filter x)) ∨ LookedAt t (outputAfter t out [e]) es o := by
  constructor
  · rintro ⟨es', x, h1, h2⟩
    cases es' with
    | nil =>
      rw [List.nil_append, List.cons_prefix_cons] at h1
      exact .inl ⟨x, h1.1.symm, by rw [h2]; simp [outputAfter]⟩
    | cons y es' =>
      rw [List.cons_append, List.cons_prefix_cons] at h1
      obtain ⟨rfl, h1⟩ := h1
      exact .inr ⟨es', x, h1, by rw [h2]; simp [outputAfter]⟩
  · rintro (⟨x, rfl, rfl⟩ | ⟨es', x, h1, h2⟩)
    · exact ⟨[], x, by simp, by simp [outputAfter]⟩
    · exact ⟨e :: es', x, by rw [List.cons_append, List.cons_prefix_cons]; exact ⟨rfl, h1⟩, by rw [h2]; simp [outputAfter]⟩

theorem mem_looked {o : O} : ∀ {es : List (LgEvent T)} {out : O}, o ∈ looked t out es ↔ LookedAt t out es o
  | [], out => by
    simp only [looked, List.not_mem_nil, false_iff]
    rintro ⟨es', x, h, _⟩
    simp at h
  | e :: es, out => by
    rw [lookedAt_cons]
    cases e with
    | stdout b x =>
      simp only [looked, outputAfter, List.foldl_cons, List.foldl_nil]
      by_cases hb : t.action = b
      · subst hb
        simp only [if_true, List.mem_cons, mem_looked (es := es)]
        constructor
        · rintro (rfl | h)
          · exact .inl ⟨x, rfl, rfl⟩
          · exact .inr h
        · rintro (⟨y, hy, rfl⟩ | h)
          · cases hy; exact .inl rfl
          · exact .inr h
      · simp only [if_neg hb, mem_looked (es := es)]
        constructor
        · exact .inr
        · rintro (⟨y, hy, _⟩ | h)
          · cases hy; exact absurd rfl hb
          · exact h
    | exit | complete | shutdown => simp [looked, outputAfter, mem_looked (es := es)]

/-- The invariant of a service with one output test: `seen` are the outputs it looked at. -/
structure OutState (t : LgOutput O P T) (ps : List P) (out : O) (seen : List O) (s : LgState O P) : Prop where
  out : s.out = [(t.key, out, ps.filter fun p => !seen.any (t.found · p))]
  tests : ∃ x, s.tests = [(t.key, x)] ∧ (x = .succeeded ↔ s.patternsLeft t = false)

theorem patternsLeft_of {s s' : LgState O P} (h : s'.out = s.out) : s'.patternsLeft t = s.patternsLeft t := by
  simp only [LgState.patternsLeft, LgState.outputOf, h]

theorem outState_react {out : O} {seen : List O} {s : LgState O P} (h : OutState t ps out seen s) (e : LgEvent T) (he : ∀ p, e ≠ .shutdown p) :
    OutState t ps (outputAfter t out [e]) (seen ++ looked t out [e]) (s.reactAll e [.outputStdout t, .outputShutdown t, .outputExit t]).1 := by
  obtain ⟨h1, x, h3, h4⟩ := h
  have hk : s.known t.key = true := by simp [LgState.known, h3]
  cases e with
  | complete b f =>
    simp only [LgState.reactAll, LgState.react, looked, outputAfter, List.foldl_cons, List.foldl_nil, List.append_nil]
    exact ⟨h1, x, h3, h4⟩
  | shutdown p => exact absurd rfl (he p)
  | exit b n rc sh =>
    simp only [LgState.reactAll, LgState.react, looked, outputAfter, List.foldl_cons, List.foldl_nil, List.append_nil]
    by_cases hb : t.action = b
    · rw [if_pos hb]
      cases hl : s.patternsLeft t with
      | false => simp only [Bool.false_eq_true, if_false]; exact ⟨h1, x, h3, h4⟩
      | true =>
        simp only [if_true, LgState.finish, hk]
        have hx : (s.mark t.key .finished).tests = [(t.key, .finished)] := by simp [LgState.mark, h3]
        have : ∀ s' : LgState O P, s'.out = s.out → s'.tests = [(t.key, .finished)] → OutState t ps out seen s' := by
          intro s' g1 g2
          refine ⟨g1.trans h1, .finished, g2, ?_⟩
          rw [patternsLeft_of g1, hl]
          simp
        split
        · exact this _ rfl hx
        · exact this _ rfl hx
    · rw [if_neg hb]
      exact ⟨h1, x, h3, h4⟩
  | stdout b text =>
    simp only [LgState.reactAll, LgState.react, looked, outputAfter, List.foldl_cons, List.foldl_nil]
    by_cases hb : t.action = b
    · rw [if_pos hb, if_pos hb, if_pos hb]
      have ho : (s.collate t text).out =
          [(t.key, t.collate out (t.filter text), ps.filter fun p => !(seen ++ [t.collate out (t.filter text)]).any (t.found · p))] := by
        simp only [LgState.collate, h1, List.map_cons, List.map_nil, if_true, List.filter_filter]
        refine congrArg (fun l => [(t.key, t.collate out (t.filter text), l)]) ?_
        refine List.filter_congr fun p _ => ?_
        simp [List.any_append, Bool.and_comm]
      have ht : (s.collate t text).tests = s.tests := rfl
      generalize hs1 : s.collate t text = s1 at ho ht
      cases hl : s1.patternsLeft t with
      | true =>
        simp only [if_true]
        refine ⟨ho, x, ht.trans h3, ?_⟩
        rw [hl]
        constructor
        · intro hx
          have := h4.1 hx
          exfalso
          simp only [LgState.patternsLeft, LgState.outputOf, ho, h1, List.find?_cons, decide_true, Option.map_some] at this hl
          rw [List.any_eq_true] at hl
          obtain ⟨p, hp, hpt⟩ := hl
          rw [List.any_eq_false] at this
          refine this p ?_ hpt
          simp only [List.mem_filter, List.any_append, Bool.not_or, Bool.and_eq_true] at hp ⊢
          exact ⟨hp.1, hp.2.1⟩
        · intro hx; cases hx
      | false =>
        have hk1 : s1.known t.key = true := by rw [LgState.known, ht]; exact hk
        simp only [Bool.false_eq_true, if_false, LgState.succeed, hk1, if_true]
        have hx : (s1.mark t.key .succeeded).tests = [(t.key, .succeeded)] := by simp [LgState.mark, ht, h3]
        have : ∀ s' : LgState O P, s'.out = s1.out → s'.tests = [(t.key, .succeeded)] →
            OutState t ps (t.collate out (t.filter text)) (seen ++ [t.collate out (t.filter text)]) s' := by
          intro s' g1 g2
          refine ⟨g1.trans ho, .succeeded, g2, ?_⟩
          rw [patternsLeft_of g1, hl]
          simp
        split
        · exact this _ rfl hx
        · exact this _ rfl hx
    · rw [if_neg hb, if_neg hb, if_neg hb, List.append_nil]
      exact ⟨h1, x, h3, h4⟩

theorem looked_cons (e : LgEvent T) (es : List (LgEvent T)) (out : O) :
    looked t out (e :: es) = looked t out [e] ++ looked t (outputAfter t out [e]) es := by
  cases e with
  | stdout b x =>
    simp only [looked, outputAfter, List.foldl_cons, List.foldl_nil]
    by_cases hb : t.action = b <;> simp [hb]
  | exit | complete | shutdown => simp [looked, outputAfter]

theorem outState_history : ∀ (es : List (LgEvent T)) {out : O} {seen : List O} {s : LgState O P}, OutState t ps out seen s → (∀ p, LgEvent.shutdown p ∉ es) →
    OutState t ps (outputAfter t out es) (seen ++ looked t out es) (s.history [.outputStdout t, .outputShutdown t, .outputExit t] es).1
  | [], out, seen, s, h, _ => by simpa [looked, outputAfter, LgState.history] using h
  | e :: es, out, seen, s, h, hn => by
    have h1 := outState_react h e (fun p hp => hn p (by rw [hp]; exact List.mem_cons_self))
    have h2 := outState_history es h1 (fun p hp => hn p (List.mem_cons_of_mem _ hp))
    rw [List.append_assoc, ← looked_cons] at h2
    have : outputAfter t (outputAfter t out [e]) es = outputAfter t out (e :: es) := by simp [outputAfter]
    rw [this] at h2
    exact h2

end

/-- Until the shutdown, an output test of any kind has succeeded exactly if every one of its patterns (that is not empty) was found in the output that was
collected after some piece of output of the action, with pieces from other actions in between being ignored, and whenever the process exits. -/
theorem C93_output_test {O P T : Type} (t : LgOutput O P T) (out : O) (ps : List P) (hps : ∃ p ∈ ps, t.truthy p = true) (es : List (LgEvent T))
    (hn : ∀ p, LgEvent.shutdown p ∉ es) :
    ∃ s x, lgAfter [.output t out ps] es = .ok s ∧ s.tests = [(t.key, x)] ∧
      (x = .succeeded ↔ ∀ p ∈ ps, t.truthy p = true → ∃ o, LookedAt t out es o ∧ t.found o p = true) := by
  have hany : ps.any t.truthy = true := by rwa [List.any_eq_true]
  have hset : lgSetUp {} [LgAdd.output t out ps] = .ok { tests := [(t.key, .armed)], out := [(t.key, out, ps)] } := by
    simp only [lgSetUp, LgAdd.apply, hany, if_true]
    rfl
  have h0 : OutState t ps out [] ({ tests := [(t.key, .armed)], out := [(t.key, out, ps)] } : LgState O P) := by
    refine ⟨?_, .armed, rfl, ?_⟩
    · simp [List.filter_eq_self.2]
    · simp only [LgState.patternsLeft, LgState.outputOf, List.find?_cons, decide_true, Option.map_some, hany]
      simp
  obtain ⟨h1, x, h3, h4⟩ := outState_history es h0 hn
  refine ⟨_, x, ?_, h3, ?_⟩
  · simp only [lgAfter, hset]
    rfl
  · rw [h4]
    simp only [LgState.patternsLeft, LgState.outputOf, h1, List.find?_cons, decide_true, Option.map_some, List.nil_append]
    rw [List.any_eq_false]
    constructor
    · intro h p hp ht
      apply Classical.byContradiction
      intro hc
      refine h p ?_ ht
      simp only [List.mem_filter, hp, true_and, Bool.not_eq_true', List.any_eq_false]
      intro o ho hf
      exact hc ⟨o, mem_looked.1 ho, hf⟩
    · intro h p hp ht
      simp only [List.mem_filter, Bool.not_eq_true', List.any_eq_false] at hp
      obtain ⟨o, ho, hf⟩ := h p hp.1 ht
      exact hp.2 o (mem_looked.2 ho) hf

/-- Two regular expressions are found at different times, the first one not any more at the end (`^a$`, say). -/
example : ∃ s x, lgAfter [.output (lgRegexTest 0 "output" id false) [] [fun o => o == [97], fun o => o == [97, 98]]]
      [.stdout 0 [97, 10], .stdout 1 [99], .stdout 0 [98, 10]] = .ok s ∧ s.tests = [(⟨0, some "output"⟩, x)] ∧ x = .succeeded := by
  obtain ⟨s, x, h1, h2, h3⟩ := C93_output_test (lgRegexTest 0 "output" id false) [] [fun o => o == [97], fun o => o == [97, 98]]
    ⟨_, List.mem_cons_self, rfl⟩ [.stdout 0 [97, 10], .stdout 1 [99], .stdout 0 [98, 10]] (by simp)
  refine ⟨s, x, h1, h2, h3.2 ?_⟩
  intro p hp _
  rcases List.mem_cons.1 hp with rfl | hp
  · exact ⟨[97], ⟨[], [97, 10], ⟨_, rfl⟩, by decide +kernel⟩, rfl⟩
  · rw [List.mem_singleton] at hp
    subst hp
    exact ⟨[97, 98], ⟨[.stdout 0 [97, 10], .stdout 1 [99]], [98, 10], ⟨[], rfl⟩, by decide +kernel⟩, rfl⟩

/-- What a regex test looks at: the pieces of output, each one without its last line end and with other line ends replaced by `\n`, glued together. -/
def gluedPieces (a : Nat) (es : List (LgEvent Bytes)) : Bytes :=
  es.flatMap fun e => match e with | .stdout b x => if a = b then [10].intercalate (bLines x) else [] | _ => []

theorem outputAfter_regex {a : Nat} {sfx : String} {sd : Bool} : ∀ (es : List (LgEvent Bytes)) (out : Bytes),
    outputAfter (lgRegexTest a sfx id sd) out es = out ++ gluedPieces a es
  | [], out => by simp [outputAfter, gluedPieces]
  | e :: es, out => by
    have ih := outputAfter_regex (a := a) (sfx := sfx) (sd := sd) es
    have : outputAfter (lgRegexTest a sfx id sd) out (e :: es) = outputAfter (lgRegexTest a sfx id sd) (outputAfter (lgRegexTest a sfx id sd) out [e]) es := by
      simp [outputAfter]
    rw [this, ih]
    cases e with
    | stdout b x =>
      by_cases hb : a = b
      · subst hb; simp [outputAfter, lgRegexTest, gluedPieces]
      · simp [outputAfter, lgRegexTest, gluedPieces, hb]
    | exit | complete | shutdown => simp [outputAfter, gluedPieces]

/-- A regex test has succeeded exactly if every pattern was found in what had been printed after some piece of output, except that line ends at the end of
pieces are lost (`C93_regex_glued_violated`), which is what is missing. -/
theorem C93_regex_test_partial (a : Nat) (sfx : String) (sd : Bool) (ps : List (Bytes → Bool)) (hps : ps ≠ []) (es : List (LgEvent Bytes))
    (hn : ∀ p, LgEvent.shutdown p ∉ es) :
    ∃ s x, lgAfter [.output (lgRegexTest a sfx id sd) [] ps] es = .ok s ∧ s.tests = [(⟨a, some sfx⟩, x)] ∧
      (x = .succeeded ↔ ∀ p ∈ ps, ∃ es' y, es' ++ [.stdout a y] <+: es ∧ p (gluedPieces a (es' ++ [.stdout a y])) = true) := by
  obtain ⟨p, l, rfl⟩ := List.exists_cons_of_ne_nil hps
  obtain ⟨s, x, h1, h2, h3⟩ := C93_output_test (lgRegexTest a sfx id sd) [] (p :: l) ⟨p, List.mem_cons_self, rfl⟩ es hn
  refine ⟨s, x, h1, h2, h3.trans ⟨fun h p hp => ?_, fun h p hp _ => ?_⟩⟩
  · obtain ⟨o, ⟨es', y, g1, g2⟩, hf⟩ := h p hp rfl
    rw [outputAfter_regex, List.nil_append] at g2
    subst g2
    exact ⟨es', y, g1, hf⟩
  · obtain ⟨es', y, g1, g2⟩ := h p hp
    exact ⟨_, ⟨es', y, g1, rfl⟩, by rw [outputAfter_regex, List.nil_append]; exact g2⟩

/-- Expected output in a file.  If there is a file with the extension .txt, its lines are expected, and the test succeeds exactly if each of them that is not
empty is in the output, whatever file with the extension .regex there is. -/
theorem C93_from_text_file (compile : Bytes → Option (Bytes → Bool)) (txt : Bytes) (regex : Option Bytes) (a : Nat) (sfx : String) (sd : Bool)
    (es : List (LgEvent Bytes)) (hl : ∃ l ∈ bLines txt, l ≠ []) (hn : ∀ p, LgEvent.shutdown p ∉ es) :
    ∃ expected s x, lgFromFile compile (some txt) regex = .ok (.lines expected) ∧ lgAfter [.output (lgLinesTest a sfx id sd) [] expected] es = .ok s ∧
      s.tests = [(⟨a, some sfx⟩, x)] ∧ (x = .succeeded ↔ ∀ l ∈ bLines txt, l ≠ [] → l <:+: printed a es) := by
  obtain ⟨s, x, h1, h2, h3⟩ := C93_lines_test a sfx sd (bLines txt) hl es hn
  refine ⟨_, s, x, rfl, h1, h2, h3.trans ⟨fun h l hl hne => (h l hl hne).2, fun h l hl hne => ⟨?_, h l hl hne⟩⟩⟩
  exact oneLine_bLinesAux txt [] ⟨by simp, by simp⟩ l hl

/-- A file without any line that is not empty makes the test fail to be added. -/
theorem C93_from_blank_file (compile : Bytes → Option (Bytes → Bool)) (txt : Bytes) (regex : Option Bytes) (a : Nat) (sfx : String) (sd : Bool)
    (es : List (LgEvent Bytes)) (hl : ∀ l ∈ bLines txt, l = []) :
    ∃ expected, lgFromFile compile (some txt) regex = .ok (.lines expected) ∧
      (match lgAfter [.output (lgLinesTest a sfx id sd) [] expected] es with | .ok _ => False | .error e => e = .assertionError) := by
  refine ⟨_, rfl, ?_⟩
  have : (bLines txt).any (lgLinesTest a sfx id sd).truthy = false := by
    rw [List.any_eq_false]
    intro l h
    rw [hl l h]
    simp [lgLinesTest]
  simp [lgAfter, lgSetUp, LgAdd.apply, this]

theorem mapM_compile {compile : Bytes → Option (Bytes → Bool)} : ∀ {ls : List Bytes} {ps : List (Bytes → Bool)},
    ls.mapM compile = some ps ↔ ps.map some = ls.map compile
  | [], ps => by cases ps <;> simp
  | l :: ls, ps => by
    rw [List.mapM_cons]
    cases hc : compile l with
    | none => cases ps <;> simp [hc]
    | some p =>
      cases hm : ls.mapM compile with
      | none =>
        cases ps with
        | nil => simp
        | cons q qs =>
          have : ¬ qs.map some = ls.map compile := fun h => by rw [mapM_compile.2 h] at hm; simp at hm
          simp [hc, this]
      | some qs =>
        have hq := mapM_compile.1 hm
        cases ps with
        | nil => simp
        | cons r rs =>
          simp only [Option.pure_def, Option.bind_eq_bind, Option.bind_some, Option.some.injEq, List.cons.injEq, List.map_cons, hc]
          constructor
          · rintro ⟨rfl, rfl⟩
            exact ⟨rfl, hq⟩
          · rintro ⟨rfl, h⟩
            rw [← hq] at h
            exact ⟨rfl, ((List.map_inj_right fun _ _ h => Option.some.inj h).1 h).symm⟩

/-- Without a file with the extension .txt, every line of the file with the extension .regex is a pattern; a line that is no regular expression is an error, and
so is that there is neither file (RuntimeError). -/
theorem C93_from_regex_file (compile : Bytes → Option (Bytes → Bool)) (regex : Bytes) :
    (∀ r : LgFromFile, lgFromFile compile none (some regex) = .ok r ↔ ∃ ps, r = .regex ps ∧ ps.map some = (bLines regex).map compile) ∧
    ((∃ l ∈ bLines regex, compile l = none) → lgFromFile compile none (some regex) = .error (.other 0)) ∧
    lgFromFile compile none none = .error .runtimeError := by
  refine ⟨fun r => ?_, ?_, rfl⟩
  · simp only [lgFromFile]
    cases hm : (bLines regex).mapM compile with
    | none =>
      simp only [reduceCtorEq, false_iff, not_exists, not_and]
      rintro ps rfl h
      rw [mapM_compile.2 h] at hm
      simp at hm
    | some ps =>
      simp only [Except.ok.injEq]
      constructor
      · rintro rfl; exact ⟨ps, rfl, mapM_compile.1 hm⟩
      · rintro ⟨qs, rfl, h⟩
        rw [mapM_compile.2 h] at hm
        simp only [Option.some.injEq] at hm
        rw [hm]
  · rintro ⟨l, hl, hc⟩
    simp only [lgFromFile]
    cases hm : (bLines regex).mapM compile with
    | none => rfl
    | some ps =>
      have h := mapM_compile.1 hm
      have : (none : Option (Bytes → Bool)) ∈ ps.map some := by
        rw [h, List.mem_map]
        exact ⟨l, hl, hc⟩
      simp at this

/-! A file with a blank line between two lines, the second one printed in two pieces; and a file with two patterns, of which the second is no regular expression. -/

example : ∃ l ∈ bLines [97, 10, 10, 98, 99], l ≠ [] := ⟨[97], by decide +kernel, by simp⟩

example : ∃ expected s x, lgFromFile (fun _ => none) (some [97, 10, 10, 98, 99]) none = .ok (.lines expected) ∧
    lgAfter [.output (lgLinesTest 0 "output" id false) [] expected] [.stdout 0 [120, 98], .stdout 1 [97], .stdout 0 [99, 10, 97]] = .ok s ∧
    s.tests = [(⟨0, some "output"⟩, x)] ∧ x = .succeeded := by
  obtain ⟨e, s, x, h1, h2, h3, h4⟩ := C93_from_text_file (fun _ => none) [97, 10, 10, 98, 99] none 0 "output" false
    [.stdout 0 [120, 98], .stdout 1 [97], .stdout 0 [99, 10, 97]] ⟨[97], by decide +kernel, by simp⟩ (by simp)
  refine ⟨e, s, x, h1, h2, h3, h4.2 ?_⟩
  decide +kernel

example : ∃ l ∈ bLines [97, 10, 40, 10], (fun l => if l = [40] then none else some (bIn l)) l = none := ⟨[40], by decide +kernel, by simp⟩

end Verif
