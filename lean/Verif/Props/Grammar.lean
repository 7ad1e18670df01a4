import Verif.Lemmas.GrammarRange
import Verif.Lemmas.GrammarBuild
import Verif.Props.SubstMore
import Verif.Props.FrontendMore
import Verif.Props.Subst

/-!
# Properties C74-C78: substitutions in launch files

`Template cs fs` is a derivation of the text `cs` in the grammar, `parseSubstitution` the function that frontends call; `Frag.write` and the conditions `Writable`,
`Valid` and `Means` are the descriptions in Spec/Grammar.lean.
-/

namespace Verif

/-! ## C74 -/

/-- C74 (parser and grammar): the parser accepts exactly the texts of the grammar and returns their derivation. -/
theorem C74_parser_is_grammar (cs : List Char) (fs : List Frag) : parseFrags cs = some fs ↔ Template cs fs := parseFrags_iff cs fs

/-- C74 (one reading): no text has two readings. -/
theorem C74_unambiguous (cs : List Char) (fs gs : List Frag) (h1 : Template cs fs) (h2 : Template cs gs) : fs = gs := by
  rw [← parseFrags_iff] at h1 h2
  rw [h1] at h2
  exact Option.some.inj h2

/-- C74 (what is parsed): parsing a text succeeds exactly if it has a derivation and each substitution in it can be constructed. -/
theorem C74_parse_substitution (s : String) (hs : s ≠ "") (l : List Sub) :
    parseSubstitution s = .ok l ↔ ∃ fs, Template s.toList fs ∧ Frag.buildAll fs = .ok l := by
  unfold parseSubstitution
  rw [if_neg hs]
  constructor
  · intro h
    cases hp : parseFrags s.toList with
    | none => rw [hp] at h; cases h
    | some fs =>
      rw [hp] at h
      simp only at h
      cases hb : Frag.buildAll fs with
      | error e => rw [hb] at h; cases h
      | ok l' => rw [hb] at h; cases h; exact ⟨fs, (parseFrags_iff _ _).1 hp, hb⟩
  · rintro ⟨fs, ht, hb⟩
    rw [(parseFrags_iff _ _).2 ht]
    simp only [hb]

example : Template "a$(var 'x y' $(env H))\\$(b)".toList
    [.text "a".toList, .sub "var".toList [[.text "x y".toList], [.sub "env".toList [[.text "H".toList]]]], .text "$(b)".toList] :=
  (parseFrags_iff _ _).1 (by decide +kernel)

/-! ## C75 -/

/-- C75 (round trip): what is written down with escapes and quotation marks is read back as what it was. -/
theorem C75_round_trip_partial (fs : List Frag) (hne : fs ≠ []) (h : Frag.WritableAll false false true fs) : parseFrags (Frag.writeAll false fs) = some fs :=
  write_parse fs hne h

/-- C75 (what can be written): these are exactly the contents that some text has. -/
theorem C75_expressible (fs : List Frag) : (∃ cs, parseFrags cs = some fs) ↔ fs ≠ [] ∧ Frag.WritableAll false false true fs :=
  ⟨fun ⟨_, h⟩ => ⟨parse_nonempty h, parse_writable h⟩, fun ⟨h1, h2⟩ => ⟨_, write_parse fs h1 h2⟩⟩

/-- C75 (normal form): every text that can be parsed has the same content as its content written down. -/
theorem C75_normal_form (cs : List Char) (fs : List Frag) (h : parseFrags cs = some fs) : parseFrags (Frag.writeAll false fs) = some fs :=
  write_parse fs (parse_nonempty h) (parse_writable h)

/-- C75 is violated for texts that end with a backslash: however it is written, no such text directly before a substitution can be read back. -/
theorem C75_backslash_before_substitution_violated (t name : List Char) (args : List (List Frag)) (fs : List Frag) :
    ¬ ∃ cs, parseFrags cs = some (.text (t ++ ['\\']) :: .sub name args :: fs) := by
  rw [C75_expressible]
  rintro ⟨_, h⟩
  unfold Frag.WritableAll at h
  have := h.2.1.2
  simp [endsBackslash] at this

/-- C75 is violated for the only argument (as for the last one, or any quoted one): it cannot end with a backslash. -/
theorem C75_backslash_argument_violated (t name : List Char) : ¬ ∃ cs, parseFrags cs = some [.sub name [[.text (t ++ ['\\'])]]] := by
  rw [C75_expressible]
  rintro ⟨_, h⟩
  have h1 : endsBackslash (t ++ ['\\']) = true := by simp [endsBackslash]
  simp only [Frag.WritableAll, Frag.Writable, Frag.WritableArgs, List.isEmpty_nil, Bool.not_true] at h
  have h2 := h.1.2.1
  split at h2
  · have := h2.2.1
    rw [h1] at this
    simp at this
  · have := h2.2.2.1
    rw [h1] at this
    simp at this

/-- C75 is violated for nested substitutions: inside an argument that needs quotation marks, arguments of substitutions cannot have blanks. -/
theorem C75_nested_blank_violated : ¬ ∃ cs, parseFrags cs =
    some [.sub "var".toList [[.text "a b".toList, .sub "var".toList [[.text "c d".toList]]]]] := by
  rw [C75_expressible]
  rintro ⟨_, h⟩
  simp only [Frag.WritableAll, Frag.Writable, Frag.WritableArgs] at h
  have h2 := h.1.2.1
  rw [if_pos (by decide)] at h2
  have := h2.2.2.1.2
  simp at this

example : Frag.WritableAll false false true
    [.text "it's \\ ($)".toList, .sub "if".toList [[.text "a b\"".toList, .sub "var".toList [[.text "c\\".toList], [.text "d".toList]]], []]] := by
  simp [Frag.WritableAll, Frag.Writable, Frag.WritableArgs, needsQuotes, Frag.isText, endsBackslash, isName]
  decide +kernel

example : String.ofList (Frag.writeAll false
    [.text "it's".toList, .sub "if".toList [[.text "a b".toList, .sub "var".toList [[.text "d".toList]]], []]]) = "it\\'s$(if \"a b$(var d)\" \"\")" := by
  decide +kernel

/-! ## C76 -/

/-- C76 (literal text): a text in which every `$(` comes after a backslash, and no other, is one piece of text, the text with its escapes replaced. -/
theorem C76_literal (cs : List Char) (hne : cs ≠ []) (t : List Char) :
    parseFrags cs = some [.text t] ↔ (∀ a b, cs = a ++ '$' :: '(' :: b → a.getLast? = some '\\') ∧ t = unescape cs := by
  rw [parseFrags_iff]
  have key : ∀ (cs : List Char) (st : Bool) (p : Option Char),
      (munch .unq false st p cs).1 = cs ↔ ∀ a b, cs = a ++ '$' :: '(' :: b → (a.getLast?).or p = some '\\' := by
    intro cs
    induction cs with
    | nil => intro st p; simp [munch]
    | cons c cs ih =>
      intro st p
      have hacc : accepts .unq false st p c cs.head? = true ↔ (c = '$' → cs.head? = some '(' → p = some '\\') := by
        unfold accepts
        by_cases hc : c = '$'
        · subst hc
          simp only [beq_self_eq_true, if_true, Bool.or_eq_true, bne_iff_ne, beq_iff_eq, forall_const, ne_eq]
          constructor
          · rintro (h | h) h2
            · exact absurd h2 h
            · exact h
          · intro h
            by_cases h2 : cs.head? = some '('
            · exact .inr (h h2)
            · exact .inl h2
        · simp [hc]
      unfold munch
      by_cases ha : accepts .unq false st p c cs.head? = true
      · rw [if_pos ha]
        simp only [List.cons.injEq, true_and]
        rw [ih true (some c)]
        constructor
        · intro h a b hab
          cases a with
          | nil =>
            simp only [List.nil_append, List.cons.injEq] at hab
            obtain ⟨rfl, rfl⟩ := hab
            simpa using hacc.1 ha rfl rfl
          | cons d a =>
            simp only [List.cons_append, List.cons.injEq] at hab
            obtain ⟨rfl, hab⟩ := hab
            have := h a b hab
            cases a with
            | nil => simpa using this
            | cons e a => simpa [List.getLast?_cons] using this
        · intro h a b hab
          have := h (c :: a) b (by rw [hab]; rfl)
          cases a with
          | nil => simpa using this
          | cons e a => simpa [List.getLast?_cons] using this
      · rw [if_neg ha]
        simp only [List.nil_eq, reduceCtorEq, false_iff]
        intro h
        apply ha
        rw [hacc]
        intro hc hh
        cases cs with
        | nil => cases hh
        | cons d ds =>
          simp only [List.head?_cons, Option.some.injEq] at hh
          have := h [] ds (by rw [hc, hh]; rfl)
          simpa using this
  have key' := key cs false none
  simp only [Option.or_none] at key'
  rw [← key']
  constructor
  · rintro ⟨p, hg, _⟩
    cases hg with
    | sub h1 _ => cases h1
    | text h1 h2 =>
      rename_i u s1
      cases h2
      have ha := token_append h1
      simp only [List.append_nil] at ha
      obtain ⟨h3, _⟩ := token_some h1
      refine ⟨?_, by rw [ha]⟩
      rw [h3, ha]
  · rintro ⟨h, rfl⟩
    refine ⟨(munch .unq false false none cs).2.1, ?_, by simp⟩
    have ha := munch_append .unq false false none cs
    rw [h] at ha
    have hn : (munch .unq false false none cs).2.2 = [] := by
      have := congrArg List.length ha
      simp only [List.length_append] at this
      exact List.length_eq_zero_iff.1 (by omega)
    refine .text (s1 := ((munch .unq false false none cs).2.1, [])) ?_ .nil
    unfold token
    generalize hm : munch .unq false false none cs = x at h hn ⊢
    obtain ⟨u, v, w⟩ := x
    simp only at h hn
    subst h hn
    cases u with
    | nil => exact absurd rfl hne
    | cons c u => rfl

/-- C76 (plain text): a text without `$(` and without backslashes stands for itself. -/
theorem C76_plain (s : String) (h1 : ∀ a b, s.toList ≠ a ++ '$' :: '(' :: b) (h2 : '\\' ∉ s.toList) : parseSubstitution s = .ok [.text s] := by
  by_cases hs : s = ""
  · subst hs; rfl
  · rw [C74_parse_substitution s hs]
    have hne : s.toList ≠ [] := fun h => hs (by rw [← String.ofList_toList (s := s), h])
    have hu : unescape s.toList = s.toList := (C42_fixed_iff s.toList).2 (by
      rintro ⟨a, d, b, hab, _⟩
      exact h2 (by rw [hab]; simp))
    refine ⟨[.text s.toList], (parseFrags_iff _ _).1 ((C76_literal _ hne _).2 ⟨fun a b hab => absurd hab (h1 a b), hu.symm⟩), ?_⟩
    simp [Frag.buildAll, Frag.build]

/-- C76 (escaped text): every text, with backslashes before the backslashes, quotation marks, dollar signs and parentheses in it, stands for itself. -/
theorem C76_escaped (s : String) : parseSubstitution (String.ofList (escapeAll isSpecial s.toList)) = .ok [.text s] := by
  by_cases hs : s = ""
  · subst hs; rfl
  · have hne : s.toList ≠ [] := fun h => hs (by rw [← String.ofList_toList (s := s), h])
    have hne2 : String.ofList (escapeAll isSpecial s.toList) ≠ "" := by
      intro h
      have := congrArg String.toList h
      simp only [String.toList_ofList] at this
      exact escape_ne_nil hne this
    rw [C74_parse_substitution _ hne2]
    refine ⟨[.text s.toList], ?_, by simp [Frag.buildAll, Frag.build]⟩
    rw [← parseFrags_iff, String.toList_ofList]
    have := write_parse [.text s.toList] (by simp) (by
      simp only [Frag.WritableAll, Frag.Writable]
      exact ⟨⟨hne, fun h => absurd h (by decide)⟩, .inl (by trivial), trivial⟩)
    simpa [Frag.writeAll, Frag.write] using this

example : parseSubstitution "5$ (net)" = .ok [.text "5$ (net)"] := by
  refine (C74_parse_substitution _ (by decide) _).2 ⟨[.text "5$ (net)".toList], (parseFrags_iff _ _).1 (by decide +kernel), ?_⟩
  simp [Frag.buildAll, Frag.build]

/-! ## C77 -/

/-- C77 (which texts are accepted): a text is accepted exactly if it follows the grammar and every substitution in it, at any depth, exists and takes that many
arguments.  Partial: see `C77_any_all_violated` for the two documented names that `Known` does not have. -/
theorem C77_accepted_iff_partial (s : String) (hs : s ≠ "") :
    (∃ l, parseSubstitution s = .ok l) ↔ ∃ fs, Template s.toList fs ∧ Frag.ValidAll fs := by
  constructor
  · rintro ⟨l, hl⟩
    obtain ⟨fs, ht, hb⟩ := (C74_parse_substitution s hs l).1 hl
    exact ⟨fs, ht, (buildAll_iff fs).1 ⟨l, hb⟩⟩
  · rintro ⟨fs, ht, hv⟩
    obtain ⟨l, hl⟩ := (buildAll_iff fs).2 hv
    exact ⟨l, (C74_parse_substitution s hs l).2 ⟨fs, ht, hl⟩⟩

/-- C77 is violated: `any` and `all`, which are exposed to launch files, are never accepted, whatever their arguments. -/
theorem C77_any_all_violated (name : List Char) (hn : name = "any".toList ∨ name = "all".toList) (args : List (List Frag)) (before after : List Frag) (s : String)
    (h : Template s.toList (before ++ .sub name args :: after)) : ∀ l, parseSubstitution s ≠ .ok l := by
  intro l hl
  have hs : s ≠ "" := by
    rintro rfl
    have := (parseFrags_iff _ _).2 h
    rw [show parseFrags "".toList = none from by decide +kernel] at this
    cases this
  obtain ⟨fs, ht, hv⟩ := (C77_accepted_iff_partial s hs).1 ⟨l, hl⟩
  have := C74_unambiguous _ _ _ h ht
  subst this
  clear h hl ht
  induction before with
  | nil =>
    simp only [List.nil_append, Frag.ValidAll, Frag.Valid] at hv
    have := (known_iff _ _).1 hv.1.1
    rcases hn with rfl | rfl <;> simp at this
  | cons f fs ih =>
    simp only [List.cons_append, Frag.ValidAll] at hv
    exact ih hv.2

example : Template "$(any true false)".toList ([] ++ .sub "any".toList [[.text "true".toList], [.text "false".toList]] :: []) := (parseFrags_iff _ _).1 (by decide +kernel)

/-- C77 is violated for `equals`: an empty argument is not compared as the empty text but as the text `[]`. -/
theorem C77_equals_empty_violated (O : Oracle) (c : Ctx) (hf : O.parseFloat "[]" = none) (he : O.parseFloat "" = none) :
    ∃ l, parseSubstitution "$(equals '' $(var x))" = .ok l ∧
      (c.lc.get? "x" = some "" → (performSubs O l c).2 = .ok "false") ∧ (c.lc.get? "x" = some "[]" → (performSubs O l c).2 = .ok "true") := by
  refine ⟨[.equals [.text "[]"] [.launchConfig [.text "x"] none]], ?_, ?_, ?_⟩
  · refine (C74_parse_substitution _ (by decide) _).2
      ⟨[.sub "equals".toList [[], [.sub "var".toList [[.text "x".toList]]]]], (parseFrags_iff _ _).1 (by decide +kernel), ?_⟩
    simp [Frag.buildAll, Frag.build, Frag.buildArgs, instantiate, equalsOperand]
  · intro hx
    simp [performSubs, performAll, perform, M.bind, M.pure, joinStrs, equalsTexts, hx, hf, he, boolText]
    decide +kernel
  · intro hx
    simp [performSubs, performAll, perform, M.bind, M.pure, joinStrs, equalsTexts, hx, hf, boolText]

example : Frag.ValidAll [.text "a".toList, .sub "var".toList [[.text "x".toList], [.sub "env".toList [[.text "H".toList]]]]] := by
  simp [Frag.ValidAll, Frag.Valid, Frag.ValidArgs, known_iff]

/-! ## C78 -/

theorem performSubs_cons (O : Oracle) (x : Sub) (xs : List Sub) (c c1 c2 : Ctx) (t u : String) (h1 : perform O x c = (c1, .ok t))
    (h2 : performSubs O xs c1 = (c2, .ok u)) : performSubs O (x :: xs) c = (c2, .ok (t ++ u)) := by
  have := C13_concat O [x] xs c
  rw [(C13_single O x c).1, h1] at this
  simp only [h2] at this
  exact this

theorem bool_perform {O : Oracle} {c : Ctx} {xs : List Sub} {t : String} {b : Bool} (hne : xs ≠ []) (hp : performSubs O xs c = (c, .ok t))
    (hb : textAsBool O t = some b) : boolOperand O xs c = (c, .ok b) := by
  simp only [boolOperand, if_neg hne, hp, hb]

theorem buildAll_ne {fs : List Frag} {xs : List Sub} (h : Frag.buildAll fs = .ok xs) (hne : fs ≠ []) : xs ≠ [] := by
  cases fs with
  | nil => exact absurd rfl hne
  | cons f fs => obtain ⟨x, xs, _, _, rfl⟩ := buildAll_cons_ok.1 h; simp

theorem equalsOperand_ne {xs : List Sub} (h : xs ≠ []) : equalsOperand xs = xs := by
  cases xs with
  | nil => exact absurd rfl h
  | cons _ _ => rfl

theorem modules_split (ms : List (List Char)) (hne : ms ≠ []) (hm : ∀ m ∈ ms, IsModuleName m) :
    evalModules [.text (String.ofList ([','].intercalate ms))] = .ok (ms.map fun m => .text (String.ofList m)) := by
  simp only [evalModules, String.toList_ofList, C79_round_trip ',' ms hne (fun m h => (hm m h).2.1), Except.ok.injEq]
  apply List.map_congr_left
  intro m h
  rw [(hm m h).2.2]

theorem texts_performed (O : Oracle) (c : Ctx) (ms : List (List Char)) :
    performAll O (ms.map fun m => .text (String.ofList m)) c = (c, .ok (ms.map String.ofList)) := by
  induction ms with
  | nil => rfl
  | cons m ms ih => simp only [List.map_cons, performAll, perform, M.bind, M.pure, ih]

mutual

theorem means_build (O : Oracle) (c : Ctx) : {f : Frag} → {t : String} → Frag.Means O c f t →
    ∃ x, f.build = .ok x ∧ perform O x c = (c, .ok t)
  | _, _, .text => ⟨_, rfl, rfl⟩
  | _, _, .var (name := name) (more := more) (n := n) h1 h2 h3 h4 => by
    obtain ⟨xs, hb, hp⟩ := meansAll_build O c h1
    have h14 := fun d => C14_launch_configuration O xs d c c n hp
    match more, h3, h4 with
    | [], _, _ =>
      exact ⟨.launchConfig xs none, by simp [Frag.build, Frag.buildArgs, hb, instantiate], by rw [h14, h2]⟩
    | [d], h3, _ =>
      obtain ⟨ds, hd⟩ := (buildArgs_iff [d]).2 h3
      obtain ⟨y, ys, hy, hys, rfl⟩ := buildArgs_cons_ok.1 hd
      exact ⟨.launchConfig xs (some y), by simp [Frag.build, Frag.buildArgs, hb, hy, instantiate], by rw [h14, h2]⟩
    | _ :: _ :: _, _, h4 => simp at h4
  | _, _, .varDefault (n := n) h1 h2 h3 => by
    obtain ⟨xs, hb, hp⟩ := meansAll_build O c h1
    obtain ⟨ys, hb2, hp2⟩ := meansAll_build O c h3
    refine ⟨.launchConfig xs (some ys), by simp [Frag.build, Frag.buildArgs, hb, hb2, instantiate], ?_⟩
    rw [C14_launch_configuration O xs _ c c n hp, h2]
    exact hp2
  | _, _, .env (n := n) h1 h2 => by
    obtain ⟨xs, hb, hp⟩ := meansAll_build O c h1
    refine ⟨.envVar xs none, by simp [Frag.build, Frag.buildArgs, hb, instantiate], ?_⟩
    rw [C14_environment_variable_partial O xs none c c c none n rfl hp, h2]
  | _, _, .envDefault (n := n) (v := v) h1 h2 => by
    obtain ⟨xs, hb, hp⟩ := meansAll_build O c h1
    obtain ⟨ys, hb2, hp2⟩ := meansAll_build O c h2
    refine ⟨.envVar xs (some ys), by simp [Frag.build, Frag.buildArgs, hb, hb2, instantiate], ?_⟩
    have hd : performOpt O (some ys) c = (c, .ok (some v)) := by
      obtain ⟨l, hl, e⟩ := performSubs_all hp2
      simp only [performOpt, M.bind, M.pure, e, hl]
    rw [C14_environment_variable_partial O xs (some ys) c c c (some v) n hd hp]
    cases c.env.get? n <;> rfl
  | _, _, .notS (x := x) h1 => by
    obtain ⟨xs, hb, hp⟩ := meansBool_build O c h1
    refine ⟨.notS xs, by simp [Frag.build, Frag.buildArgs, hb, instantiate], ?_⟩
    rw [C15_not, M.bind, hp]
    cases x <;> rfl
  | _, _, .andS (x := x) (y := y) h1 h2 => by
    obtain ⟨xs, hb, hp⟩ := meansBool_build O c h1
    obtain ⟨ys, hb2, hp2⟩ := meansBool_build O c h2
    refine ⟨.andS xs ys, by simp [Frag.build, Frag.buildArgs, hb, hb2, instantiate], ?_⟩
    rw [(C15_and_or O xs ys c).1]
    simp only [M.bind, hp, hp2]
    cases x <;> cases y <;> rfl
  | _, _, .orS (x := x) (y := y) h1 h2 => by
    obtain ⟨xs, hb, hp⟩ := meansBool_build O c h1
    obtain ⟨ys, hb2, hp2⟩ := meansBool_build O c h2
    refine ⟨.orS xs ys, by simp [Frag.build, Frag.buildArgs, hb, hb2, instantiate], ?_⟩
    rw [(C15_and_or O xs ys c).2]
    simp only [M.bind, hp, hp2]
    cases x <;> cases y <;> rfl
  | _, _, .equals (t := t) (u := u) (b := b) hl hr h1 h2 h3 => by
    obtain ⟨xs, hb, hp⟩ := meansAll_build O c h1
    obtain ⟨ys, hb2, hp2⟩ := meansAll_build O c h2
    refine ⟨.equals xs ys, by simp [Frag.build, Frag.buildArgs, hb, hb2, instantiate, equalsOperand_ne (buildAll_ne hb hl),
      equalsOperand_ne (buildAll_ne hb2 hr)], ?_⟩
    obtain ⟨l, hl, e⟩ := performSubs_all hp
    obtain ⟨l2, hl2, e2⟩ := performSubs_all hp2
    simp only [perform, M.bind, M.pure, e, e2, hl, hl2]
    rw [(equalsTexts_iff O t u _).1 h3]
    cases b <;> rfl
  | _, _, .notEquals (t := t) (u := u) (b := b) hl hr h1 h2 h3 => by
    obtain ⟨xs, hb, hp⟩ := meansAll_build O c h1
    obtain ⟨ys, hb2, hp2⟩ := meansAll_build O c h2
    refine ⟨.notEquals xs ys, by simp [Frag.build, Frag.buildArgs, hb, hb2, instantiate, equalsOperand_ne (buildAll_ne hb hl),
      equalsOperand_ne (buildAll_ne hb2 hr)], ?_⟩
    obtain ⟨l, hl, e⟩ := performSubs_all hp
    obtain ⟨l2, hl2, e2⟩ := performSubs_all hp2
    simp only [perform, M.bind, M.pure, e, e2, hl, hl2]
    rw [(equalsTexts_iff O t u _).1 h3]
    cases b <;> rfl
  | _, _, .ifTrue (more := more) h1 h2 h3 h4 => by
    obtain ⟨xs, hb, hp⟩ := meansBool_build O c h1
    obtain ⟨ys, hb2, hp2⟩ := meansAll_build O c h2
    match more, h3, h4 with
    | [], _, _ =>
      refine ⟨.ifElse xs ys [.text ""], by simp [Frag.build, Frag.buildArgs, hb, hb2, instantiate], ?_⟩
      rw [C61_if_else, hp]
      exact hp2
    | [d], h3, _ =>
      obtain ⟨ds, hd⟩ := (buildArgs_iff [d]).2 h3
      obtain ⟨z, zs, hz, hzs, rfl⟩ := buildArgs_cons_ok.1 hd
      refine ⟨.ifElse xs ys z, by simp [Frag.build, Frag.buildArgs, hb, hb2, hz, instantiate], ?_⟩
      rw [C61_if_else, hp]
      exact hp2
    | _ :: _ :: _, _, h4 => simp at h4
  | _, _, .ifFalse h1 h2 h3 => by
    obtain ⟨xs, hb, hp⟩ := meansBool_build O c h1
    obtain ⟨ys, hb2⟩ := (buildAll_iff _).2 h2
    obtain ⟨zs, hb3, hp3⟩ := meansAll_build O c h3
    refine ⟨.ifElse xs ys zs, by simp [Frag.build, Frag.buildArgs, hb, hb2, hb3, instantiate], ?_⟩
    rw [C61_if_else, hp]
    exact hp3
  | _, _, .ifNothing h1 h2 => by
    obtain ⟨xs, hb, hp⟩ := meansBool_build O c h1
    obtain ⟨ys, hb2⟩ := (buildAll_iff _).2 h2
    refine ⟨.ifElse xs ys [.text ""], by simp [Frag.build, Frag.buildArgs, hb, hb2, instantiate], ?_⟩
    rw [C61_if_else, hp]
    rfl
  | _, _, .eval h1 h2 => by
    obtain ⟨xs, hb, hp⟩ := meansAll_build O c h1
    refine ⟨.pyExpr xs [.text "math"], by simp [Frag.build, Frag.buildArgs, hb, instantiate], ?_⟩
    rw [C63_python_expression O xs [.text "math"] c c c ["math"] _ rfl hp, h2]
  | _, _, .evalWith (ms := ms) hne hm h1 h2 => by
    obtain ⟨xs, hb, hp⟩ := meansAll_build O c h1
    refine ⟨.pyExpr xs (ms.map fun m => .text (String.ofList m)), by
      simp [Frag.build, Frag.buildArgs, Frag.buildAll, hb, instantiate, modules_split ms hne hm], ?_⟩
    rw [C63_python_expression O xs _ c c c _ _ (texts_performed O c ms) hp, h2]
  | _, _, .command (t := t) (words := words) h1 h2 h3 => by
    obtain ⟨xs, hb, hp⟩ := meansAll_build O c h1
    refine ⟨.command xs [.text "fail"], by simp [Frag.build, Frag.buildArgs, hb, instantiate], ?_⟩
    obtain ⟨l, hl, e⟩ := performSubs_all hp
    have hs : splitCommand t = .ok (words.map String.ofList) := by simp only [splitCommand, h2]
    simp only [perform, M.bind, M.lift, e, hl, hs, performAll, M.pure, joinStrs, String.append_empty, runCommand]
    simp [h3]
  | _, _, .commandMode (t := t) (words := words) (mode := mode) h1 h2 h3 h4 h5 h6 => by
    obtain ⟨xs, hb, hp⟩ := meansAll_build O c h1
    obtain ⟨ys, hb2, hp2⟩ := meansAll_build O c h3
    refine ⟨.command xs ys, by simp [Frag.build, Frag.buildArgs, hb, hb2, instantiate], ?_⟩
    obtain ⟨l, hl, e⟩ := performSubs_all hp
    obtain ⟨l2, hl2, e2⟩ := performSubs_all hp2
    have hs : splitCommand t = .ok (words.map String.ofList) := by simp only [splitCommand, h2]
    have h4' : mode = "fail" ∨ mode = "ignore" ∨ mode = "warn" ∨ mode = "capture" := h4
    simp only [perform, M.bind, M.lift, e, hl, hs, e2, hl2, runCommand, if_pos h4', h6]
    rw [if_neg (by simp), if_neg]
    rintro ⟨ha, hb⟩
    exact ha (h5 hb)
  | _, _, .findExec h1 h2 => by
    obtain ⟨xs, hb, hp⟩ := meansAll_build O c h1
    exact ⟨.findExec xs, by simp [Frag.build, Frag.buildArgs, hb, instantiate], (C63_find_and_read O xs c c _ hp).1 _ h2⟩
  | _, _, .fileContent h1 h2 => by
    obtain ⟨xs, hb, hp⟩ := meansAll_build O c h1
    exact ⟨.fileContent xs, by simp [Frag.build, Frag.buildArgs, hb, instantiate], (C63_find_and_read O xs c c _ hp).2.2.1 _ h2⟩
  | _, _, .filename h => ⟨.thisLaunchFile, by simp [Frag.build, Frag.buildArgs, instantiate], by simp only [perform, readLocalStr, h]⟩
  | _, _, .dirname h => ⟨.thisLaunchFileDir, by simp [Frag.build, Frag.buildArgs, instantiate], by simp only [perform, readLocalStr, h]⟩
  | _, _, .logDir => ⟨.launchLogDir, by simp [Frag.build, Frag.buildArgs, instantiate], rfl⟩
  | _, _, .launchLogDir => ⟨.launchLogDir, by simp [Frag.build, Frag.buildArgs, instantiate], rfl⟩

theorem meansAll_build (O : Oracle) (c : Ctx) : {fs : List Frag} → {t : String} → Frag.MeansAll O c fs t →
    ∃ xs, Frag.buildAll fs = .ok xs ∧ performSubs O xs c = (c, .ok t)
  | _, _, .nil => ⟨[], rfl, rfl⟩
  | _, _, .cons h1 h2 => by
    obtain ⟨x, hb, hp⟩ := means_build O c h1
    obtain ⟨xs, hbs, hps⟩ := meansAll_build O c h2
    exact ⟨x :: xs, buildAll_cons_ok.2 ⟨x, xs, hb, hbs, rfl⟩, performSubs_cons O x xs c c c _ _ hp hps⟩

theorem meansBool_build (O : Oracle) (c : Ctx) : {fs : List Frag} → {b : Bool} → Frag.MeansBool O c fs b →
    ∃ xs, Frag.buildAll fs = .ok xs ∧ boolOperand O xs c = (c, .ok b)
  | _, _, .mk hne h1 h2 => by
    obtain ⟨xs, hb, hp⟩ := meansAll_build O c h1
    exact ⟨xs, hb, bool_perform (buildAll_ne hb hne) hp h2⟩

end

/-- C78 (meaning): a text with substitutions (all but `anon`), nested to any depth, is parsed and performs to its meaning; the context stays as it was. -/
theorem C78_meaning (O : Oracle) (c : Ctx) (s : String) (fs : List Frag) (t : String) (hs : Template s.toList fs)
    (hm : Frag.MeansAll O c fs t) : ∃ l, parseSubstitution s = .ok l ∧ performSubs O l c = (c, .ok t) := by
  have hne : s ≠ "" := by
    rintro rfl
    have := (parseFrags_iff _ _).2 hs
    rw [show parseFrags "".toList = none from by decide +kernel] at this
    cases this
  obtain ⟨xs, hb, hp⟩ := meansAll_build O c hm
  exact ⟨xs, (C74_parse_substitution s hne xs).2 ⟨fs, hs, hb⟩, hp⟩

/-- C78 (in a text): for all texts `a` and `b` (`a` without a backslash at its end) and all names, `a$(var name)b` with escapes is the value between `a` and `b`. -/
theorem C78_in_text (O : Oracle) (c : Ctx) (a n b v : List Char) (ha : a ≠ [] ∧ endsBackslash a = false) (hn : endsBackslash n = false) (hb : b ≠ [])
    (hv : c.lc.get? (String.ofList n) = some (String.ofList v)) :
    ∃ l, parseSubstitution (String.ofList (Frag.writeAll false [.text a, .sub "var".toList [if n = [] then [] else [.text n]], .text b])) = .ok l ∧
      performSubs O l c = (c, .ok (String.ofList (a ++ v ++ b))) := by
  have hname : Frag.MeansAll O c (if n = [] then [] else [.text n]) (String.ofList n) := by
    by_cases h : n = []
    · rw [if_pos h, h]; exact .nil
    · rw [if_neg h]
      have := Frag.MeansAll.cons (Frag.Means.text (O := O) (c := c) (t := n)) .nil
      simpa using this
  refine C78_meaning O c _ [.text a, .sub "var".toList [if n = [] then [] else [.text n]], .text b] _ ?_ ?_
  · rw [← parseFrags_iff, String.toList_ofList]
    apply write_parse _ (by simp)
    simp only [Frag.WritableAll, Frag.Writable, Frag.WritableArgs, Frag.isText]
    refine ⟨⟨ha.1, fun h => absurd h (by decide)⟩, ⟨trivial, ha.2⟩, ⟨by decide, ?_, trivial⟩, trivial, ⟨hb, fun h => absurd h (by decide)⟩, .inl (by trivial), trivial⟩
    by_cases h : n = []
    · simp [h, needsQuotes, Frag.WritableAll]
    · rw [if_neg h]
      by_cases hq : needsQuotes [.text n] = true
      · simp [hq, Frag.WritableAll, Frag.Writable, h, hn]
      · simp only [needsQuotes, List.isEmpty_cons, List.any_cons, List.any_nil, Bool.or_false, Bool.false_or] at hq
        have hq' : ' ' ∉ n := by simpa using hq
        simp [needsQuotes, hq', Frag.WritableAll, Frag.Writable, h, hn]
  · have h1 := Frag.MeansAll.cons (Frag.Means.text (O := O) (c := c) (t := a))
      (.cons (Frag.Means.var (more := []) hname hv (by simp only [Frag.ValidArgs]) (by simp)) (.cons (Frag.Means.text (t := b)) .nil))
    have e : String.ofList a ++ (String.ofList v ++ (String.ofList b ++ "")) = String.ofList (a ++ v ++ b) := by
      simp [String.ofList_append]
    rw [e] at h1
    exact h1

example : Frag.MeansAll sampleOracle { lc := [("x", "1")], env := [("HOME", "/root")] }
    [.text "a".toList, .sub "if".toList [[.sub "not".toList [[.sub "var".toList [[.text "x".toList]]]]], [.text "b".toList],
      [.sub "var".toList [[.text "y".toList], [.sub "env".toList [[.text "HOME".toList]]]]]]] "a/root" :=
  .cons (u := "/root") .text (.cons (t := "/root") (u := "") (.ifFalse
    (.mk (t := "false") (by simp) (.cons (t := "false") (u := "") (.notS (x := true)
      (.mk (t := "1") (by simp) (.cons (t := "1") (u := "") (.var (n := "x") (more := []) (.cons (t := "x") (u := "") .text .nil) (by decide)
        (by simp [Frag.ValidArgs]) (by simp)) .nil) (by decide))) .nil) (by decide))
    (by simp [Frag.ValidAll, Frag.Valid])
    (.cons (t := "/root") (u := "") (.varDefault (n := "y") (.cons (t := "y") (u := "") .text .nil) (by decide)
      (.cons (t := "/root") (u := "") (.env (n := "HOME") (.cons (t := "HOME") (u := "") .text .nil) (by decide)) .nil)) .nil)) .nil)

/-! ## The number of arguments -/

/-- The least and the largest number of arguments of the substitutions that launch files can use, and the error that any other number gives. -/
def documentedArgs : List (String × Nat × Nat × Err) :=
  [("var", 1, 2, .typeError), ("env", 1, 2, .typeError), ("anon", 1, 1, .typeError), ("not", 1, 1, .typeError), ("and", 2, 2, .typeError), ("or", 2, 2, .typeError),
   ("equals", 2, 2, .typeError), ("not-equals", 2, 2, .typeError), ("if", 2, 3, .typeError), ("command", 1, 2, .valueError), ("find-exec", 1, 1, .attributeError),
   ("file-content", 1, 1, .attributeError), ("filename", 0, 0, .typeError), ("dirname", 0, 0, .typeError), ("launch_log_dir", 0, 0, .typeError),
   ("log_dir", 0, 0, .typeError)]

/-- C78: a substitution in a text is accepted exactly if the number of its arguments is the documented one; otherwise this is the error. -/
theorem C78_arguments (name : String) (lo hi : Nat) (err : Err) (h : (name, lo, hi, err) ∈ documentedArgs) (args : List (List Frag)) (as : List (List Sub))
    (ha : Frag.buildArgs args = .ok as) :
    (lo ≤ as.length ∧ as.length ≤ hi → ∃ s, Frag.build (.sub name.toList args) = .ok s) ∧
    (¬ (lo ≤ as.length ∧ as.length ≤ hi) → Frag.build (.sub name.toList args) = .error err) := by
  simp only [Frag.build, ha, String.ofList_toList]
  simp only [documentedArgs, List.mem_cons, Prod.mk.injEq, List.not_mem_nil, or_false] at h
  rcases h with ⟨rfl, rfl, rfl, rfl⟩ | ⟨rfl, rfl, rfl, rfl⟩ | ⟨rfl, rfl, rfl, rfl⟩ | ⟨rfl, rfl, rfl, rfl⟩ | ⟨rfl, rfl, rfl, rfl⟩ | ⟨rfl, rfl, rfl, rfl⟩ |
    ⟨rfl, rfl, rfl, rfl⟩ | ⟨rfl, rfl, rfl, rfl⟩ | ⟨rfl, rfl, rfl, rfl⟩ | ⟨rfl, rfl, rfl, rfl⟩ | ⟨rfl, rfl, rfl, rfl⟩ | ⟨rfl, rfl, rfl, rfl⟩ |
    ⟨rfl, rfl, rfl, rfl⟩ | ⟨rfl, rfl, rfl, rfl⟩ | ⟨rfl, rfl, rfl, rfl⟩ | ⟨rfl, rfl, rfl, rfl⟩ <;>
  · rcases as with _ | ⟨a, _ | ⟨b, _ | ⟨c, _ | ⟨d, l⟩⟩⟩⟩ <;> simp [instantiate] <;> omega

/-- C78: `any` and `all` are never accepted, and other names give RuntimeError. -/
theorem C78_names (name : String) (args : List (List Frag)) (as : List (List Sub)) (ha : Frag.buildArgs args = .ok as) :
    (name = "any" ∨ name = "all" → Frag.build (.sub name.toList args) = .error .typeError) ∧
    (name ∉ documentedArgs.map (·.1) → name ∉ ["any", "all", "eval"] → Frag.build (.sub name.toList args) = .error .runtimeError) := by
  simp only [Frag.build, ha, String.ofList_toList]
  constructor
  · rintro (rfl | rfl) <;> simp [instantiate]
  · intro h1 h2
    simp only [documentedArgs, List.map_cons, List.map_nil, List.mem_cons, List.not_mem_nil, or_false, not_or] at h1 h2
    simp [instantiate, h1, h2]

example : Frag.buildArgs [[.text "a".toList], [.text "b".toList]] = .ok [[.text "a"], [.text "b"]] := by rfl

end Verif
