import Verif.Lemmas.ShowArgs
import Verif.Props.Args
import Verif.Props.ScopeMore

/-! # C117, C118: what is shown of launch arguments and of substitutions -/

namespace Verif

theorem lines_inj {ls ls' : List (List Char)} (h1 : ∀ l ∈ ls, '\n' ∉ l) (h2 : ∀ l ∈ ls', '\n' ∉ l)
    (h : ls.flatMap (· ++ ['\n']) = ls'.flatMap (· ++ ['\n'])) : ls = ls' := by
  have key : ∀ (a b x y : List Char), '\n' ∉ a → '\n' ∉ b → a ++ '\n' :: x = b ++ '\n' :: y → a = b ∧ x = y := by
    intro a
    induction a with
    | nil =>
      intro b x y _ hb e
      cases b with
      | nil => simpa using e
      | cons c b =>
        simp only [List.nil_append, List.cons_append, List.cons.injEq] at e
        exact absurd (by rw [e.1]; exact .head _) hb
    | cons c a ih =>
      intro b x y ha hb e
      cases b with
      | nil =>
        simp only [List.nil_append, List.cons_append, List.cons.injEq] at e
        exact absurd (by rw [e.1]; exact .head _) ha
      | cons c' b =>
        simp only [List.cons_append, List.cons.injEq] at e
        obtain ⟨e1, e2⟩ := ih b x y (fun h => ha (.tail _ h)) (fun h => hb (.tail _ h)) e.2
        exact ⟨by rw [e.1, e1], e2⟩
  induction ls generalizing ls' with
  | nil => cases ls' <;> simp_all
  | cons l ls ih =>
    cases ls' with
    | nil => simp at h
    | cons l' ls' =>
      simp only [List.flatMap_cons, List.append_assoc, List.cons_append, List.nil_append] at h
      obtain ⟨e1, e2⟩ := key l l' _ _ (h1 l (.head _)) (h2 l' (.head _)) h
      rw [e1, ih (fun x hx => h1 x (.tail _ hx)) (fun x hx => h2 x (.tail _ hx)) e2]

/-- The remark in the end. -/
def pageEnd (args : List SeenArg) : List (List Char) :=
  if args = [] then [[], "  No arguments.".toList]
  else if ∃ a ∈ args, a.conditional = true then [[], "* argument(s) which are only used if specific conditions occur".toList]
  else []

theorem pageEnd_cases (args : List SeenArg) : pageEnd args = [] ∨ ∃ c l, pageEnd args = [[], c :: l] ∧ (c = '*' ∨ (c = ' ' ∧ ∃ x, l = ' ' :: 'N' :: x)) := by
  unfold pageEnd
  split
  · exact .inr ⟨_, _, rfl, .inr ⟨by decide, _, rfl⟩⟩
  · split
    · exact .inr ⟨_, _, rfl, .inl (by decide)⟩
    · exact .inl rfl

/-- What can follow the lines of an argument: nothing, or an empty line. -/
def AfterArg (e : List (List Char)) : Prop := e = [] ∨ ∃ x, e = [] :: x

theorem flatMap_afterArg (args : List SeenArg) (e : List (List Char)) (h : AfterArg e) : AfterArg (args.flatMap SeenArg.lines ++ e) := by
  cases args with
  | nil => exact h
  | cons a args => exact .inr ⟨_, rfl⟩

theorem default_inj {d d' : Option (List Char)} {e e' : List (List Char)} (he : AfterArg e) (he' : AfterArg e')
    (h : defaultLine d ++ e = defaultLine d' ++ e') : d = d' ∧ e = e' := by
  cases d with
  | none =>
    cases d' with
    | none => exact ⟨rfl, h⟩
    | some d' =>
      rcases he with rfl | ⟨x, rfl⟩
      · simp [defaultLine] at h
      · simp [defaultLine] at h
  | some d =>
    cases d' with
    | none =>
      rcases he' with rfl | ⟨x, rfl⟩
      · simp [defaultLine] at h
      · simp [defaultLine] at h
    | some d' =>
      simp only [defaultLine, List.cons_append, List.nil_append, List.cons.injEq] at h
      obtain ⟨h1, h2⟩ := h
      exact ⟨by rw [List.append_cancel_left (List.append_cancel_right h1)], h2⟩

theorem heading_inj {n n' : List Char} {c c' : Bool} (h : "    '".toList ++ n ++ (if c then "':*".toList else "':".toList) =
    "    '".toList ++ n' ++ (if c' then "':*".toList else "':".toList)) : n = n' ∧ c = c' := by
  have hl := congrArg List.getLast? h
  have hc : c = c' := by
    cases c <;> cases c' <;> first | rfl | (simp [List.getLast?_cons, List.getLast?_append] at hl)
  subst hc
  exact ⟨List.append_cancel_left (List.append_cancel_right h), rfl⟩

theorem args_inj (as bs : List SeenArg) (e e' : List (List Char))
    (he : e = [] ∨ ∃ c l, e = [[], c :: l] ∧ (c = '*' ∨ (c = ' ' ∧ ∃ x, l = ' ' :: 'N' :: x)))
    (he' : e' = [] ∨ ∃ c l, e' = [[], c :: l] ∧ (c = '*' ∨ (c = ' ' ∧ ∃ x, l = ' ' :: 'N' :: x)))
    (h : as.flatMap SeenArg.lines ++ e = bs.flatMap SeenArg.lines ++ e') : as = bs := by
  have after : ∀ {e : List (List Char)}, (e = [] ∨ ∃ c l, e = [[], c :: l] ∧ (c = '*' ∨ (c = ' ' ∧ ∃ x, l = ' ' :: 'N' :: x))) → AfterArg e := by
    rintro _ (rfl | ⟨c, l, rfl, _⟩)
    · exact .inl rfl
    · exact .inr ⟨_, rfl⟩
  have clash : ∀ {e : List (List Char)} (a : SeenArg) (x : List (List Char)),
      (e = [] ∨ ∃ c l, e = [[], c :: l] ∧ (c = '*' ∨ (c = ' ' ∧ ∃ x, l = ' ' :: 'N' :: x))) → e = a.lines ++ x → False := by
    rintro _ a x (rfl | ⟨c, l, rfl, hc⟩) h
    · simp [SeenArg.lines] at h
    · simp only [SeenArg.lines, List.cons_append, List.nil_append, List.cons.injEq, true_and] at h
      simp at h
  induction as generalizing bs with
  | nil =>
    cases bs with
    | nil => rfl
    | cons b bs => exact (clash b _ he (by simpa using h)).elim
  | cons a as ih =>
    cases bs with
    | nil => exact (clash a _ he' (by simpa using h.symm)).elim
    | cons b bs =>
      simp only [List.flatMap_cons, SeenArg.lines, List.append_assoc, List.cons_append, List.nil_append, List.cons.injEq, true_and] at h
      obtain ⟨h1, h2, h3⟩ := h
      obtain ⟨n, c⟩ := heading_inj (by simpa using h1)
      obtain ⟨d, r⟩ := default_inj (flatMap_afterArg as e (after he)) (flatMap_afterArg bs e' (after he')) (by simpa using h3)
      rw [ih bs r]
      have hd : a.description = b.description := by simpa using h2
      cases a; cases b
      simp_all

/-- C117: no text says two different things: a reader knows which arguments there are, what their defaults are and so on. -/
theorem C117_one_reading (text : List Char) (as bs : List SeenArg) (h1 : PageSays text as) (h2 : PageSays text bs) : as = bs := by
  obtain ⟨ls, hn, ht, hl⟩ := h1
  obtain ⟨ls', hn', ht', hl'⟩ := h2
  have := lines_inj hn hn' (ht.symm.trans ht')
  rw [hl, hl'] at this
  exact args_inj as bs (pageEnd as) (pageEnd bs) (pageEnd_cases as) (pageEnd_cases bs) (List.cons.inj this).2

theorem printArgument_lines (repr : List Sub → List Char) (a : ShownArg) : printArgument repr a = (a.seen repr).lines.flatMap (· ++ ['\n']) := by
  obtain ⟨n, c, d, v⟩ := a
  cases c <;> cases v <;> simp [printArgument, ShownArg.seen, SeenArg.lines, defaultLine, plusJoin]

theorem printEnd_lines (repr : List Sub → List Char) (args : List ShownArg) : (if 0 < args.length then
      if args.any (·.conditional) then "\n* argument(s) which are only used if specific conditions occur\n".toList else []
      else "\n  No arguments.\n".toList) = (pageEnd (args.map (·.seen repr))).flatMap (· ++ ['\n']) := by
  unfold pageEnd
  cases args with
  | nil => rw [if_neg (by simp), List.map_nil, if_pos rfl]; decide +kernel
  | cons a args =>
    rw [if_pos (by simp : 0 < (a :: args).length), if_neg (by simp : ¬ (a :: args).map (·.seen repr) = [])]
    have : (∃ x ∈ (a :: args).map (·.seen repr), x.conditional = true) ↔ (a :: args).any (·.conditional) = true := by
      rw [List.any_eq_true]
      constructor
      · rintro ⟨x, hx, hc⟩
        obtain ⟨y, hy, rfl⟩ := List.mem_map.1 hx
        exact ⟨y, hy, hc⟩
      · rintro ⟨y, hy, hc⟩
        exact ⟨_, List.mem_map.2 ⟨y, hy, rfl⟩, hc⟩
    by_cases h : (a :: args).any (·.conditional) = true
    · rw [if_pos h, if_pos (this.2 h)]; decide +kernel
    · rw [if_neg h, if_neg (fun x => h (this.1 x))]; rfl

theorem printArguments_lines (repr : List Sub → List Char) (args : List ShownArg) :
    printArguments repr args =
      ("Arguments (pass arguments as '<name>:=<value>'):".toList :: ((args.map (·.seen repr)).flatMap SeenArg.lines ++ pageEnd (args.map (·.seen repr)))).flatMap (· ++ ['\n']) := by
  have hb : args.flatMap (printArgument repr) = ((args.map (·.seen repr)).flatMap SeenArg.lines).flatMap (· ++ ['\n']) := by
    induction args with
    | nil => rfl
    | cons a args ih => simp only [List.flatMap_cons, List.map_cons, List.flatMap_append, ih, printArgument_lines]
  have hh : "Arguments (pass arguments as '<name>:=<value>'):\n".toList = "Arguments (pass arguments as '<name>:=<value>'):".toList ++ ['\n'] := by
    decide +kernel
  unfold printArguments
  rw [printEnd_lines repr, hb, hh]
  generalize "Arguments (pass arguments as '<name>:=<value>'):".toList = H
  simp only [List.flatMap_cons, List.flatMap_append, List.append_assoc]

/-- C117: if no name, description and default value has more than one line, what is printed says what the arguments are, and nothing else: name, star, description and
default value of each of them in their order.  Missing: texts of several lines, see `C117_lines_violated`. -/
theorem C117_page_partial (repr : List Sub → List Char) (args : List ShownArg)
    (h : ∀ a ∈ args, '\n' ∉ a.name ∧ '\n' ∉ a.description ∧ ∀ d, (a.seen repr).default = some d → '\n' ∉ d) (seen : List SeenArg) :
    PageSays (printArguments repr args) seen ↔ seen = args.map (·.seen repr) := by
  have hp : PageSays (printArguments repr args) (args.map (·.seen repr)) := by
    refine ⟨_, ?_, printArguments_lines repr args, rfl⟩
    intro l hl
    rcases List.mem_cons.1 hl with rfl | hl
    · decide +kernel
    rcases List.mem_append.1 hl with hl | hl
    · obtain ⟨x, hx, hl⟩ := List.mem_flatMap.1 hl
      obtain ⟨a, ha, rfl⟩ := List.mem_map.1 hx
      obtain ⟨h1, h2, h3⟩ := h a ha
      simp only [SeenArg.lines, List.mem_append, List.mem_cons, List.not_mem_nil, or_false] at hl
      rcases hl with (rfl | rfl | rfl) | hl
      · simp
      · have : '\n' ∉ (a.seen repr).name := h1
        split <;> simp [this]
      · have : '\n' ∉ (a.seen repr).description := h2
        simp [this]
      · cases hd : (a.seen repr).default with
        | none => rw [hd] at hl; simp [defaultLine] at hl
        | some d =>
          rw [hd] at hl
          simp only [defaultLine, List.mem_cons, List.not_mem_nil, or_false] at hl
          have := h3 d hd
          rw [hl]
          simp [this]
    · rcases pageEnd_cases (args.map (·.seen repr)) with he | _
      · rw [he] at hl; cases hl
      · unfold pageEnd at hl
        split at hl
        · simp only [List.mem_cons, List.not_mem_nil, or_false] at hl
          rcases hl with rfl | rfl <;> decide +kernel
        · split at hl
          · simp only [List.mem_cons, List.not_mem_nil, or_false] at hl
            rcases hl with rfl | rfl <;> decide +kernel
          · cases hl
  exact ⟨fun h' => C117_one_reading _ _ _ h' hp, fun h' => h' ▸ hp⟩

example : ∀ a ∈ [ShownArg.mk "speed".toList true "how fast".toList (some [.text "1.0"])],
    '\n' ∉ a.name ∧ '\n' ∉ a.description ∧ ∀ d, (a.seen (fun _ => [])).default = some d → '\n' ∉ d := by
  intro a ha
  rw [List.mem_singleton.1 ha]
  refine ⟨by decide +kernel, by decide +kernel, fun d hd => ?_⟩
  have : d = "'1.0'".toList := by
    have : (ShownArg.seen (fun _ => []) ⟨"speed".toList, true, "how fast".toList, some [.text "1.0"]⟩).default = some "'1.0'".toList := by decide +kernel
    exact (Option.some.inj (this ▸ hd)).symm
  rw [this]; decide +kernel

/-- C117 is violated for descriptions with several lines: what is printed for one argument `a` without default says that there is a second argument `b`, which has a
default value. -/
theorem C117_lines_violated (repr : List Sub → List Char) :
    PageSays (printArguments repr [⟨"a".toList, false, "first\n\n    'b':\n        second\n        (default: 'x')".toList, none⟩])
      [⟨"a".toList, false, "first".toList, none⟩, ⟨"b".toList, false, "second".toList, some "'x'".toList⟩] := by
  refine ⟨["Arguments (pass arguments as '<name>:=<value>'):".toList, [], "    'a':".toList, "        first".toList, [], "    'b':".toList, "        second".toList,
    "        (default: 'x')".toList], by decide +kernel, ?_, by decide +kernel⟩
  have : ∀ x, printArguments repr [⟨"a".toList, false, x, none⟩] = printArguments (fun _ => []) [⟨"a".toList, false, x, none⟩] := fun x => rfl
  rw [this]
  decide +kernel

/-- C117: the arguments that are shown are those declared in the launch description (with everything below it that can be seen), each name once, with what its first
declaration says; a handler that cannot be described is a TypeError. -/
theorem C117_shown (repr : List Sub → List Char) (res : Nat → Option (List Entity)) (n : Nat) (info : ActId → ArgInfo) (es : List Entity) (r : Res (List Char))
    (h : showArguments repr res n info es = some r) :
    (∃ ds, Flat res false false es ds ∧ r = .ok (printArguments repr ((firstOfEach ds).map fun d =>
      ⟨d.name.toList, d.direct, argDescription (info d.id).description (info d.id).choices, (info d.id).default⟩))) ∨ r = .error .typeError := by
  unfold showArguments at h
  cases hg : getLaunchArguments res n es false with
  | none => rw [hg] at h; cases h
  | some x =>
    rw [hg] at h
    simp only [Option.map_some, Option.some.injEq] at h
    cases x with
    | error e =>
      have : e = .typeError := by
        unfold getLaunchArguments at hg
        cases hp : processEntities res n es false none {} with
        | none => rw [hp] at hg; cases hg
        | some st =>
          rw [hp] at hg
          simp only [Option.map_some, Option.some.injEq] at hg
          split at hg
          · exact (Except.error.inj hg).symm
          · cases hg
      subst this
      exact .inr h.symm
    | ok st =>
      obtain ⟨ds, hf, hk⟩ := C11_lists_first_declarations res n es false st hg
      refine .inl ⟨ds, hf, ?_⟩
      rw [← h]
      have key : ∀ (l : List ArgEntry) (m : List Decl), l.map ArgEntry.key = m.map Decl.key → l.map (·.shown info) = m.map fun d =>
          (⟨d.name.toList, d.direct, argDescription (info d.id).description (info d.id).choices, (info d.id).default⟩ : ShownArg) := by
        intro l
        induction l with
        | nil => intro m hm; cases m <;> simp_all
        | cons a l ih =>
          intro m hm
          cases m with
          | nil => simp at hm
          | cons b m =>
            simp only [List.map_cons, List.cons.injEq] at hm
            simp only [List.map_cons, ih m hm.2, List.cons.injEq, and_true]
            have := hm.1
            simp only [ArgEntry.key, Decl.key, Prod.mk.injEq] at this
            simp only [ArgEntry.shown, this]
      exact congrArg (fun l => Except.ok (printArguments repr l)) (key _ _ hk)

/-- C117 is violated for several runs: only the arguments of the first one are shown; an argument that another run requires is not. -/
theorem C117_runs_violated (repr : List Sub → List Char) (res : Nat → Option (List Entity)) (info : ActId → ArgInfo) (P : Prog) (O : Oracle) :
    ∃ runs : List (List Entity), showRuns repr res 3 info runs = some (.ok (printArguments repr [])) ∧
      ∃ es ∈ runs, (visitList (visit P O 3) es {}).map (·.2) = some (.error .runtimeError) :=
  ⟨[[], [.act (.user 1) none (.declareArg "b" none none)]], rfl, [.act (.user 1) none (.declareArg "b" none none)], by simp, rfl⟩

/-- C117: the description that is shown has the given one at its beginning and the choices at its end; without either it says so. -/
theorem C117_description (description choices : Option (List Char)) :
    (∀ d, description = some d → d <+: argDescription description choices) ∧ (∀ cs, choices = some cs → cs <:+ argDescription description choices) ∧
    (description = none → choices = none → argDescription description choices = "no description given".toList) ∧
    (choices = none → ∀ d, description = some d → argDescription description choices = d) := by
  refine ⟨?_, ?_, ?_, ?_⟩
  · rintro d rfl
    cases choices with
    | none => exact List.prefix_refl _
    | some cs =>
      unfold argDescription
      dsimp only
      split
      · exact ⟨_, rfl⟩
      · exact ⟨_, by rw [List.append_assoc]⟩
  · rintro cs rfl
    cases description with
    | none => exact ⟨_, rfl⟩
    | some d => exact ⟨_, by unfold argDescription; dsimp only; rw [List.append_assoc]⟩
  · rintro rfl rfl; rfl
  · rintro rfl d rfl; rfl

/-- C118: two substitutions that are described alike are the same, if they are made of texts without quotation marks and of classes that are described by their
parts.  Missing: see the violations below. -/
theorem C118_identifies_partial (repr : List Sub → List Char) (s s' : Sub) (h : s.Readable) (h' : s'.Readable)
    (he : s.describe repr = s'.describe repr) : s = s' :=
  (describe_delimited repr s h s' [] [] h' (by rw [he])).1

example : (Sub.pathJoin [.launchConfig [.text "dir"] none, .text "file.txt"]).Readable := by
  simp only [Sub.Readable, Sub.ReadableAll]
  refine ⟨by simp, ⟨⟨by decide +kernel, trivial⟩, trivial⟩, by decide +kernel, trivial⟩

/-- C118: the same for a value that consists of several substitutions, as default values are printed. -/
theorem C118_values_partial (repr : List Sub → List Char) (l l' : List Sub) (h : Sub.ReadableAll l) (h' : Sub.ReadableAll l')
    (he : [' ', '+', ' '].intercalate (Sub.describeAll repr l) = [' ', '+', ' '].intercalate (Sub.describeAll repr l')) : l = l' :=
  (plus_split repr ')' [] (by decide) l l' [] [] (describe_delimitedAll repr l h) h h' (.inr ⟨by decide, by decide⟩) (by
    show plusJoin _ ++ _ = plusJoin _ ++ _
    rw [plusJoin, plusJoin, he])).1

/-- C118 is violated by OrSubstitution: it is described as an AndSubstitution. -/
theorem C118_or_violated (repr : List Sub → List Char) (O : Oracle) :
    (∀ l r, (Sub.orS l r).describe repr = (Sub.andS l r).describe repr) ∧
    (textAsBool O "true" = some true → textAsBool O "false" = some false →
      (perform O (.orS [.text "true"] [.text "false"]) {}).2 = .ok "true" ∧ (perform O (.andS [.text "true"] [.text "false"]) {}).2 = .ok "false") := by
  refine ⟨fun l r => by simp only [Sub.describe], fun h1 h2 => ?_⟩
  have ht : ∀ s, performSubs O [.text s] {} = ({}, .ok s) := (C13_single O (.text "") {}).2.2
  obtain ⟨h, _⟩ := C15_and_or_value O [.text "true"] [.text "false"] {} {} {} "true" "false" (by simp) (by simp) (ht _) (ht _)
  obtain ⟨h3, h4⟩ := h true false h1 h2
  rw [h3, h4]
  exact ⟨rfl, rfl⟩

example : textAsBool sampleOracle "true" = some true ∧ textAsBool sampleOracle "false" = some false := by decide +kernel

/-- C118 is violated by defaults: a launch configuration or environment variable is described in the same way with and without one, so that it cannot be seen that one of them
can be performed without being set and the other one cannot. -/
theorem C118_default_violated (repr : List Sub → List Char) (n : List Sub) (d d' : Option (List Sub)) :
    (Sub.launchConfig n d).describe repr = (Sub.launchConfig n d').describe repr ∧ (Sub.envVar n d).describe repr = (Sub.envVar n d').describe repr := by
  simp only [Sub.describe, and_self]

/-- C118 is violated by the substitutions for booleans and comparisons: their operands are shown as objects, by class and address, whatever they contain. -/
theorem C118_operands_violated (f : Nat → List Char) (a b c a' b' c' : List Sub) (ha : a.length = a'.length) (hb : b.length = b'.length) (hc : c.length = c'.length) :
    let repr := fun l : List Sub => f l.length
    (Sub.notS a).describe repr = (Sub.notS a').describe repr ∧ (Sub.andS a b).describe repr = (Sub.andS a' b').describe repr ∧
    (Sub.equals a b).describe repr = (Sub.equals a' b').describe repr ∧ (Sub.notEquals a b).describe repr = (Sub.notEquals a' b').describe repr ∧
    (Sub.ifElse a b c).describe repr = (Sub.ifElse a' b' c').describe repr := by
  simp only [Sub.describe, ha, hb, hc, and_self]

/-- C118 is violated by quotation marks in texts: a text can look like two. -/
theorem C118_quotation_violated (repr : List Sub → List Char) :
    [' ', '+', ' '].intercalate (Sub.describeAll repr [.text "a' + 'b"]) = [' ', '+', ' '].intercalate (Sub.describeAll repr [.text "a", .text "b"]) := by
  simp only [Sub.describeAll, Sub.describe]
  decide +kernel

end Verif
