import Verif.Lemmas.Cmdline
import Verif.Spec.Subst

/-!
# Command lines and prepared executables (C39, C43)
-/

namespace Verif

open Shlex

/-! ## C43 -/

theorem all_white : ∀ (t : List Char), (goChar {} t).mode = .plain → (goChar {} t).words = [] → (goChar {} t).word = none → ∀ c ∈ t, white c = true
  | [], _, _, _ => by simp
  | c :: t, hm, hws, hw => by
    cases hc : white c with
    | true =>
      have e : goChar {} (c :: t) = goChar {} t := by
        show go _ _ _ _ = _
        rw [go_cons, stepc_white hc]
      rw [e] at hm hws hw
      have := all_white t hm hws hw
      simp only [List.mem_cons, forall_eq_or_imp]
      exact ⟨hc, this⟩
    | false =>
      exfalso
      have hg := go_glue some '\\' [] t (start_glue some '\\' [] c (by intro x hx; simp only [Option.some.injEq] at hx; subst hx; exact hc))
        (step_ok some '\\' _ c (.inl rfl))
      rw [← go_cons, ← go_cons] at hg
      change Glue [] (goChar {} (c :: t)) _ at hg
      generalize go some '\\' { word := some [] } (c :: t) = ρ at hg
      generalize goChar {} (c :: t) = s at *
      cases hg with
      | first h1 =>
        simp only at hw hm
        subst hw hm
        simp at h1
      | later => simp at hws

theorem split_white {t : List Char} (h : ∀ c ∈ t, white c = true) : split t = some [] := by
  have : goChar {} t = {} := by
    induction t with
    | nil => rfl
    | cons c t ih =>
      show go _ _ _ _ = _
      rw [go_cons, stepc_white (h c (by simp))]
      exact ih (fun x hx => h x (by simp [hx]))
  rw [split_eq, this]
  rfl

theorem split_nonwhite {t : List Char} (h : ∃ c ∈ t, white c = false) {toks : List (List Char)} (hs : split t = some toks) : toks ≠ [] := by
  rintro rfl
  obtain ⟨hm, he⟩ := split_some hs
  have he' := List.append_eq_nil_iff.mp he.symm
  have hw : (goChar {} t).word = none := by
    cases hx : (goChar {} t).word with
    | none => rfl
    | some x => rw [hx] at he'; simp at he'
  obtain ⟨c, hc, hcw⟩ := h
  rw [all_white t hm he'.1 hw c hc] at hcw
  cases hcw

theorem no_invented : ∀ (ps : List Piece) (b : Bool) (s s' : Cmdline), NoLoneWhite b ps → [] ∉ s.args → (b = true → s.arg ≠ []) → s.run ps = some s' → [] ∉ s'.args
  | [], b, s, s', _, ha, _, hr => by
    simp only [Cmdline.run, Option.some.injEq] at hr
    subst hr; exact ha
  | p :: ps, b, s, s', hn, ha, hb, hr => by
    simp only [Cmdline.run] at hr
    cases hs : s.step p with
    | none => simp [hs] at hr
    | some s1 =>
      simp only [hs, Option.bind_some] at hr
      cases hn with
      | sub h =>
        simp only [Cmdline.step, Option.some.injEq] at hs
        subst hs
        exact no_invented ps true { s with arg := s.arg ++ [.sub _] } s' h ha (fun _ => by simp) hr
      | white hw h =>
        rename_i t
        simp only [Cmdline.step, split_white hw, Option.some.injEq] at hs
        subst hs
        refine no_invented ps false _ s' h ?_ (fun hf => by cases hf) hr
        simp only [Cmdline.append, List.mem_append, List.mem_singleton, not_or]
        exact ⟨ha, fun e => hb rfl e.symm⟩
      | text hw h =>
        rename_i t
        cases hsp : split t with
        | none => simp [Cmdline.step, hsp] at hs
        | some toks =>
          obtain ⟨w, ws, rfl⟩ : ∃ w ws, toks = w :: ws := by
            cases toks with
            | nil => exact absurd rfl (split_nonwhite hw hsp)
            | cons w ws => exact ⟨w, ws, rfl⟩
          obtain ⟨s0, hs0, hst⟩ := step_text (s := s) hsp
          rw [hst] at hs
          simp only [Option.some.injEq] at hs
          have h0 : [] ∉ s0.args := by
            rw [hs0]
            split
            · rename_i hx
              simp only [Bool.and_eq_true, Bool.not_eq_true', List.isEmpty_eq_false_iff] at hx
              simp only [Cmdline.append, List.mem_append, List.mem_singleton, not_or]
              exact ⟨ha, fun e => hx.2 e.symm⟩
            · exact ha
          have hpl := placed_ne s0.arg w ws
          subst hs
          refine no_invented ps _ _ s' h ?_ ?_ hr
          · cases endsWhite t
            · simp only [Bool.false_eq_true, if_false, List.mem_append, not_or]
              exact ⟨h0, fun hx => hpl _ ((List.dropLast_subset _) hx) rfl⟩
            · simp only [if_true, List.mem_append, not_or]
              exact ⟨h0, fun hx => hpl _ hx rfl⟩
          · intro he
            have he' : endsWhite t = false := by simpa using he
            rw [he']
            simp only [Bool.false_eq_true, if_false]
            have hnil : placed s0.arg w ws ≠ [] := by simp [placed]
            have : (placed s0.arg w ws).getLastD [] = (placed s0.arg w ws).getLast hnil := by
              rw [List.getLastD_eq_getLast?, List.getLast?_eq_some_getLast hnil]; rfl
            rw [this]
            exact hpl _ (List.getLast_mem hnil)

/-- C43.  A command line in a launch file is split like a shell does, a substitution being part of the word it touches; the arguments are
exactly the words.  (Missing for the full property: texts ending in an escaped blank or containing other white space, and texts of white
space only that do not follow a word; for these it fails, see the `violated` theorems.) -/
theorem C43_splits_like_shell_partial (ps : List Piece) (args : List (List Piece)) (ho : ∀ t, Piece.text t ∈ ps → OrdinaryText t)
    (hn : NoLoneWhite false ps) (h : parseCmdline ps = some args) : shellWords (symsOf ps) = some (args.map symsOf) := by
  simp only [parseCmdline, Option.map_eq_some_iff] at h
  obtain ⟨s, hr, he⟩ := h
  have hsim := sim_run ps (s := {}) (σ := {}) ⟨rfl, rfl, rfl⟩ ho hr
  have hin := no_invented ps false {} s hn (by simp) (fun hf => by cases hf) hr
  have hf : s.args.filter (· ≠ []) = s.args := by
    rw [List.filter_eq_self]
    intro x hx
    have : x ≠ [] := fun e => hin (e ▸ hx)
    simpa using this
  obtain ⟨h1, h2, h3⟩ := hsim
  rw [hf] at h2
  show finish (goSym {} (symsOf ps)) = _
  unfold finish
  rw [h1]
  simp only [h2, h3, Option.some.injEq]
  rw [← he]
  by_cases ha : s.arg = []
  · simp [ha]
  · simp [ha]

/-- `$(find-exec prog) --name='a b'$(var x)/c  last`: all conditions hold, and the result. -/
example : (∀ t, Piece.text t ∈ [Piece.sub 0, .text " --name='a b'".toList, .sub 1, .text "/c  last ".toList] → OrdinaryText t) ∧
    NoLoneWhite false [Piece.sub 0, .text " --name='a b'".toList, .sub 1, .text "/c  last ".toList] ∧
    parseCmdline [Piece.sub 0, .text " --name='a b'".toList, .sub 1, .text "/c  last ".toList] =
      some [[.sub 0], [.text "--name=a b".toList, .sub 1, .text "/c".toList], [.text "last".toList]] := by
  refine ⟨?_, ?_, by decide +kernel⟩
  · intro t ht
    simp at ht
    rcases ht with rfl | rfl
    · exact ⟨by decide, by decide +kernel, by decide +kernel⟩
    · exact ⟨by decide, by decide +kernel, by decide +kernel⟩
  · exact .sub (.text (by decide +kernel) (.sub (.text (by decide +kernel) .nil)))

/-- C43, whatever white space there is between the pieces: dropping the invented empty arguments (those without any piece) leaves exactly the words. -/
theorem C43_real_arguments (ps : List Piece) (args : List (List Piece)) (ho : ∀ t, Piece.text t ∈ ps → OrdinaryText t)
    (h : parseCmdline ps = some args) : shellWords (symsOf ps) = some ((args.filter (· ≠ [])).map symsOf) := by
  simp only [parseCmdline, Option.map_eq_some_iff] at h
  obtain ⟨s, hr, he⟩ := h
  obtain ⟨h1, h2, h3⟩ := sim_run ps (s := {}) (σ := {}) ⟨rfl, rfl, rfl⟩ ho hr
  show finish (goSym {} (symsOf ps)) = _
  unfold finish
  rw [h1]
  simp only [h2, h3, Option.some.injEq]
  rw [← he]
  by_cases ha : s.arg = []
  · simp [ha]
  · simp [ha]

theorem words_run : ∀ (l : List Sym), (∀ x ∈ l, x.isSpecial = false) → ∀ W : List (List Sym),
    (∃ init last, goSym ⟨.plain, W, none⟩ l = ⟨.plain, W ++ init, last⟩ ∧ IsWords l (init ++ last.toList)) ∧
    ∀ w : List Sym, w ≠ [] → (∀ x ∈ w, x.isWhite = false) →
      ∃ init last, goSym ⟨.plain, W, some w⟩ l = ⟨.plain, W ++ init, last⟩ ∧ IsWords (w ++ l) (init ++ last.toList)
  | [], _, W => ⟨⟨[], none, by simp [go], .nil⟩, fun w h1 h2 => ⟨[], some w, by simp [go], by simpa using IsWords.last h1 h2⟩⟩
  | x :: l, h, W => by
    have hl := fun y hy => h y (List.mem_cons_of_mem _ hy)
    have hx := h x (by simp)
    have hsp : ∀ c, x = .char c → c ≠ '\\' ∧ ¬ (c = '\'' ∨ c = '"') := by
      rintro c rfl
      simp [Sym.isSpecial] at hx
      exact ⟨hx.2, by simpa using hx.1⟩
    cases hw : x.isWhite with
    | true =>
      obtain ⟨c, rfl⟩ : ∃ c, x = .char c := by
        cases x with
        | char c => exact ⟨c, rfl⟩
        | sub n => cases hw
      have hc : white c = true := hw
      refine ⟨?_, ?_⟩
      · obtain ⟨init, last, e, hi⟩ := (words_run l hl W).1
        refine ⟨init, last, ?_, .white hw hi⟩
        show go _ _ _ _ = _
        rw [go_cons, step_white _ rfl hc]
        simpa using e
      · intro w h1 h2
        obtain ⟨init, last, e, hi⟩ := (words_run l hl (W ++ [w])).1
        refine ⟨w :: init, last, ?_, by simpa using IsWords.word h1 h2 hw hi⟩
        show go _ _ _ _ = _
        rw [go_cons, step_white _ rfl hc]
        simpa using e
    | false =>
      have hstep : ∀ u : Option (List Sym), step Sym.cls (.char '\\') ⟨.plain, W, u⟩ x = ⟨.plain, W, some (u.getD [] ++ [x])⟩ := by
        intro u
        cases x with
        | sub n => rfl
        | char c =>
          have h3 := hsp c rfl
          have hc : white c = false := hw
          simp [step, Sym.cls, hc, h3]
      refine ⟨?_, ?_⟩
      · obtain ⟨init, last, e, hi⟩ := (words_run l hl W).2 [x] (by simp) (by simpa using hw)
        refine ⟨init, last, ?_, hi⟩
        show go _ _ _ _ = _
        rw [go_cons, hstep]
        exact e
      · intro w h1 h2
        obtain ⟨init, last, e, hi⟩ := (words_run l hl W).2 (w ++ [x]) (by simp) (by
          intro y hy
          rcases List.mem_append.mp hy with hy | hy
          · exact h2 y hy
          · simp at hy; subst hy; exact hw)
        refine ⟨init, last, ?_, by simpa using hi⟩
        show go _ _ _ _ = _
        rw [go_cons, hstep]
        exact e

/-- C43 without quotation marks and backslashes: the arguments are the maximal runs without white space. -/
theorem C43_plain_words (l : List Sym) (h : ∀ x ∈ l, x.isSpecial = false) : ∃ ws, shellWords l = some ws ∧ IsWords l ws := by
  obtain ⟨init, last, e, hi⟩ := (words_run l h []).1
  refine ⟨init ++ last.toList, ?_, hi⟩
  show finish (goSym {} l) = _
  rw [show goSym {} l = _ from e]
  simp [finish]

example : ∀ x ∈ symsOf [.sub 0, .text "/a b ".toList], x.isSpecial = false := by decide +kernel

/-- C43.  Parsing raises exactly if some text by itself has an unclosed quotation or ends in a backslash. -/
theorem C43_error_iff (ps : List Piece) : parseCmdline ps = none ↔ ∃ t, Piece.text t ∈ ps ∧ Shlex.split t = none := by
  have key : ∀ (ps : List Piece) (s : Cmdline), s.run ps = none ↔ ∃ t, Piece.text t ∈ ps ∧ Shlex.split t = none := by
    intro ps
    induction ps with
    | nil => intro s; simp [Cmdline.run]
    | cons p ps ih =>
      intro s
      simp only [Cmdline.run]
      cases p with
      | sub n =>
        simp only [Cmdline.step, Option.bind_some, ih]
        simp
      | text t =>
        cases hsp : Shlex.split t with
        | none =>
          have : s.step (.text t) = none := by simp [Cmdline.step, hsp]
          simp only [this, Option.bind_none, true_iff]
          exact ⟨t, by simp, hsp⟩
        | some toks =>
          obtain ⟨s1, hs1⟩ : ∃ s1, s.step (.text t) = some s1 := by
            cases toks with
            | nil => exact ⟨_, by simp [Cmdline.step, hsp]; rfl⟩
            | cons w ws =>
              obtain ⟨s0, _, h⟩ := step_text (s := s) hsp
              exact ⟨_, h⟩
          simp only [hs1, Option.bind_some, ih]
          constructor
          · rintro ⟨u, h1, h2⟩; exact ⟨u, by simp [h1], h2⟩
          · rintro ⟨u, h1, h2⟩
            simp at h1
            rcases h1 with rfl | h1
            · rw [hsp] at h2; cases h2
            · exact ⟨u, h1, h2⟩
  unfold parseCmdline
  rw [Option.map_eq_none_iff, key]

/-- C43 fails: a blank before a leading substitution becomes an empty argument (with ordinary texts). -/
theorem C43_empty_argument_violated : ∃ ps : List Piece, (∀ t, Piece.text t ∈ ps → OrdinaryText t) ∧
    parseCmdline ps = some [[], [.sub 0]] ∧ shellWords (symsOf ps) = some [[.sub 0]] := by
  refine ⟨[.text [' '], .sub 0], ?_, by decide +kernel, by decide +kernel⟩
  intro t ht
  simp at ht
  subst ht
  exact ⟨by decide, by decide, by decide⟩

/-- C43 fails: an empty command line is one empty argument. -/
theorem C43_empty_command_violated : parseCmdline [.text []] = some [[]] ∧ shellWords (symsOf [.text []]) = some [] := by decide +kernel

/-- C43 fails: a quotation around a substitution raises, since each text is split on its own. -/
theorem C43_quoted_substitution_violated : ∃ ps : List Piece, parseCmdline ps = none ∧
    shellWords (symsOf ps) = some [[.sub 0, .char ' ', .char 'y']] :=
  ⟨[.text "'".toList, .sub 0, .text " y'".toList], by decide +kernel⟩

/-- C43 fails: an escaped blank before a substitution separates it. -/
theorem C43_escaped_blank_violated : ∃ ps : List Piece, parseCmdline ps = some [[.text "a ".toList], [.sub 0]] ∧
    shellWords (symsOf ps) = some [[.char 'a', .char ' ', .sub 0]] :=
  ⟨[.text "a\\ ".toList, .sub 0], by decide +kernel⟩

/-! ## C39 -/

/-- A name with its counter determines the counter. -/
theorem counter_injective {a b : String} {m n : Nat} (h : a ++ "-" ++ toString m = b ++ "-" ++ toString n) : m = n := by
  have h' := congrArg String.toList h
  simp only [String.toList_append] at h'
  have hd : ∀ k : Nat, '-' ∉ (toString k).toList := by
    intro k hk
    have : (toString k).toList = Nat.toDigits 10 k := by
      rw [Nat.toString_eq_repr]; exact Nat.toList_repr
    rw [this] at hk
    have := Nat.isDigit_of_mem_toDigits (by omega) (by omega) hk
    revert this
    decide
  have key : ∀ (x y u v : List Char), '-' ∉ u → '-' ∉ v → x ++ ['-'] ++ u = y ++ ['-'] ++ v → u = v := by
    intro x y u v hu hv he
    have he2 := congrArg List.reverse he
    simp only [List.reverse_append, List.reverse_cons, List.reverse_nil, List.nil_append, List.append_assoc] at he2
    have hu' : '-' ∉ u.reverse := by simpa using hu
    have hv' : '-' ∉ v.reverse := by simpa using hv
    have : ∀ (p q r s : List Char), '-' ∉ p → '-' ∉ q → p ++ (['-'] ++ r) = q ++ (['-'] ++ s) → p = q := by
      intro p
      induction p with
      | nil =>
        intro q r s _ hq he
        cases q with
        | nil => rfl
        | cons c q => simp at he hq; exact absurd he.1 hq.1
      | cons c p ih =>
        intro q r s hp hq he
        cases q with
        | nil => simp at he hp; exact absurd he.1.symm hp.1
        | cons d q =>
          simp at he hp hq
          rw [he.1, ih q r s hp.2 hq.2 (by simpa using he.2)]
    exact List.reverse_inj.mp (this _ _ _ _ hu' hv' he2)
  have h2 := key _ _ _ _ (hd m) (hd n) (by simpa using h')
  have e : ∀ k : Nat, (toString k).toList = Nat.toDigits 10 k := by
    intro k; rw [Nat.toString_eq_repr]; exact Nat.toList_repr
  rw [e, e] at h2
  have h3 := congrArg (fun l => Nat.ofDigitChars 10 l 0) h2
  simpa [Nat.ofDigitChars_ten_toDigits] using h3

theorem prepare_counter (O : Oracle) (rx : String → String → Res Bool) (e : Exe) (k : Nat) (c : Ctx) :
    k ≤ (e.prepare O rx k c).2.1 ∧ ∀ p, (e.prepare O rx k c).2.2 = .ok p →
      (e.prepare O rx k c).2.1 = k + 1 ∧ ∃ n, p.name = n ++ "-" ++ toString (k + 1) := by
  unfold Exe.prepare
  split
  · exact ⟨Nat.le_refl _, nofun⟩
  · split
    · exact ⟨Nat.le_succ _, nofun⟩
    · refine ⟨Nat.le_succ _, ?_⟩
      intro p hp
      simp only [Except.ok.injEq] at hp
      subst hp
      exact ⟨rfl, _, rfl⟩

theorem names_later (O : Oracle) (rx : String → String → Res Bool) : ∀ (jobs : List (Exe × Ctx)) (k : Nat),
    ∀ x ∈ preparedNames (prepareMany O rx k jobs), ∃ n i, k < i ∧ x = n ++ "-" ++ toString i
  | [], _, x, hx => by simp [prepareMany, preparedNames] at hx
  | (e, c) :: rest, k, x, hx => by
    have hc := prepare_counter O rx e k c
    have ih := names_later O rx rest (e.prepare O rx k c).2.1
    have hx' : x ∈ preparedNames [(e.prepare O rx k c).2.2] ∨ x ∈ preparedNames (prepareMany O rx (e.prepare O rx k c).2.1 rest) := by
      simp only [prepareMany, preparedNames, List.filterMap_cons] at hx ⊢
      cases hr : (e.prepare O rx k c).2.2 with
      | error y => simp only [hr] at hx; exact .inr hx
      | ok p => simp only [hr, List.mem_cons] at hx; simpa using hx
    rcases hx' with hx | hx
    · cases hr : (e.prepare O rx k c).2.2 with
      | error y => rw [hr] at hx; simp [preparedNames] at hx
      | ok p =>
        rw [hr] at hx
        simp [preparedNames] at hx
        obtain ⟨_, n, hn⟩ := hc.2 p hr
        exact ⟨n, k + 1, by omega, hx.trans hn⟩
    · obtain ⟨n, i, hi, he⟩ := ih x hx
      exact ⟨n, i, by omega, he⟩

/-- C39.  However many executables are prepared, in whatever contexts and whether or not some fail, no two of them get the same name, whatever their base names are. -/
theorem C39_unique_names (O : Oracle) (rx : String → String → Res Bool) (jobs : List (Exe × Ctx)) (k : Nat) :
    (preparedNames (prepareMany O rx k jobs)).Nodup := by
  induction jobs generalizing k with
  | nil => simp [prepareMany, preparedNames]
  | cons j rest ih =>
    obtain ⟨e, c⟩ := j
    have hc := prepare_counter O rx e k c
    simp only [prepareMany, preparedNames, List.filterMap_cons]
    cases hr : (e.prepare O rx k c).2.2 with
    | error y => exact ih _
    | ok p =>
      simp only
      rw [List.nodup_cons]
      refine ⟨?_, ih _⟩
      intro hm
      obtain ⟨hk, n, hn⟩ := hc.2 p hr
      obtain ⟨m, i, hi, he⟩ := names_later O rx rest _ p.name hm
      rw [hn] at he
      have := counter_injective he
      omega

/-- Names that look like a counter was added already. -/
example : preparedNames (prepareMany sampleOracle (fun _ _ => .ok true) 0
      [({ cmd := [[.text "/bin/a"]] }, {}), ({ cmd := [[.text "b"]], name := some [.text "a-1"] }, {}), ({ cmd := [[.text "a"]] }, {})]) =
    ["a-1", "a-1-2", "a-3"] := by decide +kernel

theorem each_perform {O : Oracle} {c : Ctx} {xs : List (List Sub)} {vs : List String} (h : Each (Yields O c) xs vs) :
    performEach O xs c = (c, .ok vs) := by
  induction h with
  | nil => rfl
  | cons h1 _ ih =>
    unfold performEach M.bind
    rw [show performSubs O _ c = _ from h1]
    simp only
    rw [ih]
    rfl

theorem each_env {O : Oracle} {c : Ctx} {xs : List (List Sub × List Sub)} {vs : List (String × String)} (h : Each (YieldsPair O c) xs vs) :
    ∀ env : Dict String, performEnv O env xs c = (c, .ok (vs.foldl (fun d p => d.set p.1 p.2) env)) := by
  induction h with
  | nil => intro env; rfl
  | cons h1 _ ih =>
    intro env
    rename_i x v _ _ _
    obtain ⟨k, w⟩ := x
    unfold performEnv M.bind
    rw [show performSubs O w c = _ from h1.2]
    simp only
    rw [show performSubs O k c = _ from h1.1]
    simp only
    rw [ih]
    rfl

theorem get_assigned (vs : List (String × String)) (k : String) : ∀ env : Dict String,
    Dict.get? (vs.foldl (fun d p => d.set p.1 p.2) env) k = (lastAssigned vs k).or (env.get? k) := by
  induction vs with
  | nil => intro env; simp [lastAssigned]
  | cons p vs ih =>
    intro env
    rw [List.foldl_cons, ih, Dict.get?_set]
    simp only [lastAssigned, List.reverse_cons, List.find?_append]
    cases List.find? (fun x => x.1 == k) vs.reverse with
    | some q => simp
    | none =>
      by_cases hk : p.1 = k
      · simp [hk]
      · simp [hk]

theorem surroundings_of {O : Oracle} {c : Ctx} {e : Exe} {args : List String} {name cwd : Option String} {env addEnv : Option (List (String × String))}
    (h : ExeValues O c e args name cwd env addEnv) :
    ∃ d, e.surroundings O c = (c, .ok (cwd, d)) ∧ ∀ k, Dict.get? d k = envOf c env addEnv k := by
  obtain ⟨_, _, h3, h4, h5⟩ := h
  have e1 : e.performCwd O c = (c, .ok cwd) := by
    unfold Exe.performCwd
    revert h3
    cases e.cwd with
    | none => intro h3; cases cwd with
      | none => rfl
      | some _ => cases h3
    | some d => intro h3; cases cwd with
      | none => cases h3
      | some v =>
        cases h3 with
        | cons h _ =>
          unfold M.bind
          simp only
          rw [show performSubs O d c = _ from h]
          rfl
  have e2 : ∃ d, e.baseEnv O c = (c, .ok d) ∧ ∀ k, ∀ a, (lastAssigned a k).or (Dict.get? d k) = envOf c env (some a) k := by
    unfold Exe.baseEnv
    revert h4
    cases e.env with
    | none => intro h4; cases env with
      | none => exact ⟨c.env, rfl, fun _ _ => rfl⟩
      | some _ => cases h4
    | some l => intro h4; cases env with
      | none => cases h4
      | some vs =>
        cases h4 with
        | cons h _ =>
          refine ⟨_, each_env h [], ?_⟩
          intro k a
          rw [get_assigned]
          simp [envOf]
  obtain ⟨d, e2, hd⟩ := e2
  have e3 : ∃ d', e.extendEnv O d c = (c, .ok d') ∧ ∀ k, Dict.get? d' k = (lastAssigned (addEnv.getD []) k).or (Dict.get? d k) := by
    unfold Exe.extendEnv
    revert h5
    cases e.addEnv with
    | none => intro h5; cases addEnv with
      | none => exact ⟨d, rfl, fun _ => by simp [lastAssigned]⟩
      | some _ => cases h5
    | some l => intro h5; cases addEnv with
      | none => cases h5
      | some vs =>
        cases h5 with
        | cons h _ => exact ⟨_, each_env h d, fun k => get_assigned vs k d⟩
  obtain ⟨d', e3, hd'⟩ := e3
  refine ⟨d', ?_, ?_⟩
  · unfold Exe.surroundings M.bind
    simp only [e1, e2, e3]
    rfl
  · intro k
    rw [hd', hd]
    simp [envOf]

theorem base_of {O : Oracle} {c : Ctx} {e : Exe} {args : List String} {name cwd : Option String} {env addEnv : Option (List (String × String))}
    (h : ExeValues O c e args name cwd env addEnv) (p : String) (ps : List String) :
    e.baseName O (p :: ps) c = (c, .ok (name.getD (basename p))) := by
  have h2 := h.name
  unfold Exe.baseName
  revert h2
  cases e.name with
  | none => intro h2; cases name with
    | none => rfl
    | some _ => cases h2
  | some n => intro h2; cases name with
    | none => cases h2
    | some v =>
      cases h2 with
      | cons h _ => exact h

/-- The result of `prepare` once the command is known. -/
theorem prepare_of {O : Oracle} {rx : String → String → Res Bool} {c : Ctx} {e : Exe} {args : List String} {name cwd : Option String}
    {env addEnv : Option (List (String × String))} (h : ExeValues O c e args name cwd env addEnv) (k : Nat) (p : String) (ps : List String)
    (hc : e.command O rx c = (c, .ok (p :: ps))) :
    ∃ r, e.prepare O rx k c = (c, k + 1, .ok r) ∧ r.cmd = p :: ps ∧ r.name = name.getD (basename p) ++ "-" ++ toString (k + 1) ∧
      r.cwd = cwd ∧ ∀ key, r.env.get? key = envOf c env addEnv key := by
  obtain ⟨d, hd, he⟩ := surroundings_of h
  refine ⟨{ cmd := p :: ps, name := name.getD (basename p) ++ "-" ++ toString (k + 1), cwd, env := d }, ?_, rfl, rfl, rfl, he⟩
  unfold Exe.prepare
  have e1 : M.bind (e.command O rx) (fun cmd => M.bind (e.baseName O cmd) fun n => M.pure (cmd, n)) c =
      (c, .ok (p :: ps, name.getD (basename p))) := by
    unfold M.bind
    rw [hc]
    simp only
    rw [base_of h]
    rfl
  rw [e1]
  simp only
  rw [hd]

theorem basename_iff (p b : String) : LastComponent p b ↔ basename p = b := by
  have tw : ∀ l : List Char, '/' ∉ l.takeWhile (· != '/') := by
    intro l
    induction l with
    | nil => simp
    | cons c l ih =>
      by_cases hc : c = '/'
      · simp [hc]
      · have hb : (c != '/') = true := by simp [hc]
        simp only [List.takeWhile_cons, hb, if_true, List.mem_cons, not_or]
        exact ⟨fun h => hc h.symm, ih⟩
  have split : ∀ l : List Char, l = l.takeWhile (· != '/') ∨ ∃ r, l = l.takeWhile (· != '/') ++ '/' :: r := by
    intro l
    induction l with
    | nil => exact .inl rfl
    | cons c l ih =>
      by_cases hc : c = '/'
      · exact .inr ⟨l, by simp [hc]⟩
      · have hb : (c != '/') = true := by simp [hc]
        simp only [List.takeWhile_cons, hb, if_true]
        rcases ih with ih | ⟨r, ih⟩
        · exact .inl (by rw [← ih])
        · exact .inr ⟨r, by rw [List.cons_append, ← ih]⟩
  have whole : ∀ l : List Char, '/' ∉ l → l.takeWhile (· != '/') = l := by
    intro l hl
    rcases split l with h | ⟨r, h⟩
    · exact h.symm
    · exact absurd (by rw [h]; simp) hl
  constructor
  · rintro ⟨h, rfl | ⟨dir, rfl⟩⟩
    · unfold basename
      rw [whole _ (by simpa using h)]
      simp
    · unfold basename
      have e : (dir ++ "/" ++ b).toList.reverse = b.toList.reverse ++ '/' :: dir.toList.reverse := by simp
      rw [e, List.takeWhile_append_of_pos (by
        intro a ha
        simp only [bne_iff_ne, ne_eq]
        rintro rfl
        exact h (by simpa using ha))]
      simp
  · rintro rfl
    unfold basename LastComponent
    refine ⟨by simpa using tw p.toList.reverse, ?_⟩
    rcases split p.toList.reverse with h | ⟨r, h⟩
    · left
      rw [← h]; simp
    · right
      refine ⟨String.ofList r.reverse, ?_⟩
      apply String.toList_injective
      have := congrArg List.reverse h
      simp only [List.reverse_reverse, List.reverse_append, List.reverse_cons] at this
      generalize List.takeWhile (fun x => x != '/') p.toList.reverse = w at this ⊢
      rw [this]
      simp

/-- C39 with a prefix given: the command is the words of the prefix followed by the arguments; the name is the given one, or by default the last part of the path of
the first word, with the counter; the environment is `additional_env` over `env`, or over the context's environment. Nothing else in the context changes. -/
theorem C39_prepared_with_prefix (O : Oracle) (rx : String → String → Res Bool) (c : Ctx) (e : Exe) (args : List String) (name cwd : Option String)
    (env addEnv : Option (List (String × String))) (h : ExeValues O c e args name cwd env addEnv) (k : Nat) (pre : List Sub) (text : String)
    (words : List (List Char)) (hpre : e.pre = some pre) (ht : Yields O c pre text) (hw : Shlex.split text.toList = some words)
    (first base : String) (rest : List String) (hf : words.map String.ofList ++ args = first :: rest) (hb : LastComponent first base) :
    ∃ r, e.prepare O rx k c = (c, k + 1, .ok r) ∧ r.cmd = words.map String.ofList ++ args ∧
      r.name = name.getD base ++ "-" ++ toString (k + 1) ∧ r.cwd = cwd ∧ ∀ key, r.env.get? key = envOf c env addEnv key := by
  rw [hf, ← (basename_iff _ _).1 hb]
  apply prepare_of h
  unfold Exe.command M.bind
  rw [each_perform h.cmd]
  have ha : e.applies O rx args c = (c, .ok true) := by simp [Exe.applies, Exe.filterSubs, hpre, M.pure]
  simp only [ha, if_true, Exe.prefixSubs, hpre, Option.getD_some]
  rw [show performSubs O pre c = _ from ht]
  simp only [hw, ← hf]
  rfl

theorem config_yields (O : Oracle) (c : Ctx) (n : String) :
    performSubs O [.launchConfig [.text n] (some [.text ""])] c = (c, .ok ((c.lc.get? n).getD "")) := by
  have e : n ++ "" = n := by simp
  unfold performSubs
  simp only [performAll, perform, performOpt, M.bind, M.pure, joinStrs, e]
  cases c.lc.get? n <;> simp [joinStrs]

/-- C39 by default: the prefix is the configuration `launch-prefix` (empty if unset), applied exactly if `launch-prefix-filter` (empty if unset) matches the last part of the
path of the program. -/
theorem C39_prepared_default_prefix (O : Oracle) (rx : String → String → Res Bool) (c : Ctx) (e : Exe) (prog : String) (args : List String) (name cwd : Option String)
    (env addEnv : Option (List (String × String))) (h : ExeValues O c e (prog :: args) name cwd env addEnv) (k : Nat) (hpre : e.pre = none)
    (words : List (List Char)) (hw : Shlex.split ((c.lc.get? "launch-prefix").getD "").toList = some words)
    (applied : Bool) (program : String) (hp : LastComponent prog program)
    (hrx : rx ((c.lc.get? "launch-prefix-filter").getD "") program = .ok applied)
    (first base : String) (rest : List String) (hb : LastComponent first base) (hf : (if applied then words.map String.ofList else []) ++ prog :: args = first :: rest) :
    ∃ r, e.prepare O rx k c = (c, k + 1, .ok r) ∧ r.cmd = (if applied then words.map String.ofList else []) ++ prog :: args ∧
      r.name = name.getD base ++ "-" ++ toString (k + 1) ∧ r.cwd = cwd ∧ ∀ key, r.env.get? key = envOf c env addEnv key := by
  rw [hf, ← (basename_iff _ _).1 hb]
  rw [← (basename_iff _ _).1 hp] at hrx
  apply prepare_of h
  unfold Exe.command M.bind
  rw [each_perform h.cmd]
  have ha : e.applies O rx (prog :: args) c = (c, .ok applied) := by
    simp [Exe.applies, Exe.filterSubs, hpre, M.bind, config_yields, M.lift, hrx]
  simp only [ha, Exe.prefixSubs, hpre, Option.getD_none]
  cases applied with
  | true =>
    simp only [if_true, config_yields, hw]
    simp only [if_true] at hf
    rw [hf]
    rfl
  | false =>
    simp at hf
    simp [M.pure, hf]

/-- C39 (no prefix configured): the command is the arguments.  (An empty pattern matches everything.) -/
theorem C39_no_prefix (O : Oracle) (rx : String → String → Res Bool) (hrx : ∀ s, rx "" s = .ok true) (c : Ctx) (e : Exe) (prog : String) (args : List String)
    (name cwd : Option String) (env addEnv : Option (List (String × String))) (h : ExeValues O c e (prog :: args) name cwd env addEnv) (k : Nat)
    (hpre : e.pre = none) (h1 : c.lc.get? "launch-prefix" = none) (h2 : c.lc.get? "launch-prefix-filter" = none) (base : String)
    (hb : LastComponent prog base) :
    ∃ r, e.prepare O rx k c = (c, k + 1, .ok r) ∧ r.cmd = prog :: args ∧ r.name = name.getD base ++ "-" ++ toString (k + 1) ∧
      r.cwd = cwd ∧ ∀ key, r.env.get? key = envOf c env addEnv key := by
  have := C39_prepared_default_prefix O rx c e prog args name cwd env addEnv h k hpre [] (by rw [h1]; rfl) true base hb (by rw [h2]; exact hrx _)
    prog base args hb (by simp)
  simpa using this

example : LastComponent "/bin/bob" "bob" ∧ LastComponent "gdb" "gdb" := ⟨⟨by decide, .inr ⟨"/bin", rfl⟩⟩, by decide, .inl rfl⟩

/-- A description with everything, in a context with a prefix. -/
example : ExeValues sampleOracle { lc := [("launch-prefix", "gdb -x"), ("who", "bob")], env := [("A", "1"), ("B", "2")] }
    { cmd := [[.text "/bin/", .launchConfig [.text "who"] none], [.text "-v"]], cwd := some [.text "/tmp"],
      addEnv := some [([.text "A"], [.envVar [.text "B"] none])] }
    ["/bin/bob", "-v"] none (some "/tmp") none (some [("A", "2")]) :=
  ⟨.cons rfl (.cons rfl .nil), .nil, .cons rfl .nil, .nil, .cons (.cons ⟨rfl, rfl⟩ .nil) .nil⟩

/-- The documentation of `name` says it defaults to the basename of the executable; with a prefix it is that of the prefix. -/
theorem C39_default_name_violated : ∃ (e : Exe) (c : Ctx) (r : Prepared), e.name = none ∧ e.cmd = [[.text "/bin/talker"]] ∧
    e.prepare sampleOracle (fun _ _ => .ok true) 0 c = (c, 1, .ok r) ∧ r.name = "gdb-1" :=
  ⟨{ cmd := [[.text "/bin/talker"]] }, { lc := [("launch-prefix", "gdb --args")] }, ⟨["gdb", "--args", "/bin/talker"], "gdb-1", none, []⟩, rfl, rfl, by rfl, rfl⟩

end Verif
