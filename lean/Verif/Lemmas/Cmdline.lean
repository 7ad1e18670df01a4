import Verif.Lemmas.Executable

/-! # `_parse_cmdline` simulates splitting -/

namespace Verif

open Shlex

/-- Reading the symbols of a command line. -/
abbrev goSym (s : St Sym) (l : List Sym) : St Sym := go Sym.cls (.char '\\') s l

/-- Reading characters. -/
abbrev goChar (s : St Char) (l : List Char) : St Char := go some '\\' s l

theorem white_isSpace {c : Char} (h : white c = true) : isSpace c = true := by
  simp only [white, Bool.or_eq_true, beq_iff_eq] at h
  rcases h with ((h | h) | h) | h <;> subst h <;> decide

theorem goSym_text (t : List Char) (s : St Char) : goSym (s.map Sym.char) (t.map Sym.char) = (goChar s t).map Sym.char :=
  go_map (clsα := some) (clsβ := Sym.cls) (f := Sym.char) (fun _ => rfl) '\\' t s

theorem goSym_frame (σ : St Sym) (hm : σ.mode = .plain) (hw : σ.word = none) (t : List Char) :
    goSym σ (t.map Sym.char) = { (goChar {} t).map Sym.char with words := σ.words ++ ((goChar {} t).map Sym.char).words } := by
  have h := go_words Sym.cls (.char '\\') σ.words (t.map Sym.char) {}
  have e : ({ ({} : St Sym) with words := σ.words ++ ({} : St Sym).words } : St Sym) = σ := by
    obtain ⟨m, ws, w⟩ := σ
    simp only at hm hw
    subst hm hw
    simp
  rw [e] at h
  show go Sym.cls (.char '\\') σ _ = _
  rw [h]
  have h2 := goSym_text t {}
  have h3 : (({} : St Char).map Sym.char) = {} := rfl
  rw [h3] at h2
  have h4 : go Sym.cls (.char '\\') {} (t.map Sym.char) = (goChar {} t).map Sym.char := h2
  rw [h4]

theorem split_eq (t : List Char) : split t = finish (goChar {} t) := rfl

theorem split_some {t : List Char} {toks : List (List Char)} (h : split t = some toks) :
    (goChar {} t).mode = .plain ∧ toks = (goChar {} t).words ++ (goChar {} t).word.toList := by
  rw [split_eq] at h
  unfold finish at h
  split at h
  · rename_i hm
    simp only [Option.some.injEq] at h
    exact ⟨hm, h.symm⟩
  · cases h

theorem finish_isSome {s : St Char} (h : (finish s).isSome = true) : s.mode = .plain := by
  unfold finish at h
  split at h
  · assumption
  · cases h

theorem ends_word {t : List Char} (ho : OrdinaryText t) (hm : (goChar {} t).mode = .plain) :
    (goChar {} t).word.isSome = !endsWhite t := by
  obtain ⟨u, c, rfl⟩ : ∃ u c, t = u ++ [c] := by
    exact ⟨t.dropLast, t.getLast ho.nonempty, (List.dropLast_concat_getLast ho.nonempty).symm⟩
  have hstep : goChar {} (u ++ [c]) = step some '\\' (goChar {} u) c := by
    show go _ _ _ _ = _
    rw [go_append]; rfl
  rw [hstep] at hm ⊢
  have he : endsWhite (u ++ [c]) = isSpace c := by simp [endsWhite]
  cases hs : isSpace c with
  | true =>
    have hw := ho.white c (by simp) hs
    have h2 := ho.ending (by rw [he, hs])
    rw [List.dropLast_concat, split_eq] at h2
    have h3 := finish_isSome h2
    rw [he, hs]
    generalize goChar {} u = s at *
    obtain ⟨m, ws, w⟩ := s
    simp only at h3
    subst h3
    cases w <;> simp [step, hw]
  | false =>
    rw [he, hs]
    refine word_after some '\\' _ c (go_ok some '\\' u {} (.inl rfl)) ?_ hm
    intro x hx
    simp only [Option.some.injEq] at hx
    subst hx
    cases hw : white c with
    | false => rfl
    | true => rw [white_isSpace hw] at hs; cases hs

theorem starts_white {c : Char} {t : List Char} (ho : OrdinaryText (c :: t)) : startsWhite (c :: t) = white c := by
  simp only [startsWhite, List.head?_cons, Option.map_some, Option.getD_some]
  cases h : white c with
  | true => exact white_isSpace h
  | false =>
    cases hs : isSpace c with
    | false => rfl
    | true => rw [ho.white c (by simp) hs] at h; cases h

theorem step_white (σ : St Sym) (hm : σ.mode = .plain) {c : Char} (hc : white c = true) :
    step Sym.cls (.char '\\') σ (.char c) = { mode := .plain, words := σ.words ++ σ.word.toList, word := none } := by
  obtain ⟨m, ws, w⟩ := σ
  simp only at hm
  subst hm
  cases w <;> simp [step, Sym.cls, hc]

theorem stepc_white {c : Char} (hc : white c = true) : step some '\\' ({} : St Char) c = {} := by
  simp [step, hc]

/-- A text that yields no token is white and leaves the reader as at its beginning. -/
theorem no_tokens {t : List Char} (ho : OrdinaryText t) (h : split t = some []) :
    ∃ c t', t = c :: t' ∧ white c = true ∧ (goChar {} t').words = [] ∧ (goChar {} t').word = none ∧ (goChar {} t').mode = .plain := by
  cases t with
  | nil => exact absurd rfl ho.nonempty
  | cons c t =>
    obtain ⟨hm, he⟩ := split_some h
    have he' := List.append_eq_nil_iff.mp he.symm
    have hw : (goChar {} (c :: t)).word = none := by
      cases hx : (goChar {} (c :: t)).word with
      | none => rfl
      | some x => rw [hx] at he'; simp at he'
    cases hc : white c with
    | true =>
      refine ⟨c, t, rfl, hc, ?_⟩
      have : goChar {} (c :: t) = goChar {} t := by
        show go _ _ _ _ = _
        rw [go_cons, stepc_white hc]
      rw [this] at he' hw hm
      exact ⟨he'.1, hw, hm⟩
    | false =>
      exfalso
      have hg := go_glue some '\\' [] t (start_glue some '\\' [] c (by intro x hx; simp only [Option.some.injEq] at hx; subst hx; exact hc))
        (step_ok some '\\' _ c (.inl rfl))
      rw [← go_cons, ← go_cons] at hg
      change Glue [] (goChar {} (c :: t)) _ at hg
      generalize go some '\\' { word := some [] } (c :: t) = ρ at hg
      generalize goChar {} (c :: t) = s at *
      cases hg with
      | first h1 =>
        simp only at hw hm
        subst hw hm
        simp at h1
      | later => simp at he'

/-- The simulation. -/
structure Sim (s : Cmdline) (σ : St Sym) : Prop where
  mode : σ.mode = .plain
  words : σ.words = (s.args.filter (· ≠ [])).map symsOf
  word : σ.word = if s.arg = [] then none else some (symsOf s.arg)

theorem symsOf_append (a b : List Piece) : symsOf (a ++ b) = symsOf a ++ symsOf b := by simp [symsOf]

theorem symsOf_text (t : List Char) : symsOf [.text t] = t.map .char := by simp [symsOf, Piece.syms]

/-- All arguments of a text, the first one continuing `a`. -/
def placed (a : List Piece) (w : List Char) (ws : List (List Char)) : List (List Piece) :=
  (a ++ [.text w]) :: ws.map fun x => [.text x]

theorem step_text {s : Cmdline} {t w : List Char} {ws : List (List Char)} (h : split t = some (w :: ws)) :
    ∃ s1 : Cmdline, s1 = (if startsWhite t && !s.arg.isEmpty then s.append else s) ∧
      s.step (.text t) = some (if endsWhite t then ⟨s1.args ++ placed s1.arg w ws, []⟩
        else ⟨s1.args ++ (placed s1.arg w ws).dropLast, (placed s1.arg w ws).getLastD []⟩) := by
  refine ⟨_, rfl, ?_⟩
  generalize hs1 : (if startsWhite t && !s.arg.isEmpty then s.append else s) = s1
  simp only [Cmdline.step, h, hs1]
  rcases List.eq_nil_or_concat ws with rfl | ⟨mid, last, rfl⟩
  · cases endsWhite t <;> simp [placed, Cmdline.append]
  · have hp : placed s1.arg w (mid ++ [last]) = ((s1.arg ++ [.text w]) :: mid.map fun x => [.text x]) ++ [[.text last]] := by
      simp [placed]
    have hp1 : (placed s1.arg w (mid ++ [last])).dropLast = (s1.arg ++ [.text w]) :: mid.map fun x => [.text x] := by
      rw [hp, List.dropLast_concat]
    have hp2 : (placed s1.arg w (mid ++ [last])).getLastD [] = [.text last] := by
      rw [hp, List.getLastD_concat]
    rw [List.concat_eq_append, hp1, hp2]
    cases endsWhite t <;> simp [hp, Cmdline.append, List.getLast?_append]

theorem map_placed (a : List Piece) (w : List Char) (ws : List (List Char)) :
    (placed a w ws).map symsOf = (symsOf a ++ w.map .char) :: ws.map (·.map .char) := by
  simp only [placed, List.map_cons, symsOf_append, symsOf_text, List.map_map]
  congr 1
  apply List.map_congr_left
  intro x _
  exact symsOf_text x

theorem placed_ne (a : List Piece) (w : List Char) (ws : List (List Char)) : ∀ x ∈ placed a w ws, x ≠ [] := by
  intro x hx
  simp only [placed, List.mem_cons, List.mem_map] at hx
  rcases hx with rfl | ⟨y, _, rfl⟩ <;> simp

/-- From the words read to the simulation. -/
theorem sim_of {A : List (List Piece)} {a : List Piece} {w : List Char} {ws : List (List Char)} {σ' : St Sym} {e : Bool} (hm : σ'.mode = .plain)
    (hw : σ'.words ++ σ'.word.toList = (A.filter (· ≠ [])).map symsOf ++ (placed a w ws).map symsOf)
    (hs : σ'.word.isSome = !e) :
    Sim (if e then ⟨A ++ placed a w ws, []⟩
        else ⟨A ++ (placed a w ws).dropLast, (placed a w ws).getLastD []⟩) σ' := by
  have hne := placed_ne a w ws
  have hnil : placed a w ws ≠ [] := by simp [placed]
  generalize placed a w ws = P at *
  have hf : ∀ l : List (List Piece), (∀ x ∈ l, x ≠ []) → l.filter (· ≠ []) = l := by
    intro l hl
    rw [List.filter_eq_self]
    intro x hx
    simpa using hl x hx
  cases e with
  | true =>
    have hn : σ'.word = none := by simpa using hs
    rw [hn] at hw
    simp only [if_true]
    refine ⟨hm, ?_, by simp [hn]⟩
    simp only [List.filter_append, hf P hne, List.map_append]
    simpa using hw
  | false =>
    obtain ⟨u, hu⟩ := Option.isSome_iff_exists.mp (by simpa using hs)
    rw [hu] at hw
    have hP := List.dropLast_concat_getLast hnil
    have hw' : σ'.words ++ [u] = ((A.filter (· ≠ [])).map symsOf ++ P.dropLast.map symsOf) ++ [symsOf (P.getLast hnil)] := by
      rw [← hP] at hw
      simpa using hw
    have h2 := List.append_inj' hw' rfl
    obtain ⟨h2, h3⟩ := h2
    simp only [List.cons.injEq, and_true] at h3
    have hlast : P.getLast hnil ≠ [] := hne _ (List.getLast_mem hnil)
    simp only [Bool.false_eq_true, if_false]
    refine ⟨hm, ?_, ?_⟩
    · simp only [List.filter_append, hf P.dropLast (fun x hx => hne x ((List.dropLast_subset P) hx)), List.map_append]
      exact h2
    · have : P.getLast?.getD [] = P.getLast hnil := by rw [List.getLast?_eq_some_getLast hnil]; rfl
      simp [this, hlast, hu, h3]

theorem sim_step {s s' : Cmdline} {σ : St Sym} {p : Piece} (h : Sim s σ) (hp : ∀ t, p = .text t → OrdinaryText t) (hs : s.step p = some s') :
    Sim s' (goSym σ p.syms) := by
  obtain ⟨hmode, hwords, hword⟩ := h
  cases p with
  | sub n =>
    simp only [Cmdline.step, Option.some.injEq] at hs
    subst hs
    have e : goSym σ (Piece.sub n).syms = { σ with word := some (σ.word.getD [] ++ [.sub n]) } := by
      obtain ⟨m, ws, w⟩ := σ
      simp only at hmode
      subst hmode
      rfl
    rw [e]
    refine ⟨hmode, hwords, ?_⟩
    simp only [List.append_eq_nil_iff, List.cons_ne_nil, and_false, if_false, symsOf_append]
    rw [hword]
    by_cases ha : s.arg = [] <;> simp [ha, symsOf, Piece.syms]
  | text t =>
    have ho := hp t rfl
    cases hsp : split t with
    | none => simp [Cmdline.step, hsp] at hs
    | some toks =>
      cases toks with
      | nil =>
        simp only [Cmdline.step, hsp, Option.some.injEq] at hs
        subst hs
        obtain ⟨c, t', rfl, hc, h1, h2, h3⟩ := no_tokens ho hsp
        have e : goSym σ (Piece.text (c :: t')).syms = { mode := .plain, words := σ.words ++ σ.word.toList, word := none } := by
          show goSym σ ((c :: t').map Sym.char) = _
          rw [List.map_cons]
          show go _ _ _ _ = _
          rw [go_cons, step_white σ hmode hc]
          have := goSym_frame { mode := .plain, words := σ.words ++ σ.word.toList, word := none } rfl rfl t'
          rw [show go Sym.cls (.char '\\') _ (t'.map Sym.char) = _ from this]
          simp [St.map, h1, h2, h3]
        rw [e]
        refine ⟨rfl, ?_, by simp [Cmdline.append]⟩
        simp only [Cmdline.append, List.filter_append, List.map_append, hwords, hword]
        by_cases ha : s.arg = [] <;> simp [ha]
      | cons w ws =>
        obtain ⟨s1, hs1, hst⟩ := step_text (s := s) hsp
        rw [hst] at hs
        simp only [Option.some.injEq] at hs
        subst hs
        obtain ⟨hm, htok⟩ := split_some hsp
        have hend := ends_word ho hm
        -- it suffices to describe the words read
        have key : (goSym σ (Piece.text t).syms).mode = .plain ∧
            (goSym σ (Piece.text t).syms).words ++ (goSym σ (Piece.text t).syms).word.toList =
              (s1.args.filter (· ≠ [])).map symsOf ++ (placed s1.arg w ws).map symsOf ∧
            (goSym σ (Piece.text t).syms).word.isSome = (goChar {} t).word.isSome := by
          rw [show (Piece.text t).syms = t.map Sym.char from rfl, map_placed]
          -- reading with no unfinished word
          have frame : ∀ (σ1 : St Sym) (t' : List Char), σ1.mode = .plain → σ1.word = none → (goChar {} t').mode = .plain →
              w :: ws = (goChar {} t').words ++ (goChar {} t').word.toList →
              (goSym σ1 (t'.map Sym.char)).mode = .plain ∧
              (goSym σ1 (t'.map Sym.char)).words ++ (goSym σ1 (t'.map Sym.char)).word.toList =
                σ1.words ++ ((symsOf [] ++ w.map .char) :: ws.map (·.map .char)) ∧
              (goSym σ1 (t'.map Sym.char)).word.isSome = (goChar {} t').word.isSome := by
            intro σ1 t' h1 h2 h3 h4
            rw [goSym_frame σ1 h1 h2 t']
            refine ⟨h3, ?_, by simp [St.map]⟩
            have h5 := congrArg (List.map (List.map Sym.char)) h4
            simp only [List.map_cons, List.map_append] at h5
            simp only [symsOf, List.flatMap_nil, List.nil_append, h5, St.map]
            cases (goChar {} t').word <;> simp
          obtain ⟨c, t', rfl⟩ : ∃ c t', t = c :: t' := by
            cases t with
            | nil => exact absurd rfl ho.nonempty
            | cons c t' => exact ⟨c, t', rfl⟩
          cases hc : white c with
          | true =>
            have hg : goChar {} (c :: t') = goChar {} t' := by
              show go _ _ _ _ = _
              rw [go_cons, stepc_white hc]
            have hg2 : goSym σ ((c :: t').map Sym.char) =
                goSym { mode := .plain, words := σ.words ++ σ.word.toList, word := none } (t'.map Sym.char) := by
              rw [List.map_cons]
              show go _ _ _ _ = _
              rw [go_cons, step_white σ hmode hc]
            rw [hg] at hm htok
            rw [hg, hg2]
            have := frame { mode := .plain, words := σ.words ++ σ.word.toList, word := none } t' rfl rfl hm htok
            rw [starts_white ho, hc] at hs1
            by_cases ha : s.arg = []
            · have : s1 = s := by simp [hs1, ha]
              rw [this, ha]
              rw [ha] at hword
              simpa [hword, hwords] using frame { mode := .plain, words := σ.words ++ σ.word.toList, word := none } t' rfl rfl hm htok
            · have : s1 = s.append := by simp [hs1, ha]
              rw [this]
              rw [if_neg ha] at hword
              simpa [hword, hwords, Cmdline.append, ha] using frame { mode := .plain, words := σ.words ++ σ.word.toList, word := none } t' rfl rfl hm htok
          | false =>
            have hs1' : s1 = s := by rw [hs1, starts_white ho, hc]; simp
            rw [hs1']
            by_cases ha : s.arg = []
            · have hwn : σ.word = none := by simp [hword, ha]
              rw [ha]
              have := frame σ (c :: t') hmode hwn hm htok
              rw [hwords] at this
              exact this
            · -- the first word continues the unfinished one
              have hσ : σ = { ({ word := some (symsOf s.arg) } : St Sym) with words := σ.words ++ [] } := by
                obtain ⟨m, W, u⟩ := σ
                simp only at hmode hword
                subst hmode hword
                simp [ha]
              have hg := go_glue Sym.cls (.char '\\') (symsOf s.arg) (t'.map Sym.char)
                (start_glue Sym.cls (.char '\\') (symsOf s.arg) (.char c) (by
                  intro x hx; simp only [Sym.cls, Option.some.injEq] at hx; subst hx; exact hc))
                (step_ok _ _ _ _ (.inl rfl))
              rw [← go_cons, ← go_cons] at hg
              have hplain : go Sym.cls (.char '\\') {} (Sym.char c :: t'.map Sym.char) = (goChar {} (c :: t')).map Sym.char := goSym_text (c :: t') {}
              have hrun : goSym σ ((c :: t').map Sym.char) =
                  { go Sym.cls (.char '\\') { word := some (symsOf s.arg) } (Sym.char c :: t'.map Sym.char) with
                    words := σ.words ++ (go Sym.cls (.char '\\') { word := some (symsOf s.arg) } (Sym.char c :: t'.map Sym.char)).words } := by
                conv => lhs; rw [hσ]
                exact go_words Sym.cls (.char '\\') σ.words (Sym.char c :: t'.map Sym.char) { word := some (symsOf s.arg) }
              rw [hrun, hwords]
              rw [hplain] at hg
              generalize go Sym.cls (.char '\\') { word := some (symsOf s.arg) } (Sym.char c :: t'.map Sym.char) = ρ at *
              have hm' : ((goChar {} (c :: t')).map Sym.char).mode = .plain := hm
              have h5 := congrArg (List.map (List.map Sym.char)) htok
              have hws : ((goChar {} (c :: t')).map Sym.char).words = (goChar {} (c :: t')).words.map (List.map Sym.char) := rfl
              have hwd : ((goChar {} (c :: t')).map Sym.char).word = (goChar {} (c :: t')).word.map (List.map Sym.char) := rfl
              have hsome : (goChar {} (c :: t')).word.isSome = ((goChar {} (c :: t')).map Sym.char).word.isSome := by rw [hwd]; simp
              have h6 : (w :: ws).map (List.map Sym.char) =
                  ((goChar {} (c :: t')).map Sym.char).words ++ ((goChar {} (c :: t')).map Sym.char).word.toList := by
                rw [h5, hws, hwd, List.map_append]
                cases (goChar {} (c :: t')).word <;> simp
              rw [hsome]
              generalize (goChar {} (c :: t')).map Sym.char = κ at *
              cases hg with
              | first h1 =>
                rename_i m u
                simp only at hm'
                subst hm'
                have h1 : u.isSome = true := by simpa using h1
                obtain ⟨u, rfl⟩ := Option.isSome_iff_exists.mp h1
                simp at h6
                obtain ⟨h7, h8⟩ := h6
                subst h8
                simp [h7]
              | later =>
                rename_i m y zs u
                simp only at hm'
                subst hm'
                simp at h6
                obtain ⟨h7, h8⟩ := h6
                simp [h7, h8]
        exact sim_of key.1 key.2.1 (key.2.2.trans hend)

theorem sim_run : ∀ (ps : List Piece) {s s' : Cmdline} {σ : St Sym}, Sim s σ → (∀ t, Piece.text t ∈ ps → OrdinaryText t) → s.run ps = some s' →
    Sim s' (goSym σ (symsOf ps))
  | [], s, s', σ, h, _, hr => by
    simp only [Cmdline.run, Option.some.injEq] at hr
    subst hr
    exact h
  | p :: ps, s, s', σ, h, ho, hr => by
    simp only [Cmdline.run] at hr
    cases hs : s.step p with
    | none => simp [hs] at hr
    | some s1 =>
      simp only [hs, Option.bind_some] at hr
      have h1 := sim_step h (fun t ht => ho t (by simp [ht])) hs
      have h2 := sim_run ps h1 (fun t ht => ho t (by simp [ht])) hr
      have e : symsOf (p :: ps) = p.syms ++ symsOf ps := by simp [symsOf]
      rw [e]
      show Sim s' (go _ _ _ _)
      rw [go_append]
      exact h2

end Verif
