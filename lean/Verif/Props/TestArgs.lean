import Verif.Model.TestArgs
import Verif.Spec.Typed

/-! # C54 Launch arguments on the command line parse losslessly -/

namespace Verif

/-- The text contains ':='. -/
def HasArrow (l : List Char) : Prop := ∃ a b, l = a ++ [':', '='] ++ b

/-- A well-formed argument: a non-empty name without ':=', then ':=', then a non-empty value (which may contain ':='). -/
def IsArg (a : String) (nv : String × String) : Prop :=
  a = nv.1 ++ ":=" ++ nv.2 ∧ nv.1 ≠ "" ∧ nv.2 ≠ "" ∧ ¬ HasArrow nv.1.toList

/-- The names in the order of their first appearance. -/
def firsts : List String → List String
  | [] => []
  | x :: xs => x :: (firsts xs).filter (· ≠ x)

theorem hasArrow_cons {c : Char} {l : List Char} : HasArrow (c :: l) ↔ (c = ':' ∧ ∃ r, l = '=' :: r) ∨ HasArrow l := by
  constructor
  · rintro ⟨a, b, h⟩
    cases a with
    | nil =>
      simp only [List.nil_append, List.cons_append, List.cons.injEq] at h
      exact .inl ⟨h.1, b, h.2⟩
    | cons x a =>
      simp only [List.cons_append, List.cons.injEq] at h
      exact .inr ⟨a, b, by simpa using h.2⟩
  · rintro (⟨rfl, r, rfl⟩ | ⟨a, b, rfl⟩)
    · exact ⟨[], r, rfl⟩
    · exact ⟨c :: a, b, rfl⟩

theorem not_hasArrow_nil : ¬ HasArrow [] := by
  rintro ⟨a, b, h⟩
  cases a <;> simp at h

theorem splitArrow_some : ∀ {l a b : List Char}, splitArrow l = some (a, b) → l = a ++ [':', '='] ++ b ∧ ¬ HasArrow a
  | [], a, b, h => by simp [splitArrow] at h
  | [_], a, b, h => by simp [splitArrow] at h
  | c :: d :: r, a, b, h => by
    simp only [splitArrow] at h
    by_cases hc : c = ':' ∧ d = '='
    · rw [if_pos hc] at h
      simp only [Option.some.injEq, Prod.mk.injEq] at h
      obtain ⟨rfl, rfl⟩ := h
      obtain ⟨rfl, rfl⟩ := hc
      exact ⟨rfl, not_hasArrow_nil⟩
    · rw [if_neg hc] at h
      cases hs : splitArrow (d :: r) with
      | none => rw [hs] at h; simp at h
      | some ab =>
        obtain ⟨a', b'⟩ := ab
        rw [hs] at h
        simp only [Option.some.injEq, Prod.mk.injEq] at h
        obtain ⟨rfl, rfl⟩ := h
        obtain ⟨h1, h2⟩ := splitArrow_some hs
        refine ⟨by rw [h1]; rfl, ?_⟩
        rw [hasArrow_cons]
        rintro (⟨rfl, r', hr'⟩ | h)
        · subst hr'
          simp only [List.cons_append, List.cons.injEq] at h1
          exact hc ⟨rfl, h1.1⟩
        · exact h2 h

theorem splitArrow_append : ∀ {a b : List Char}, ¬ HasArrow a → splitArrow (a ++ [':', '='] ++ b) = some (a, b)
  | [], b, _ => by simp [splitArrow]
  | [c], b, _ => by
    simp only [List.cons_append, List.nil_append, splitArrow]
    have : ¬ (c = ':' ∧ ':' = '=') := by rintro ⟨_, h⟩; exact absurd h (by decide)
    rw [if_neg this]
    simp
  | c :: d :: a, b, h => by
    rw [hasArrow_cons] at h
    have h1 : ¬ (c = ':' ∧ d = '=') := fun hc => h (.inl ⟨hc.1, a, by rw [hc.2]⟩)
    have h2 : ¬ HasArrow (d :: a) := fun hh => h (.inr hh)
    have ih := splitArrow_append (a := d :: a) (b := b) h2
    simp only [List.cons_append, splitArrow]
    rw [if_neg h1]
    simp only [List.cons_append] at ih
    simp only [ih]

theorem splitArrow_none {l : List Char} : splitArrow l = none ↔ ¬ HasArrow l := by
  constructor
  · intro h
    suffices ∀ l : List Char, HasArrow l → ∃ ab, splitArrow l = some ab by
      intro hh
      obtain ⟨ab, hab⟩ := this l hh
      rw [h] at hab; cases hab
    intro l
    induction l with
    | nil => intro h; exact absurd h not_hasArrow_nil
    | cons c l ih =>
      intro hh
      cases l with
      | nil => rw [hasArrow_cons] at hh; rcases hh with ⟨_, r, hr⟩ | hh
               · cases hr
               · exact absurd hh not_hasArrow_nil
      | cons d r =>
        simp only [splitArrow]
        by_cases hc : c = ':' ∧ d = '='
        · rw [if_pos hc]; exact ⟨_, rfl⟩
        · rw [if_neg hc]
          rw [hasArrow_cons] at hh
          rcases hh with ⟨h1, r', hr'⟩ | hh
          · simp only [List.cons.injEq] at hr'
            exact absurd ⟨h1, hr'.1⟩ hc
          · obtain ⟨ab, hab⟩ := ih hh
            rw [hab]
            exact ⟨_, rfl⟩
  · intro h
    cases hs : splitArrow l with
    | none => rfl
    | some ab => exact absurd ⟨ab.1, ab.2, (splitArrow_some hs).1⟩ h

theorem countArrow_split : ∀ (l : List Char), countArrow l = match splitArrow l with | none => 0 | some (_, b) => 1 + countArrow b
  | [] => rfl
  | [_] => rfl
  | c :: d :: r => by
    simp only [countArrow, splitArrow]
    by_cases hc : c = ':' ∧ d = '='
    · simp [hc]
    · rw [if_neg hc, if_neg hc, countArrow_split (d :: r)]
      cases splitArrow (d :: r) <;> rfl

theorem countArrow_zero {l : List Char} : countArrow l = 0 ↔ ¬ HasArrow l := by
  rw [← splitArrow_none, countArrow_split]
  cases splitArrow l <;> simp

/-- Exactly the well-formed arguments are accepted, with the name and value they say. -/
theorem parseArg_ok {a : String} {nv : String × String} : parseTestArg a = .ok nv ↔ IsArg a nv := by
  obtain ⟨n, v⟩ := nv
  have hlist : a = n ++ ":=" ++ v ↔ a.toList = n.toList ++ [':', '='] ++ v.toList := by
    constructor
    · rintro rfl; simp
    · intro h
      apply String.ext
      simpa using h
  unfold parseTestArg IsArg
  simp only [hlist]
  cases hs : splitArrow a.toList with
  | none =>
    have h0 : countArrow a.toList = 0 := countArrow_zero.2 (splitArrow_none.1 hs)
    simp only [h0, decide_true, Bool.true_or, if_true]
    constructor
    · intro h; cases h
    · rintro ⟨h, _⟩
      exact absurd ⟨_, _, h⟩ (splitArrow_none.1 hs)
  | some ab =>
    obtain ⟨x, y⟩ := ab
    obtain ⟨hxy, hx⟩ := splitArrow_some hs
    have hcount : countArrow a.toList = 1 + countArrow y := by rw [countArrow_split, hs]
    have hne0 : ¬ countArrow a.toList = 0 := by omega
    have hpre : ([':', '='].isPrefixOf a.toList = true) ↔ x = [] := by
      rw [List.isPrefixOf_iff_prefix]
      constructor
      · rintro ⟨t, ht⟩
        have := splitArrow_append (a := []) (b := t) not_hasArrow_nil
        rw [List.nil_append, ht, hs] at this
        simp only [Option.some.injEq, Prod.mk.injEq] at this
        exact this.1
      · rintro rfl
        rw [hxy]
        exact ⟨y, by simp⟩
    have hsuf : (countArrow a.toList = 1 ∧ [':', '='].isSuffixOf a.toList = true) ↔ y = [] := by
      rw [List.isSuffixOf_iff_suffix]
      constructor
      · rintro ⟨h1, t, ht⟩
        have hy0 : ¬ HasArrow y := countArrow_zero.1 (by omega)
        cases hy : y.reverse with
        | nil => simpa using hy
        | cons e r =>
          exfalso
          have ey : y = r.reverse ++ [e] := by
            have := congrArg List.reverse hy
            simpa using this
          rw [hxy, ey] at ht
          have hrev := congrArg List.reverse ht
          simp only [List.reverse_append, List.reverse_cons, List.reverse_nil, List.nil_append, List.cons_append, List.reverse_reverse,
            List.cons.injEq] at hrev
          obtain ⟨he, hrev⟩ := hrev
          cases r with
          | nil =>
            simp only [List.nil_append, List.cons.injEq] at hrev
            exact absurd hrev.1 (by decide)
          | cons f r =>
            simp only [List.cons_append, List.cons.injEq] at hrev
            apply hy0
            rw [ey, ← he, ← hrev.1]
            exact ⟨r.reverse, [], by simp⟩
      · rintro rfl
        refine ⟨by rw [hcount]; rfl, ?_⟩
        rw [hxy]
        exact ⟨x, by simp⟩
    by_cases hxe : x = []
    · simp only [hpre.2 hxe, Bool.or_true, Bool.true_or, if_true]
      constructor
      · intro h; cases h
      · rintro ⟨h1, h2, h3, h4⟩
        have := splitArrow_append (b := v.toList) h4
        rw [← h1, hs] at this
        simp only [Option.some.injEq, Prod.mk.injEq] at this
        exfalso
        apply h2
        apply String.ext
        rw [← this.1, hxe]; rfl
    · by_cases hye : y = []
      · have := hsuf.2 hye
        simp only [this.1, this.2, decide_true, Bool.and_self, Bool.or_true, if_true]
        constructor
        · intro h; cases h
        · rintro ⟨h1, h2, h3, h4⟩
          have := splitArrow_append (b := v.toList) h4
          rw [← h1, hs] at this
          simp only [Option.some.injEq, Prod.mk.injEq] at this
          exfalso
          apply h3
          apply String.ext
          rw [← this.2, hye]; rfl
      · have hcond : (decide (countArrow a.toList = 0) || [':', '='].isPrefixOf a.toList ||
            (decide (countArrow a.toList = 1) && [':', '='].isSuffixOf a.toList)) = false := by
          have e1 : [':', '='].isPrefixOf a.toList = false := by
            cases h : [':', '='].isPrefixOf a.toList with
            | false => rfl
            | true => exact absurd (hpre.1 h) hxe
          have e2 : (decide (countArrow a.toList = 1) && [':', '='].isSuffixOf a.toList) = false := by
            cases h : (decide (countArrow a.toList = 1) && [':', '='].isSuffixOf a.toList) with
            | false => rfl
            | true =>
              simp only [Bool.and_eq_true, decide_eq_true_eq] at h
              exact absurd (hsuf.1 h) hye
          simp [e1, e2, hne0]
        simp only [hcond, Bool.false_eq_true, if_false, Except.ok.injEq, Prod.mk.injEq]
        constructor
        · rintro ⟨rfl, rfl⟩
          refine ⟨by simpa using hxy, ?_, ?_, by simpa using hx⟩
          · intro h; apply hxe; have := congrArg String.toList h; simpa using this
          · intro h; apply hye; have := congrArg String.toList h; simpa using this
        · rintro ⟨h1, h2, h3, h4⟩
          have := splitArrow_append (b := v.toList) h4
          rw [← h1, hs] at this
          simp only [Option.some.injEq, Prod.mk.injEq] at this
          rw [this.1, this.2]
          simp

theorem parseArg_error {a : String} {e : Err} (h : parseTestArg a = .error e) : e = .runtimeError := by
  unfold parseTestArg at h
  simp only at h
  split at h
  · simp only [Except.error.injEq] at h; exact h.symm
  · rename_i hc
    split at h
    · cases h
    · rename_i hs
      exfalso
      apply hc
      have : countArrow a.toList = 0 := countArrow_zero.2 (splitArrow_none.1 hs)
      simp [this]

/-- The assignments in order. -/
def assignAll (d : Dict String) : List (String × String) → Dict String
  | [] => d
  | (n, v) :: ps => assignAll (d.set n v) ps

theorem parseArgsInto_ok : ∀ (as : List String) (d r : Dict String), parseArgsInto d as = .ok r ↔ ∃ ps, Each2 IsArg as ps ∧ r = assignAll d ps
  | [], d, r => by
    simp only [parseArgsInto, Except.ok.injEq]
    constructor
    · rintro rfl; exact ⟨[], .nil, rfl⟩
    · rintro ⟨ps, h, rfl⟩; cases h; rfl
  | a :: as, d, r => by
    simp only [parseArgsInto]
    cases hp : parseTestArg a with
    | error e =>
      simp only [reduceCtorEq, false_iff]
      rintro ⟨ps, h, rfl⟩
      cases h with
      | cons h _ => rw [parseArg_ok.2 h] at hp; cases hp
    | ok nv =>
      obtain ⟨n, v⟩ := nv
      simp only
      rw [parseArgsInto_ok as]
      constructor
      · rintro ⟨ps, h, rfl⟩; exact ⟨(n, v) :: ps, .cons (parseArg_ok.1 hp) h, rfl⟩
      · rintro ⟨ps, h, rfl⟩
        cases h with
        | cons h h' =>
          have := parseArg_ok.2 h
          rw [hp] at this
          simp only [Except.ok.injEq] at this
          subst this
          exact ⟨_, h', rfl⟩

theorem assignAll_get? : ∀ (ps : List (String × String)) (d : Dict String) (k : String),
    (assignAll d ps).get? k = match ps.reverse.find? (fun p => p.1 = k) with | some p => some p.2 | none => d.get? k
  | [], d, k => rfl
  | (n, v) :: ps, d, k => by
    simp only [assignAll, assignAll_get? ps, List.reverse_cons, List.find?_append]
    cases ps.reverse.find? (fun p => p.1 = k) with
    | some p => rfl
    | none =>
      simp only [Option.none_or, List.find?_cons, Dict.get?_set]
      by_cases hk : n = k <;> simp [hk]

theorem assignAll_keys : ∀ (ps : List (String × String)) (d : Dict String),
    (assignAll d ps).keys = d.keys ++ (firsts (ps.map (·.1))).filter (fun n => n ∉ d.keys)
  | [], d => by simp [assignAll, firsts]
  | (n, v) :: ps, d => by
    simp only [assignAll, assignAll_keys ps, Dict.keys_set, List.map_cons, firsts, List.filter_cons]
    by_cases hn : n ∈ d.keys
    · simp only [hn, if_true, not_true_eq_false, decide_false, Bool.false_eq_true, if_false, List.filter_filter]
      congr 1
      apply List.filter_congr
      intro x _
      by_cases hx : x = n
      · subst hx; simp [hn]
      · simp [hx]
    · simp only [hn, if_false, not_false_eq_true, decide_true, if_true, List.append_assoc, List.filter_filter, List.singleton_append]
      congr 2
      apply List.filter_congr
      intro x _
      simp [Bool.decide_and, Bool.and_comm]

/-- C54: the arguments are accepted exactly if each of them is a name, ':=' and a value; the result has, for each name, the value of the last
argument with this name, and the names in the order of their first appearance. -/
theorem C54_exact (as : List String) (d : Dict String) :
    parseLaunchArguments as = .ok d ↔ ∃ ps, Each2 IsArg as ps ∧ d.keys = firsts (ps.map (·.1)) ∧
      ∀ k, d.get? k = (ps.reverse.find? (fun p => p.1 = k)).map (·.2) := by
  unfold parseLaunchArguments
  rw [parseArgsInto_ok]
  constructor
  · rintro ⟨ps, h, rfl⟩
    refine ⟨ps, h, ?_, ?_⟩
    · rw [assignAll_keys]
      simp [Dict.keys]
    · intro k
      rw [assignAll_get?]
      cases ps.reverse.find? (fun p => p.1 = k) <;> rfl
  · rintro ⟨ps, h, h1, h2⟩
    refine ⟨ps, h, ?_⟩
    have e1 : (assignAll [] ps).keys = d.keys := by rw [h1, assignAll_keys]; simp [Dict.keys]
    have e2 : ∀ k, (assignAll [] ps).get? k = d.get? k := by
      intro k
      rw [h2, assignAll_get?]
      cases ps.reverse.find? (fun p => p.1 = k) <;> rfl
    have hnd : (assignAll [] ps).keys.Nodup := by
      have : ∀ (ps : List (String × String)) (d : Dict String), d.Wf → (assignAll d ps).Wf := by
        intro ps
        induction ps with
        | nil => intro d h; exact h
        | cons p ps ih => intro d h; exact ih _ (h.set p.1 p.2)
      exact this ps [] (by simp [Dict.Wf, Dict.keys])
    have ext : ∀ (x y : Dict String), x.keys = y.keys → x.keys.Nodup → (∀ k, x.get? k = y.get? k) → x = y := by
      intro x
      induction x with
      | nil => intro y h _ _; cases y with
        | nil => rfl
        | cons q y => simp [Dict.keys] at h
      | cons p x ih =>
        intro y hk hn hg
        cases y with
        | nil => simp [Dict.keys] at hk
        | cons q y =>
          obtain ⟨pk, pv⟩ := p
          obtain ⟨qk, qv⟩ := q
          simp only [Dict.keys, List.map_cons, List.cons.injEq] at hk
          simp only [Dict.keys, List.map_cons, List.nodup_cons] at hn
          obtain ⟨hk1, hk2⟩ := hk
          subst hk1
          have h1 := hg pk
          simp only [Dict.get?, if_true, Option.some.injEq] at h1
          subst h1
          congr 1
          apply ih y hk2 hn.2
          intro k
          by_cases hpk : pk = k
          · subst hpk
            have a1 : Dict.get? x pk = none := Dict.get?_none_of_not_mem hn.1
            have a2 : Dict.get? y pk = none := Dict.get?_none_of_not_mem (by
              show pk ∉ List.map (fun x => x.1) y
              rw [← hk2]; exact hn.1)
            rw [a1, a2]
          · have := hg k
            simpa [Dict.get?, hpk] using this
    exact (ext _ _ e1 hnd e2).symm

/-- C54: otherwise a RuntimeError is raised. -/
theorem C54_rejects (as : List String) :
    (∃ e, parseLaunchArguments as = .error e) ↔ parseLaunchArguments as = .error .runtimeError := by
  suffices ∀ (as : List String) (d : Dict String) e, parseArgsInto d as = .error e → e = .runtimeError by
    constructor
    · rintro ⟨e, h⟩
      rw [h, this as [] e h]
    · intro h; exact ⟨_, h⟩
  intro as
  induction as with
  | nil => intro d e h; cases h
  | cons a as ih =>
    intro d e h
    simp only [parseArgsInto] at h
    cases hp : parseTestArg a with
    | error e' =>
      rw [hp] at h
      simp only [Except.error.injEq] at h
      subst h
      exact parseArg_error hp
    | ok nv => rw [hp] at h; exact ih _ _ h

/-- C54: what was written is what is read: names and values of any characters, as long as the name is not empty and does not contain ':=' and the value is
not empty. -/
theorem C54_lossless (n v : String) (hn : n ≠ "") (hv : v ≠ "") (ha : ¬ HasArrow n.toList) :
    parseLaunchArguments [n ++ ":=" ++ v] = .ok [(n, v)] := by
  have h : parseTestArg (n ++ ":=" ++ v) = .ok (n, v) := parseArg_ok.2 ⟨rfl, hn, hv, ha⟩
  simp only [parseLaunchArguments, parseArgsInto, h]
  rfl

example : parseLaunchArguments ["a:=1", "b:::=x:=:=", "a:=2"] = .ok [("a", "2"), ("b::", "x:=:=")] := by rfl
example : Each2 IsArg ["a:=1"] [("a", "1")] := .cons (parseArg_ok.1 rfl) .nil
example : parseLaunchArguments ["a:=1", ":=b"] = .error .runtimeError := by rfl
example : parseLaunchArguments ["b:="] = .error .runtimeError := by rfl

end Verif
