import Verif.Model.Grammar

/-! # The grammar of substitutions: the parser finds exactly the derivations -/

namespace Verif

/-! ## Terminals -/

theorem lit_eq {c : Char} {s s' : GState} : lit c s = some s' ↔ s.2 = c :: s'.2 ∧ s'.1 = some c := by
  obtain ⟨p, cs⟩ := s
  obtain ⟨p', cs'⟩ := s'
  cases cs with
  | nil => simp [lit]
  | cons d ds =>
    simp only [lit]
    split
    · rename_i h; subst h
      simp only [Option.some.injEq, Prod.mk.injEq, List.cons.injEq, true_and]
      constructor
      · rintro ⟨rfl, rfl⟩; exact ⟨rfl, rfl⟩
      · rintro ⟨rfl, rfl⟩; exact ⟨rfl, rfl⟩
    · rename_i h
      simp [h]

theorem lit_len {c : Char} {s s' : GState} (h : lit c s = some s') : s.2.length = s'.2.length + 1 := by
  rw [(lit_eq.1 h).1]; rfl

theorem lit_none {c : Char} {s : GState} : lit c s = none ↔ s.2.head? ≠ some c := by
  obtain ⟨p, cs⟩ := s
  cases cs with
  | nil => simp [lit]
  | cons d ds => simp [lit]

theorem accepts_started {m : QMode} {r : Bool} {p : Option Char} {c : Char} {n : Option Char} (h : accepts m r false p c n = true) :
    accepts m r true p c n = true := by
  unfold accepts at h ⊢
  simp only [Bool.false_and, Bool.or_false] at h
  split
  · rename_i h1; simp only [h1, if_true] at h; exact h
  · rename_i h1; simp only [h1, if_false, Bool.false_eq_true] at h
    split
    · rename_i h2; simp only [h2, if_true] at h; exact h
    · rename_i h2; simp only [h2, if_false, Bool.false_eq_true] at h
      split
      · rename_i h3; simp only [h3, if_true] at h; exact h
      · rename_i h3; simp only [h3, if_false, Bool.false_eq_true] at h
        split
        · rename_i h4; simp only [h4, if_true] at h; rw [h]; rfl
        · rename_i h4; simp only [h4, if_false, Bool.false_eq_true] at h
          split
          · rename_i h5; simp only [h5, if_true] at h; rw [h]; rfl
          · rfl

theorem munch_append (m : QMode) (r st : Bool) (p : Option Char) (cs : List Char) :
    cs = (munch m r st p cs).1 ++ (munch m r st p cs).2.2 := by
  induction cs generalizing st p with
  | nil => rfl
  | cons c cs ih =>
    unfold munch
    split
    · simp only [List.cons_append]; rw [← ih]
    · rfl

/-- After a terminal the next character is not part of it. -/
theorem munch_stop (m : QMode) (r st : Bool) (p : Option Char) (cs : List Char) :
    (munch m r st p cs).2.2 = [] ∨ ∃ c ds, (munch m r st p cs).2.2 = c :: ds ∧
      accepts m r (st || !(munch m r st p cs).1.isEmpty) (munch m r st p cs).2.1 c ds.head? = false := by
  induction cs generalizing st p with
  | nil => left; rfl
  | cons c cs ih =>
    unfold munch
    by_cases h : accepts m r st p c cs.head? = true
    · rw [if_pos h]
      rcases ih true (some c) with h1 | ⟨d, ds, h1, h2⟩
      · exact .inl h1
      · right
        refine ⟨d, ds, h1, ?_⟩
        simpa using h2
    · rw [if_neg h]
      right
      refine ⟨c, cs, rfl, ?_⟩
      simpa using h

theorem token_none {m : QMode} {r : Bool} {s : GState} :
    token m r s = none ↔ ∀ c cs, s.2 = c :: cs → accepts m r false s.1 c cs.head? = false := by
  obtain ⟨p, cs⟩ := s
  cases cs with
  | nil => simp [token, munch]
  | cons c cs =>
    simp only [token, munch]
    by_cases h : accepts m r false p c cs.head? = true
    · rw [if_pos h]
      simp only [reduceCtorEq, false_iff]
      intro hc
      rw [hc c cs rfl] at h; exact absurd h (by decide)
    · rw [if_neg h]
      simp only [true_iff]
      intro d ds hd
      simp only [List.cons.injEq] at hd
      obtain ⟨rfl, rfl⟩ := hd
      simpa using h

theorem token_some {m : QMode} {r : Bool} {s : GState} {t : List Char} {s' : GState} (h : token m r s = some (t, s')) :
    munch m r false s.1 s.2 = (t, s') ∧ t ≠ [] := by
  unfold token at h
  generalize hm : munch m r false s.1 s.2 = x at h ⊢
  obtain ⟨u, v⟩ := x
  cases u with
  | nil => simp at h
  | cons c u => simp at h; obtain ⟨rfl, rfl⟩ := h; exact ⟨rfl, by simp⟩

theorem token_append {m : QMode} {r : Bool} {s : GState} {t : List Char} {s' : GState} (h : token m r s = some (t, s')) :
    s.2 = t ++ s'.2 := by
  have := munch_append m r false s.1 s.2
  rw [(token_some h).1] at this
  exact this

theorem token_len {m : QMode} {r : Bool} {s : GState} {t : List Char} {s' : GState} (h : token m r s = some (t, s')) :
    s'.2.length + 1 ≤ s.2.length := by
  rw [token_append h]
  have := (token_some h).2
  cases t with
  | nil => exact absurd rfl this
  | cons c t => simp

/-- Terminals are maximal. -/
theorem token_stop {m : QMode} {r : Bool} {s : GState} {t : List Char} {s' : GState} (h : token m r s = some (t, s')) :
    token m r s' = none := by
  rw [token_none]
  intro c cs hc
  have h1 := munch_stop m r false s.1 s.2
  obtain ⟨h2, h3⟩ := token_some h
  rw [h2] at h1
  rcases h1 with h1 | ⟨d, ds, h1, h4⟩
  · rw [hc] at h1; cases h1
  · rw [hc] at h1
    cases h1
    have : t.isEmpty = false := by cases t with
      | nil => exact absurd rfl h3
      | cons _ _ => rfl
    rw [this] at h4
    cases hx : accepts m r false s'.1 c cs.head? with
    | false => rfl
    | true => exact absurd (h4.symm.trans (accepts_started hx)) (by decide)

theorem idTail_append (p : Option Char) (cs : List Char) : cs = (idTail p cs).1 ++ (idTail p cs).2.2 := by
  induction cs generalizing p with
  | nil => rfl
  | cons c cs ih =>
    unfold idTail
    split
    · simp only [List.cons_append]; rw [← ih]
    · rfl

theorem ident_append {s : GState} {n : List Char} {s' : GState} (h : ident s = some (n, s')) : s.2 = n ++ s'.2 ∧ n ≠ [] := by
  obtain ⟨p, cs⟩ := s
  cases cs with
  | nil => simp [ident] at h
  | cons c cs =>
    simp only [ident] at h
    split at h
    · simp only [Option.some.injEq, Prod.mk.injEq] at h
      obtain ⟨rfl, rfl⟩ := h
      refine ⟨?_, by simp⟩
      simp only [List.cons_append]
      rw [← idTail_append]
    · cases h

theorem ident_len {s : GState} {n : List Char} {s' : GState} (h : ident s = some (n, s')) : s'.2.length + 1 ≤ s.2.length := by
  obtain ⟨h1, h2⟩ := ident_append h
  rw [h1]
  cases n with
  | nil => exact absurd rfl h2
  | cons c t => simp

/-! ## Soundness -/

/-- What the parser finds is a derivation. -/
theorem parser_sound (n : Nat) :
    (∀ m s f s', pSub n m s = some (f, s') → GSub m s f s') ∧
    (∀ m s as s', pArgs n m s = some (as, s') → GArgs m s as s') ∧
    (∀ m s vs s', pMore n m s = some (vs, s') → ∀ s0 as, GArgs m s0 as s → GArgs m s0 (as ++ vs) s') ∧
    (∀ m s v s', pValue n m s = some (v, s') → GValue m s v s') ∧
    (∀ m r s fs s', pItems n m r s = some (fs, s') → GItems m r s fs s') := by
  induction n with
  | zero =>
    refine ⟨?_, ?_, ?_, ?_, ?_⟩
    · intro m s f s' h; simp [pSub] at h
    · intro m s f s' h; simp [pArgs] at h
    · intro m s f s' h; simp [pMore] at h
    · intro m s f s' h; simp [pValue] at h
    · intro m r s f s' h; simp [pItems] at h
  | succ n ih =>
    obtain ⟨ihS, ihA, ihM, ihV, ihI⟩ := ih
    refine ⟨?_, ?_, ?_, ?_, ?_⟩
    · intro m s f s' h
      simp only [pSub, Option.bind_eq_some_iff] at h
      obtain ⟨s1, h1, s2, h2, ⟨name, s3⟩, h3, h⟩ := h
      cases h4 : lit ')' s3 with
      | some s4 =>
        simp only [h4, Option.some.injEq, Prod.mk.injEq] at h
        obtain ⟨rfl, rfl⟩ := h
        exact .plain h1 h2 h3 h4
      | none =>
        simp only [h4, Option.bind_eq_some_iff] at h
        obtain ⟨s4, h5, ⟨as, s5⟩, h6, s6, h7, h⟩ := h
        simp only [Option.some.injEq, Prod.mk.injEq] at h
        obtain ⟨rfl, rfl⟩ := h
        exact .args h1 h2 h3 h5 (ihA _ _ _ _ h6) h7
    · intro m s as s' h
      simp only [pArgs, Option.bind_eq_some_iff] at h
      obtain ⟨⟨v, s1⟩, h1, ⟨vs, s2⟩, h2, h⟩ := h
      simp only [Option.some.injEq, Prod.mk.injEq] at h
      obtain ⟨rfl, rfl⟩ := h
      exact ihM _ _ _ _ h2 s [v] (.one (ihV _ _ _ _ h1))
    · intro m s vs s' h s0 as ha
      simp only [pMore] at h
      cases h1 : lit ' ' s with
      | none =>
        simp only [h1, Option.some.injEq, Prod.mk.injEq] at h
        obtain ⟨rfl, rfl⟩ := h
        rw [List.append_nil]; exact ha
      | some s1 =>
        simp only [h1, Option.bind_eq_some_iff] at h
        obtain ⟨⟨v, s2⟩, h2, ⟨vs', s3⟩, h3, h⟩ := h
        simp only [Option.some.injEq, Prod.mk.injEq] at h
        obtain ⟨rfl, rfl⟩ := h
        have := ihM _ _ _ _ h3 s0 (as ++ [v]) (.more ha h1 (ihV _ _ _ _ h2))
        rwa [List.append_assoc] at this
    · intro m s v s' h
      have parts : (pItems n m true s).bind (fun x => if x.1.isEmpty then none else some (x.1, x.2)) = some (v, s') → GValue m s v s' := by
        intro h
        simp only [Option.bind_eq_some_iff] at h
        obtain ⟨⟨fs, s1⟩, h1, h⟩ := h
        cases hf : fs with
        | nil => subst hf; simp at h
        | cons f fs' =>
          subst hf
          simp only [List.isEmpty_cons, Bool.false_eq_true, if_false, Option.some.injEq, Prod.mk.injEq] at h
          obtain ⟨rfl, rfl⟩ := h
          exact .parts (ihI _ _ _ _ _ h1) (by simp)
      unfold pValue at h
      split at h
      · rename_i s1 _ h1
        simp only [Option.bind_eq_some_iff] at h
        obtain ⟨⟨fs, s2⟩, h2, s3, h3, h⟩ := h
        simp only [Option.some.injEq, Prod.mk.injEq] at h
        obtain ⟨rfl, rfl⟩ := h
        exact .quoted (q := .single) (by decide) h1 (ihI _ _ _ _ _ h2) h3
      · rename_i s1 _ h1
        simp only [Option.bind_eq_some_iff] at h
        obtain ⟨⟨fs, s2⟩, h2, s3, h3, h⟩ := h
        simp only [Option.some.injEq, Prod.mk.injEq] at h
        obtain ⟨rfl, rfl⟩ := h
        exact .quoted (q := .double) (by decide) h1 (ihI _ _ _ _ _ h2) h3
      · exact parts h
    · intro m r s fs s' h
      simp only [pItems] at h
      cases h1 : token m r s with
      | some x =>
        obtain ⟨t, s1⟩ := x
        simp only [h1, Option.bind_eq_some_iff] at h
        obtain ⟨⟨fs', s2⟩, h2, h⟩ := h
        simp only [Option.some.injEq, Prod.mk.injEq] at h
        obtain ⟨rfl, rfl⟩ := h
        exact .text h1 (ihI _ _ _ _ _ h2)
      | none =>
        simp only [h1] at h
        cases h2 : lit '$' s with
        | none =>
          simp only [h2, Option.some.injEq, Prod.mk.injEq] at h
          obtain ⟨rfl, rfl⟩ := h
          exact .nil
        | some s0 =>
          simp only [h2, Option.bind_eq_some_iff] at h
          obtain ⟨⟨f, s1⟩, h3, ⟨fs', s2⟩, h4, h⟩ := h
          simp only [Option.some.injEq, Prod.mk.injEq] at h
          obtain ⟨rfl, rfl⟩ := h
          exact .sub (ihS _ _ _ _ h3) (ihI _ _ _ _ _ h4)

/-! ## Completeness -/

mutual

theorem GSub.len {m : QMode} {s : GState} {f : Frag} {s' : GState} : GSub m s f s' → s'.2.length + 4 ≤ s.2.length
  | .plain h1 h2 h3 h4 => by have := lit_len h1; have := lit_len h2; have := ident_len h3; have := lit_len h4; omega
  | .args h1 h2 h3 h4 h5 h6 => by
    have := lit_len h1; have := lit_len h2; have := ident_len h3; have := lit_len h4; have := h5.len; have := lit_len h6; omega

theorem GArgs.len {m : QMode} {s : GState} {f : List (List Frag)} {s' : GState} : GArgs m s f s' → s'.2.length ≤ s.2.length
  | .one h => h.len
  | .more h1 h2 h3 => by have := h1.len; have := lit_len h2; have := h3.len; omega

theorem GValue.len {m : QMode} {s : GState} {f : List Frag} {s' : GState} : GValue m s f s' → s'.2.length ≤ s.2.length
  | .parts h _ => h.len
  | .quoted _ h1 h2 h3 => by have := lit_len h1; have := h2.len; have := lit_len h3; omega

theorem GItems.len {m : QMode} {r : Bool} {s : GState} {f : List Frag} {s' : GState} : GItems m r s f s' → s'.2.length ≤ s.2.length
  | .nil => Nat.le_refl _
  | .sub h1 h2 => by have := h1.len; have := h2.len; omega
  | .text h1 h2 => by have := token_len h1; have := h2.len; omega

end

theorem GSub.prev {m : QMode} {s : GState} {f : Frag} {s' : GState} (h : GSub m s f s') : s'.1 = some ')' := by
  cases h with
  | plain _ _ _ h4 => exact (lit_eq.1 h4).2
  | args _ _ _ _ _ h6 => exact (lit_eq.1 h6).2

/-- A substitution begins with `$(`. -/
theorem GSub.head {m : QMode} {s : GState} {f : Frag} {s' : GState} (h : GSub m s f s') : ∃ cs, s.2 = '$' :: '(' :: cs := by
  have key : ∀ s1 s2 : GState, lit '$' s = some s1 → lit '(' s1 = some s2 → ∃ cs, s.2 = '$' :: '(' :: cs := by
    intro s1 s2 h1 h2
    exact ⟨s2.2, by rw [(lit_eq.1 h1).1, (lit_eq.1 h2).1]⟩
  cases h with
  | plain h1 h2 _ _ => exact key _ _ h1 h2
  | args h1 h2 _ _ _ _ => exact key _ _ h1 h2

/-- Where a new part or fragment may begin: not after a backslash that would make the next character part of a terminal. -/
def BeginOk (m : QMode) (r : Bool) (s : GState) : Prop := s.1 = some '\\' → token m r s = none

/-- What may follow the parts of an argument and the fragments of a template. -/
def EndOk (m : QMode) (r : Bool) (s : GState) : Prop :=
  s.2 = [] ∨ (r = true ∧ (s.2.head? = some ' ' ∨ s.2.head? = some ')')) ∨ (m ≠ .unq ∧ r = false ∧ s.2.head? = some m.quote)

theorem token_dollar {m : QMode} {r : Bool} {s : GState} {cs : List Char} (h : s.2 = '$' :: '(' :: cs) (hb : BeginOk m r s) : token m r s = none := by
  by_cases hp : s.1 = some '\\'
  · exact hb hp
  · rw [token_none]
    intro c ds hc
    rw [h] at hc
    cases hc
    simp only [accepts, List.head?_cons, beq_self_eq_true, if_true, bne_self_eq_false, Bool.false_or, beq_eq_false_iff_ne]
    exact hp

theorem end_stop {m : QMode} {r : Bool} {s : GState} (hb : BeginOk m r s) (he : EndOk m r s) : token m r s = none ∧ lit '$' s = none := by
  rcases he with h | ⟨rfl, h⟩ | ⟨hm, rfl, h⟩
  · refine ⟨token_none.2 (fun c cs hc => ?_), lit_none.2 (by rw [h]; simp)⟩
    rw [h] at hc; cases hc
  · rcases h with h | h
    · refine ⟨token_none.2 (fun c cs hc => ?_), lit_none.2 (by rw [h]; decide)⟩
      rw [hc] at h; simp only [List.head?_cons, Option.some.injEq] at h; subst h
      rfl
    · refine ⟨?_, lit_none.2 (by rw [h]; decide)⟩
      by_cases hp : s.1 = some '\\'
      · exact hb hp
      · refine token_none.2 (fun c cs hc => ?_)
        rw [hc] at h; simp only [List.head?_cons, Option.some.injEq] at h; subst h
        simp only [accepts]
        simpa using hp
  · cases m with
    | unq => exact absurd rfl hm
    | single =>
      refine ⟨token_none.2 (fun c cs hc => ?_), lit_none.2 (by rw [h]; decide)⟩
      rw [hc] at h; simp only [List.head?_cons, Option.some.injEq, QMode.quote] at h; subst h
      simp [accepts]
    | double =>
      refine ⟨token_none.2 (fun c cs hc => ?_), lit_none.2 (by rw [h]; decide)⟩
      rw [hc] at h; simp only [List.head?_cons, Option.some.injEq, QMode.quote] at h; subst h
      simp [accepts]

theorem begin_after_lit {c : Char} {s s' : GState} (h : lit c s = some s') (hc : c ≠ '\\') (m : QMode) (r : Bool) : BeginOk m r s' := by
  intro hp
  rw [(lit_eq.1 h).2] at hp
  simp only [Option.some.injEq] at hp
  exact absurd hp hc

theorem begin_after_sub {m : QMode} {s : GState} {f : Frag} {s' : GState} (h : GSub m s f s') (m' : QMode) (r : Bool) : BeginOk m' r s' := by
  intro hp
  rw [h.prev] at hp
  simp at hp

theorem begin_after_token {m : QMode} {r : Bool} {s : GState} {t : List Char} {s' : GState} (h : token m r s = some (t, s')) : BeginOk m r s' :=
  fun _ => token_stop h

/-- Parts do not begin with a quotation mark when nothing is quoted. -/
theorem parts_no_quote {s : GState} {ps : List Frag} {s' : GState} (h : GItems .unq true s ps s') (hne : ps ≠ []) :
    lit '\'' s = none ∧ lit '"' s = none := by
  cases h with
  | nil => exact absurd rfl hne
  | sub h1 _ =>
    obtain ⟨cs, hcs⟩ := h1.head
    exact ⟨lit_none.2 (by rw [hcs]; simp), lit_none.2 (by rw [hcs]; simp)⟩
  | text h1 _ =>
    constructor
    · rw [lit_none]; intro hh
      have : token .unq true s = none := by
        refine token_none.2 (fun c cs hc => ?_)
        rw [hc] at hh; simp only [List.head?_cons, Option.some.injEq] at hh; subst hh
        simp [accepts]
      rw [this] at h1; cases h1
    · rw [lit_none]; intro hh
      have : token .unq true s = none := by
        refine token_none.2 (fun c cs hc => ?_)
        rw [hc] at hh; simp only [List.head?_cons, Option.some.injEq] at hh; subst hh
        simp [accepts]
      rw [this] at h1; cases h1

mutual

theorem GSub.complete {m : QMode} {s : GState} {f : Frag} {s' : GState} : GSub m s f s' → ∀ n, 4 * s.2.length ≤ n → pSub n m s = some (f, s')
  | .plain (s3 := s3) h1 h2 h3 h4, n, hn => by
    have := lit_len h1
    obtain ⟨n, rfl⟩ : ∃ k, n = k + 1 := ⟨n - 1, by omega⟩
    simp [pSub, h1, h2, h3, h4]
  | .args (s3 := s3) (s4 := s4) (s5 := s5) h1 h2 h3 h4 h5 h6, n, hn => by
    have := lit_len h1; have := lit_len h2; have := ident_len h3; have := lit_len h4
    obtain ⟨n, rfl⟩ : ∃ k, n = k + 1 := ⟨n - 1, by omega⟩
    have hp : lit ')' s3 = none := lit_none.2 (by rw [(lit_eq.1 h4).1]; simp)
    have hend := (lit_eq.1 h6).1
    have := h5.complete [] s5 (by rw [hend]; simp) (begin_after_lit h4 (by decide)) (fun k hk => by
      obtain ⟨k, rfl⟩ : ∃ j, k = j + 1 := ⟨k - 1, by omega⟩
      have : lit ' ' _ = none := lit_none.2 (by rw [hend]; simp)
      simp [pMore, this]) n (by omega)
    simp only [List.append_nil] at this
    simp [pSub, h1, h2, h3, h4, hp, this, h6]

theorem GArgs.complete {m : QMode} {s : GState} {as : List (List Frag)} {s1 : GState} : GArgs m s as s1 → ∀ bs s2,
    (s1.2.head? = some ' ' ∨ s1.2.head? = some ')') → (∀ m r, BeginOk m r s) →
    (∀ n, 4 * s1.2.length + 1 ≤ n → pMore n m s1 = some (bs, s2)) → ∀ n, 4 * s.2.length + 3 ≤ n → pArgs n m s = some (as ++ bs, s2)
  | .one h, bs, s2, he, hb, hc, n, hn => by
    obtain ⟨n, rfl⟩ : ∃ k, n = k + 1 := ⟨n - 1, by omega⟩
    have h1 := h.complete he hb n (by omega)
    have := h.len
    have h2 := hc n (by omega)
    simp [pArgs, h1, h2]
  | .more (s1 := s1) (s2 := s2') (s3 := s3) (v := v) h1 h2 h3, bs, s2, he, hb, hc, n, hn => by
    have h4 : ∀ n, 4 * s1.2.length + 1 ≤ n → pMore n m s1 = some (v :: bs, s2) := by
      intro n hn
      obtain ⟨n, rfl⟩ : ∃ k, n = k + 1 := ⟨n - 1, by omega⟩
      have := lit_len h2
      have h5 := h3.complete he (begin_after_lit h2 (by decide)) n (by omega)
      have := h3.len
      have h6 := hc n (by omega)
      simp [pMore, h2, h5, h6]
    have := h1.complete (v :: bs) s2 (.inl (by rw [(lit_eq.1 h2).1]; rfl)) hb h4 n hn
    rw [this, List.append_assoc]; rfl

theorem GValue.complete {m : QMode} {s : GState} {v : List Frag} {s1 : GState} : GValue m s v s1 →
    (s1.2.head? = some ' ' ∨ s1.2.head? = some ')') → (∀ m r, BeginOk m r s) → ∀ n, 4 * s.2.length + 2 ≤ n → pValue n m s = some (v, s1)
  | .parts (ps := ps) h hne, he, hb, n, hn => by
    obtain ⟨n, rfl⟩ : ∃ k, n = k + 1 := ⟨n - 1, by omega⟩
    have h1 := h.complete (.inr (.inl ⟨rfl, he⟩)) (hb _ _) n (by omega)
    cases m with
    | unq =>
      obtain ⟨h3, h4⟩ := parts_no_quote h hne
      simp [pValue, h3, h4, h1, hne]
    | single => simp [pValue, h1, hne]
    | double => simp [pValue, h1, hne]
  | .quoted (q := q) hq h1 h2 h3, he, hb, n, hn => by
    obtain ⟨n, rfl⟩ : ∃ k, n = k + 1 := ⟨n - 1, by omega⟩
    have := lit_len h1
    have h4 := h2.complete (.inr (.inr ⟨hq, rfl, by rw [(lit_eq.1 h3).1]; rfl⟩))
      (begin_after_lit h1 (by cases q with
        | unq => exact absurd rfl hq
        | single => decide
        | double => decide) _ _) n (by omega)
    cases q with
    | unq => exact absurd rfl hq
    | single =>
      simp only [QMode.quote] at h1 h3
      simp [pValue, h1, h4, h3]
    | double =>
      simp only [QMode.quote] at h1 h3
      have h5 : lit '\'' s = none := lit_none.2 (by rw [(lit_eq.1 h1).1]; simp)
      simp [pValue, h1, h4, h3, h5]

theorem GItems.complete {m : QMode} {r : Bool} {s : GState} {fs : List Frag} {s1 : GState} : GItems m r s fs s1 →
    EndOk m r s1 → BeginOk m r s → ∀ n, 4 * s.2.length + 1 ≤ n → pItems n m r s = some (fs, s1)
  | .nil, he, hb, n, hn => by
    obtain ⟨n, rfl⟩ : ∃ k, n = k + 1 := ⟨n - 1, by omega⟩
    obtain ⟨h1, h2⟩ := end_stop hb he
    simp [pItems, h1, h2]
  | .sub h1 h2, he, hb, n, hn => by
    obtain ⟨n, rfl⟩ : ∃ k, n = k + 1 := ⟨n - 1, by omega⟩
    obtain ⟨cs, hcs⟩ := h1.head
    have h3 := token_dollar hcs hb
    have h4 := h1.complete n (by omega)
    have := h1.len
    have h5 := h2.complete he (begin_after_sub h1 m r) n (by omega)
    have h6 : lit '$' s = some (some '$', '(' :: cs) := lit_eq.2 ⟨hcs, rfl⟩
    simp [pItems, h3, h6, h4, h5]
  | .text h1 h2, he, hb, n, hn => by
    obtain ⟨n, rfl⟩ : ∃ k, n = k + 1 := ⟨n - 1, by omega⟩
    have := token_len h1
    have h5 := h2.complete he (begin_after_token h1) n (by omega)
    simp [pItems, h1, h5]

end

/-- The parser finds the parse of a text, if there is one. -/
theorem parseFrags_iff (cs : List Char) (fs : List Frag) : parseFrags cs = some fs ↔ Template cs fs := by
  constructor
  · intro h
    unfold parseFrags at h
    split at h
    · rename_i f fs' p hp
      simp only [Option.some.injEq] at h; subst h
      exact ⟨p, (parser_sound _).2.2.2.2 _ _ _ _ _ hp, by simp⟩
    · cases h
  · rintro ⟨p, h, hne⟩
    have := h.complete (.inl rfl) (fun hp => by cases hp) _ (Nat.le_refl _)
    unfold parseFrags
    simp only at this
    rw [this]
    cases fs with
    | nil => exact absurd rfl hne
    | cons f fs => rfl

end Verif
