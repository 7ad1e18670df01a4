import Verif.Lemmas.Grammar
import Verif.Spec.Grammar
import Verif.Props.Frontend

/-! # Writing substitutions down and parsing them -/

namespace Verif

theorem escapeAll_cons (c : Char) (t : List Char) :
    escapeAll isSpecial (c :: t) = (if isSpecial c then ['\\', c] else [c]) ++ escapeAll isSpecial t := rfl

theorem accepts_backslash (m : QMode) (r st : Bool) (p n : Option Char) : accepts m r st p '\\' n = true := rfl

theorem accepts_escaped (m : QMode) (r : Bool) (c : Char) (hc : isSpecial c = true) (n : Option Char) :
    accepts m r true (some '\\') c n = true := by
  simp only [isSpecial, Bool.or_eq_true, beq_iff_eq] at hc
  rcases hc with ((((rfl | rfl) | rfl) | rfl) | rfl) | rfl <;> simp [accepts]

theorem accepts_plain (m : QMode) (r st : Bool) (p : Option Char) (c : Char) (hc : isSpecial c = false) (hr : r = true → c ≠ ' ') (n : Option Char) :
    accepts m r st p c n = true := by
  simp only [isSpecial, Bool.or_eq_false_iff, beq_eq_false_iff_ne] at hc
  obtain ⟨⟨⟨⟨⟨h1, h2⟩, h3⟩, h4⟩, h5⟩, h6⟩ := hc
  simp only [accepts]
  have e4 : (c == '$') = false := by simpa using h4
  have e5 : (c == '(') = false := by simpa using h5
  have e6 : (c == ')') = false := by simpa using h6
  have e2 : (c == '\'') = false := by simpa using h2
  have e3 : (c == '"') = false := by simpa using h3
  simp only [e2, e3, e4, e5, e6, Bool.false_or, Bool.false_eq_true, if_false]
  cases r with
  | false => simp
  | true =>
    have e : (c == ' ') = false := by simpa using hr rfl
    simp [e]

/-- A terminal takes exactly the escaped text, if the character after it is not part of it. -/
theorem munch_escape (m : QMode) (r : Bool) (t : List Char) (ht : r = true → ' ' ∉ t) (st : Bool) (p : Option Char) (rest : List Char)
    (hst : t ≠ [] ∨ st = true)
    (hrest : ∀ c cs, rest = c :: cs → accepts m r true ((t.getLast?).or p) c cs.head? = false) :
    munch m r st p (escapeAll isSpecial t ++ rest) = (escapeAll isSpecial t, ((t.getLast?).or p, rest)) := by
  induction t generalizing st p with
  | nil =>
    rcases hst with h | rfl
    · exact absurd rfl h
    · cases rest with
      | nil => simp [escapeAll, munch]
      | cons c cs =>
        have := hrest c cs rfl
        simp only [List.getLast?_nil, Option.none_or] at this
        simp [escapeAll, munch, this]
  | cons c t ih =>
    have hlast : ((c :: t).getLast?).or p = (t.getLast?).or (some c) := by
      cases t with
      | nil => simp
      | cons d t => rw [List.getLast?_cons_cons]; simp [List.getLast?_cons]
    rw [hlast] at hrest ⊢
    have ih' := ih (fun hr h => ht hr (List.mem_cons_of_mem _ h)) true (some c) (.inr rfl) hrest
    rw [escapeAll_cons]
    by_cases hc : isSpecial c = true
    · rw [if_pos hc]
      simp only [List.cons_append, List.nil_append, munch, accepts_backslash, if_true, accepts_escaped m r c hc, ih']
    · have hc' : isSpecial c = false := by simpa using hc
      rw [if_neg hc]
      have : ∀ n, accepts m r st p c n = true := accepts_plain m r st p c hc' (fun hr h => ht hr (by rw [h]; simp))
      simp only [List.cons_append, List.nil_append, munch, this, if_true, ih']

theorem escape_ne_nil {t : List Char} (h : t ≠ []) : escapeAll isSpecial t ≠ [] := by
  cases t with
  | nil => exact absurd rfl h
  | cons c t =>
    rw [escapeAll_cons]
    by_cases hc : isSpecial c = true
    · rw [if_pos hc]; simp
    · rw [if_neg hc]; simp

theorem token_escape (m : QMode) (r : Bool) (t : List Char) (hne : t ≠ []) (ht : r = true → ' ' ∉ t) (p : Option Char) (rest : List Char)
    (hrest : ∀ c cs, rest = c :: cs → accepts m r true (t.getLast?) c cs.head? = false) :
    token m r (p, escapeAll isSpecial t ++ rest) = some (escapeAll isSpecial t, (t.getLast?, rest)) := by
  have hl : (t.getLast?).or p = t.getLast? := by
    cases t with
    | nil => exact absurd rfl hne
    | cons c t => simp [List.getLast?_cons]
  have := munch_escape m r t ht false p rest (.inl hne) (by rw [hl]; exact hrest)
  rw [hl] at this
  have hn := escape_ne_nil hne
  unfold token
  simp only [this]
  split
  · rename_i h
    simp only [Prod.mk.injEq] at h
    exact absurd h.1 hn
  · rename_i h
    simp only [Prod.mk.injEq] at h
    rw [← h.1, ← h.2]

theorem unescape_escape (t : List Char) : unescape (escapeAll isSpecial t) = t :=
  C42_round_trip isSpecial rfl rfl t

theorem idTail_all (cs : List Char) (h : cs.all isIdChar = true) (p : Option Char) (rest : List Char)
    (hr : ∀ c ds, rest = c :: ds → isIdChar c = false) : ∃ p', idTail p (cs ++ rest) = (cs, (p', rest)) := by
  induction cs generalizing p with
  | nil =>
    refine ⟨p, ?_⟩
    cases rest with
    | nil => rfl
    | cons c ds => simp [idTail, hr c ds rfl]
  | cons c cs ih =>
    simp only [List.all_cons, Bool.and_eq_true] at h
    obtain ⟨p', hp⟩ := ih h.2 (some c)
    refine ⟨p', ?_⟩
    simp [idTail, h.1, hp]

theorem isName_cons (c : Char) (cs : List Char) : isName (c :: cs) = (isLetter c && cs.all isIdChar) := rfl

theorem ident_name (name : List Char) (h : isName name = true) (p : Option Char) (rest : List Char)
    (hr : ∀ c ds, rest = c :: ds → isIdChar c = false) : ∃ p', ident (p, name ++ rest) = some (name, (p', rest)) := by
  cases name with
  | nil => simp [isName] at h
  | cons c cs =>
    simp only [isName_cons, Bool.and_eq_true] at h
    obtain ⟨p', hp⟩ := idTail_all cs h.2 (some c) rest hr
    exact ⟨p', by simp [ident, h.1, hp]⟩

/-- What may come after a list: `free` as in `Frag.WritableAll`. -/
def RestOk (m : QMode) (r free : Bool) (rest : List Char) : Prop :=
  rest = [] ∨ (r = true ∧ (rest.head? = some ' ' ∨ (rest.head? = some ')' ∧ free = false))) ∨
    (m ≠ .unq ∧ r = false ∧ free = false ∧ rest.head? = some m.quote)

theorem rest_stop {m : QMode} {r free : Bool} {rest : List Char} (h : RestOk m r free rest) {t : List Char} 
    (hb : free = true ∨ endsBackslash t = false) : ∀ c cs, rest = c :: cs → accepts m r true (t.getLast?) c cs.head? = false := by
  intro c cs hc
  have hb' : free = false → (t.getLast? == some '\\') = false := by
    intro hf
    rcases hb with hb | hb
    · rw [hf] at hb; cases hb
    · exact hb
  rcases h with h | ⟨rfl, h | ⟨h, hf⟩⟩ | ⟨hm, rfl, hf, h⟩
  · rw [h] at hc; cases hc
  · rw [hc] at h; simp only [List.head?_cons, Option.some.injEq] at h; subst h; rfl
  · rw [hc] at h; simp only [List.head?_cons, Option.some.injEq] at h; subst h
    simp [accepts, hb' hf]
  · rw [hc] at h; simp only [List.head?_cons, Option.some.injEq] at h; subst h
    cases m with
    | unq => exact absurd rfl hm
    | single => simp [accepts, hb' hf, QMode.quote]
    | double => simp [accepts, hb' hf, QMode.quote]

theorem lit_cons (c : Char) (p : Option Char) (cs : List Char) : lit c (p, c :: cs) = some (some c, cs) := by simp [lit]

theorem sub_stop {m : QMode} {r : Bool} {t : List Char} (hb : endsBackslash t = false) (rest : List Char) :
    ∀ c cs, '$' :: '(' :: rest = c :: cs → accepts m r true (t.getLast?) c cs.head? = false := by
  intro c cs hc
  cases hc
  have : (t.getLast? == some '\\') = false := hb
  simp [accepts, this]

/-- The text of an argument without the blank before it. -/
def argText (q : Bool) (a : List Frag) : List Char := if !q && needsQuotes a then '"' :: Frag.writeAll true a ++ ['"'] else Frag.writeAll q a

/-- The condition on an argument. -/
def ArgOk (q free : Bool) (a : List Frag) : Prop :=
  if !q && needsQuotes a then Frag.WritableAll true false false a else a ≠ [] ∧ Frag.WritableAll q true free a

theorem writeArgs_cons (q : Bool) (a : List Frag) (as : List (List Frag)) :
    Frag.writeArgs q (a :: as) = ' ' :: (argText q a ++ Frag.writeArgs q as) := by
  simp only [Frag.writeArgs, argText]
  by_cases hc : (!q && needsQuotes a) = true
  · rw [if_pos hc, if_pos hc]; rfl
  · rw [if_neg hc, if_neg hc]; rfl

theorem writableArgs_cons (q : Bool) (a : List Frag) (as : List (List Frag)) :
    Frag.WritableArgs q (a :: as) ↔ ArgOk q (!as.isEmpty) a ∧ Frag.WritableArgs q as := by
  simp only [Frag.WritableArgs, ArgOk]

theorem args_rest (m : QMode) (q : Bool) (as : List (List Frag)) (rest : List Char) :
    RestOk m true (!as.isEmpty) (Frag.writeArgs q as ++ ')' :: rest) := by
  right; left
  refine ⟨rfl, ?_⟩
  cases as with
  | nil => right; exact ⟨by simp [Frag.writeArgs], rfl⟩
  | cons a as => left; rw [writeArgs_cons]; rfl

mutual

theorem write_sub (m : QMode) (q : Bool) (hq : q = true ↔ m ≠ .unq) : (f : Frag) → f.isText = false → ∀ r, f.Writable q r → ∀ p rest,
    GSub m (p, f.write q ++ rest) f (some ')', rest)
  | .text t, hf, _, _, _, _ => by cases hf
  | .sub name [], _, r, h, p, rest => by
    simp only [Frag.Writable] at h
    obtain ⟨p', hp⟩ := ident_name name h.1 (some '(') (')' :: rest) (by intro c ds hc; cases hc; rfl)
    have e : (Frag.sub name []).write q ++ rest = '$' :: '(' :: (name ++ (')' :: rest)) := by simp [Frag.write, Frag.writeArgs]
    rw [e]
    exact .plain (lit_cons _ _ _) (lit_cons _ _ _) hp (lit_cons _ _ _)
  | .sub name (a :: as), _, r, h, p, rest => by
    simp only [Frag.Writable] at h
    obtain ⟨hn, ha⟩ := h
    rw [writableArgs_cons] at ha
    obtain ⟨p', hp⟩ := ident_name name hn (some '(') (' ' :: (argText q a ++ (Frag.writeArgs q as ++ ')' :: rest)))
      (by intro c ds hc; cases hc; rfl)
    have e : (Frag.sub name (a :: as)).write q ++ rest =
        '$' :: '(' :: (name ++ (' ' :: (argText q a ++ (Frag.writeArgs q as ++ ')' :: rest)))) := by
      simp [Frag.write, writeArgs_cons]
    rw [e]
    obtain ⟨p3, h3⟩ := write_value m q hq a _ ha.1 (Frag.writeArgs q as ++ ')' :: rest) (args_rest m q as rest) (some ' ')
    obtain ⟨p4, h4⟩ := write_args m q hq as ha.2 rest _ _ _ (.one h3)
    exact .args (lit_cons _ _ _) (lit_cons _ _ _) hp (lit_cons _ _ _) h4 (lit_cons _ _ _)

theorem write_args (m : QMode) (q : Bool) (hq : q = true ↔ m ≠ .unq) : (as : List (List Frag)) → Frag.WritableArgs q as → ∀ rest s0 as0 p,
    GArgs m s0 as0 (p, Frag.writeArgs q as ++ ')' :: rest) → ∃ p', GArgs m s0 (as0 ++ as) (p', ')' :: rest)
  | [], _, rest, s0, as0, p, h => ⟨p, by simpa [Frag.writeArgs] using h⟩
  | a :: as, ha, rest, s0, as0, p, h => by
    rw [writableArgs_cons] at ha
    rw [writeArgs_cons] at h
    simp only [List.cons_append, List.append_assoc] at h
    obtain ⟨p3, h3⟩ := write_value m q hq a _ ha.1 (Frag.writeArgs q as ++ ')' :: rest) (args_rest m q as rest) (some ' ')
    obtain ⟨p4, h4⟩ := write_args m q hq as ha.2 rest _ _ _ (.more h (lit_cons _ _ _) h3)
    exact ⟨p4, by rwa [List.append_assoc] at h4⟩

theorem write_value (m : QMode) (q : Bool) (hq : q = true ↔ m ≠ .unq) (a : List Frag) (free : Bool) (h : ArgOk q free a) (rest : List Char)
    (hr : RestOk m true free rest) (p : Option Char) : ∃ p', GValue m (p, argText q a ++ rest) a (p', rest) := by
  unfold ArgOk at h
  unfold argText
  by_cases hc : (!q && needsQuotes a) = true
  · rw [if_pos hc] at h ⊢
    have hm : m = .unq := by
      cases m with
      | unq => rfl
      | single => have := hq.2 (by decide); rw [this] at hc; simp at hc
      | double => have := hq.2 (by decide); rw [this] at hc; simp at hc
    subst hm
    obtain ⟨p', hp⟩ := write_items .double true (by decide) a false false h ('"' :: rest) (.inr (.inr ⟨by decide, rfl, rfl, rfl⟩)) (some '"')
    refine ⟨some '"', ?_⟩
    simp only [List.cons_append, List.append_assoc, List.nil_append]
    exact .quoted (q := .double) (by decide) (lit_cons _ _ _) hp (lit_cons _ _ _)
  · rw [if_neg hc] at h ⊢
    obtain ⟨p', hp⟩ := write_items m q hq a true free h.2 rest hr p
    exact ⟨p', .parts hp h.1⟩

theorem write_items (m : QMode) (q : Bool) (hq : q = true ↔ m ≠ .unq) : (fs : List Frag) → ∀ r free, Frag.WritableAll q r free fs → ∀ rest,
    RestOk m r free rest → ∀ p, ∃ p', GItems m r (p, Frag.writeAll q fs ++ rest) fs (p', rest)
  | [], r, free, _, rest, _, p => ⟨p, .nil⟩
  | .sub name args :: fs, r, free, h, rest, hr, p => by
    simp only [Frag.WritableAll] at h
    have h1 := write_sub m q hq (.sub name args) rfl r h.1 p (Frag.writeAll q fs ++ rest)
    obtain ⟨p', h2⟩ := write_items m q hq fs r free h.2.2 rest hr (some ')')
    refine ⟨p', ?_⟩
    simp only [Frag.writeAll, List.append_assoc]
    exact .sub h1 h2
  | .text t :: [], r, free, h, rest, hr, p => by
    simp only [Frag.WritableAll, Frag.Writable] at h
    refine ⟨t.getLast?, ?_⟩
    have := token_escape m r t h.1.1 h.1.2 p rest (rest_stop hr h.2.1)
    have h3 := GItems.text this (GItems.nil (m := m) (r := r))
    rw [unescape_escape] at h3
    simpa [Frag.writeAll, Frag.write] using h3
  | .text t :: .text t' :: fs, r, free, h, rest, hr, p => by
    simp only [Frag.WritableAll, Frag.isText] at h
    exact absurd h.2.1.1 (by decide)
  | .text t :: .sub name args :: fs, r, free, h, rest, hr, p => by
    unfold Frag.WritableAll at h
    obtain ⟨h1, h2, h3⟩ := h
    simp only [Frag.Writable] at h1
    obtain ⟨p', h4⟩ := write_items m q hq (.sub name args :: fs) r free h3 rest hr t.getLast?
    refine ⟨p', ?_⟩
    have e : Frag.writeAll q (.text t :: .sub name args :: fs) ++ rest = escapeAll isSpecial t ++ (Frag.writeAll q (.sub name args :: fs) ++ rest) := by
      simp [Frag.writeAll, Frag.write]
    rw [e]
    have := token_escape m r t h1.1 h1.2 p (Frag.writeAll q (.sub name args :: fs) ++ rest) (by
      have e2 : Frag.writeAll q (.sub name args :: fs) ++ rest = '$' :: '(' :: (name ++ Frag.writeArgs q args ++ [')'] ++ Frag.writeAll q fs ++ rest) := by
        simp [Frag.writeAll, Frag.write]
      rw [e2]
      exact sub_stop h2.2 _)
    have h5 := GItems.text this h4
    rwa [unescape_escape] at h5

end

/-- What is written down is parsed as itself. -/
theorem write_parse (fs : List Frag) (hne : fs ≠ []) (h : Frag.WritableAll false false true fs) :
    parseFrags (Frag.writeAll false fs) = some fs := by
  rw [parseFrags_iff]
  obtain ⟨p', hp⟩ := write_items .unq false (by decide) fs false true h [] (.inl rfl) none
  exact ⟨p', by rwa [List.append_nil] at hp, hne⟩

end Verif
