import Verif.Spec.ShowArgs

/-! # Descriptions of substitutions are a prefix code -/

namespace Verif

/-- The word before the parenthesis. -/
def Sub.word : Sub → String
  | .launchConfig _ _ => "LaunchConfig"
  | .envVar _ _ => "EnvVar"
  | .anonName _ => "AnonName"
  | .pathJoin _ => "PathJoin"
  | .localVar _ => "LocalVar"
  | .pyExpr _ _ => "PythonExpr"
  | .command _ _ => "Command"
  | .findExec _ => "FindExec"
  | .fileContent _ => "FileContent"
  | .thisLaunchFile => "ThisLaunchFile"
  | .thisLaunchFileDir => "ThisLaunchFileDir"
  | .launchLogDir => "LaunchLogDir"
  | _ => ""

/-- What is between the parentheses. -/
def Sub.inner (repr : List Sub → List Char) : Sub → List Char
  | .launchConfig n _ | .envVar n _ | .anonName n | .command n _ | .findExec n => plusJoin (Sub.describeAll repr n)
  | .pathJoin ps => '\'' :: (plusJoin (Sub.describeAll repr ps) ++ ['\''])
  | .localVar x => '\'' :: (x.toList ++ ['\''])
  | .pyExpr x ms => plusJoin (Sub.describeAll repr x) ++ [',', ' ', '['] ++ commaJoin (Sub.describeAll repr ms) ++ [']']
  | .fileContent p => commaJoin (Sub.describeAll repr p)
  | _ => []

theorem describe_word (repr : List Sub → List Char) (s : Sub) (h : s.Readable) :
    (∃ t, s = .text t ∧ '\'' ∉ t.toList) ∨ (s.describe repr = calledWith s.word (s.inner repr) ∧ s.word.toList ≠ [] ∧ ∀ c ∈ s.word.toList, c.isAlpha = true) := by
  cases s with
  | text t => exact .inl ⟨t, rfl, by simpa only [Sub.Readable] using h⟩
  | launchConfig _ _ => exact .inr ⟨by simp only [Sub.describe, Sub.word, Sub.inner], by simp only [Sub.word]; decide +kernel, by simp only [Sub.word]; decide +kernel⟩
  | envVar _ _ => exact .inr ⟨by simp only [Sub.describe, Sub.word, Sub.inner], by simp only [Sub.word]; decide +kernel, by simp only [Sub.word]; decide +kernel⟩
  | anonName _ => exact .inr ⟨by simp only [Sub.describe, Sub.word, Sub.inner], by simp only [Sub.word]; decide +kernel, by simp only [Sub.word]; decide +kernel⟩
  | pathJoin _ => exact .inr ⟨by simp only [Sub.describe, Sub.word, Sub.inner], by simp only [Sub.word]; decide +kernel, by simp only [Sub.word]; decide +kernel⟩
  | localVar _ => exact .inr ⟨by simp only [Sub.describe, Sub.word, Sub.inner], by simp only [Sub.word]; decide +kernel, by simp only [Sub.word]; decide +kernel⟩
  | pyExpr _ _ => exact .inr ⟨by simp only [Sub.describe, Sub.word, Sub.inner], by simp only [Sub.word]; decide +kernel, by simp only [Sub.word]; decide +kernel⟩
  | command _ _ => exact .inr ⟨by simp only [Sub.describe, Sub.word, Sub.inner], by simp only [Sub.word]; decide +kernel, by simp only [Sub.word]; decide +kernel⟩
  | findExec _ => exact .inr ⟨by simp only [Sub.describe, Sub.word, Sub.inner], by simp only [Sub.word]; decide +kernel, by simp only [Sub.word]; decide +kernel⟩
  | fileContent _ => exact .inr ⟨by simp only [Sub.describe, Sub.word, Sub.inner], by simp only [Sub.word]; decide +kernel, by simp only [Sub.word]; decide +kernel⟩
  | thisLaunchFile => exact .inr ⟨by simp only [Sub.describe, Sub.word, Sub.inner], by simp only [Sub.word]; decide +kernel, by simp only [Sub.word]; decide +kernel⟩
  | thisLaunchFileDir => exact .inr ⟨by simp only [Sub.describe, Sub.word, Sub.inner], by simp only [Sub.word]; decide +kernel, by simp only [Sub.word]; decide +kernel⟩
  | launchLogDir => exact .inr ⟨by simp only [Sub.describe, Sub.word, Sub.inner], by simp only [Sub.word]; decide +kernel, by simp only [Sub.word]; decide +kernel⟩
  | _ => simp only [Sub.Readable] at h

theorem word_split {w w' x y : List Char} (h : w ++ '(' :: x = w' ++ '(' :: y) (hw : ∀ c ∈ w, c.isAlpha = true) (hw' : ∀ c ∈ w', c.isAlpha = true) :
    w = w' ∧ x = y := by
  induction w generalizing w' with
  | nil =>
    cases w' with
    | nil => simpa using h
    | cons c w' =>
      simp only [List.nil_append, List.cons_append, List.cons.injEq] at h
      have := hw' c (.head _)
      rw [← h.1] at this
      exact absurd this (by decide)
  | cons c w ih =>
    cases w' with
    | nil =>
      simp only [List.nil_append, List.cons_append, List.cons.injEq] at h
      have := hw c (.head _)
      rw [h.1] at this
      exact absurd this (by decide)
    | cons c' w' =>
      simp only [List.cons_append, List.cons.injEq] at h
      obtain ⟨h1, h2⟩ := ih h.2 (fun c hc => hw c (.tail _ hc)) (fun c hc => hw' c (.tail _ hc))
      exact ⟨by rw [h.1, h1], h2⟩

/-- A description begins with a letter or a quotation mark. -/
theorem describe_head (repr : List Sub → List Char) (s : Sub) (h : s.Readable) : ∃ c r, s.describe repr = c :: r ∧ (c = '\'' ∨ c.isAlpha = true) := by
  rcases describe_word repr s h with ⟨t, rfl, _⟩ | ⟨h1, h2, h3⟩
  · exact ⟨_, _, by rw [Sub.describe], .inl rfl⟩
  · rw [calledWith] at h1
    cases hw : s.word.toList with
    | nil => exact absurd hw h2
    | cons c w =>
      rw [hw] at h1 h3
      exact ⟨c, _, h1, .inr (h3 c (.head _))⟩

theorem quote_split {t t' x y : List Char} (h : t ++ '\'' :: x = t' ++ '\'' :: y) (ht : '\'' ∉ t) (ht' : '\'' ∉ t') : t = t' ∧ x = y := by
  induction t generalizing t' with
  | nil =>
    cases t' with
    | nil => simpa using h
    | cons c t' =>
      simp only [List.nil_append, List.cons_append, List.cons.injEq] at h
      exact absurd (by rw [h.1]; exact .head _) ht'
  | cons c t ih =>
    cases t' with
    | nil =>
      simp only [List.nil_append, List.cons_append, List.cons.injEq] at h
      exact absurd (by rw [h.1]; exact .head _) ht
    | cons c' t' =>
      simp only [List.cons_append, List.cons.injEq] at h
      obtain ⟨h1, h2⟩ := ih h.2 (fun hc => ht (.tail _ hc)) (fun hc => ht' (.tail _ hc))
      exact ⟨by rw [h.1, h1], h2⟩

/-- The end of a description is where it can be seen. -/
def Sub.Delimited (repr : List Sub → List Char) (s : Sub) : Prop :=
  ∀ s' r r', s'.Readable → s.describe repr ++ r = s'.describe repr ++ r' → s = s' ∧ r = r'

theorem describeAll_split (repr : List Sub → List Char) (a : Char) (sep : List Char) (b : Char) (term : List Char) (hab : a ≠ b) :
    ∀ (l l' : List Sub) (r r' : List Char), (∀ s ∈ l, s.Delimited repr) → Sub.ReadableAll l → Sub.ReadableAll l' →
      ((l ≠ [] ∧ l' ≠ []) ∨ (b ≠ '\'' ∧ b.isAlpha = false)) →
      (a :: sep).intercalate (Sub.describeAll repr l) ++ (b :: term ++ r) = (a :: sep).intercalate (Sub.describeAll repr l') ++ (b :: term ++ r') →
      l = l' ∧ r = r' := by
  intro l
  induction l with
  | nil =>
    intro l' r r' _ _ hl' hb h
    cases l' with
    | nil => exact ⟨rfl, by simpa [Sub.describeAll] using h⟩
    | cons s' l' =>
      rcases hb with hb | ⟨hb1, hb2⟩
      · exact absurd rfl hb.1
      · obtain ⟨c, x, hc, hq⟩ := describe_head repr s' hl'.1
        exfalso
        have : b = c := by
          cases l' <;> simp [Sub.describeAll, List.intercalate, hc] at h <;> exact h.1
        subst this
        rcases hq with hq | hq
        · exact hb1 hq
        · rw [hb2] at hq; cases hq
  | cons s l ih =>
    intro l' r r' hd hl hl' hb h
    cases l' with
    | nil =>
      rcases hb with hb | ⟨hb1, hb2⟩
      · exact absurd rfl hb.2
      · obtain ⟨c, x, hc, hq⟩ := describe_head repr s hl.1
        exfalso
        have : c = b := by
          cases l <;> simp [Sub.describeAll, List.intercalate, hc] at h <;> exact h.1
        subst this
        rcases hq with hq | hq
        · exact hb1 hq
        · rw [hb2] at hq; cases hq
    | cons s' l' =>
      cases l with
      | nil =>
        cases l' with
        | nil =>
          simp only [Sub.describeAll, List.intercalate, List.intersperse, List.flatten_cons, List.flatten_nil, List.append_nil] at h
          obtain ⟨h1, h2⟩ := hd s (.head _) s' _ _ hl'.1 h
          exact ⟨by rw [h1], by simpa using h2⟩
        | cons t' l' =>
          simp only [Sub.describeAll, List.intercalate, List.intersperse, List.flatten_cons, List.flatten_nil, List.append_nil, List.append_assoc] at h
          obtain ⟨h1, h2⟩ := hd s (.head _) s' _ _ hl'.1 h
          simp only [List.cons_append, List.cons.injEq] at h2
          exact absurd h2.1.symm hab
      | cons t l =>
        cases l' with
        | nil =>
          simp only [Sub.describeAll, List.intercalate, List.intersperse, List.flatten_cons, List.flatten_nil, List.append_nil, List.append_assoc] at h
          obtain ⟨h1, h2⟩ := hd s (.head _) s' _ _ hl'.1 h
          simp only [List.cons_append, List.cons.injEq] at h2
          exact absurd h2.1 hab
        | cons t' l' =>
          simp only [Sub.describeAll, List.intercalate, List.intersperse, List.flatten_cons, List.append_assoc] at h
          obtain ⟨h1, h2⟩ := hd s (.head _) s' _ _ hl'.1 h
          have h3 := List.append_cancel_left h2
          obtain ⟨h4, h5⟩ := ih (t' :: l') r r' (fun x hx => hd x (.tail _ hx)) hl.2 hl'.2 (.inl ⟨by simp, by simp⟩) (by
            simpa only [Sub.describeAll, List.intercalate, List.append_assoc] using h3)
          exact ⟨by rw [h1, h4], h5⟩

/-- Two descriptions that begin alike have the same word. -/
theorem describe_words (repr : List Sub → List Char) (s s' : Sub) (r r' : List Char) (hs : s.Readable) (hs' : s'.Readable) (hw : s.word ≠ "")
    (h : s.describe repr ++ r = s'.describe repr ++ r') :
    s.word = s'.word ∧ s.inner repr ++ (')' :: r) = s'.inner repr ++ (')' :: r') := by
  rcases describe_word repr s hs with ⟨t, rfl, _⟩ | ⟨h1, h2, h3⟩
  · exact absurd rfl hw
  · rcases describe_word repr s' hs' with ⟨t, rfl, _⟩ | ⟨h1', h2', h3'⟩
    · exfalso
      rw [h1, calledWith, Sub.describe] at h
      cases hc : s.word.toList with
      | nil => exact h2 hc
      | cons c w =>
        rw [hc] at h h3
        simp only [List.cons_append, List.cons.injEq] at h
        have := h3 c (.head _)
        rw [h.1] at this
        exact absurd this (by decide)
    · rw [h1, h1', calledWith, calledWith] at h
      simp only [List.append_assoc, List.cons_append, List.nil_append] at h
      obtain ⟨e1, e2⟩ := word_split h h3 h3'
      exact ⟨String.toList_inj.1 e1, e2⟩

theorem text_delimited (repr : List Sub → List Char) (t : String) (ht : '\'' ∉ t.toList) : (Sub.text t).Delimited repr := by
  intro s' r r' hs' h
  rcases describe_word repr s' hs' with ⟨t', rfl, ht'⟩ | ⟨h1, h2, h3⟩
  · rw [Sub.describe, Sub.describe] at h
    simp only [List.cons_append, List.cons.injEq, true_and, List.append_assoc, List.nil_append] at h
    obtain ⟨e1, e2⟩ := quote_split h ht ht'
    exact ⟨by rw [String.toList_inj.1 e1], e2⟩
  · exfalso
    rw [h1, calledWith, Sub.describe] at h
    cases hc : s'.word.toList with
    | nil => exact h2 hc
    | cons c w =>
      rw [hc] at h h3
      simp only [List.cons_append, List.cons.injEq] at h
      have := h3 c (.head _)
      rw [← h.1] at this
      exact absurd this (by decide)

theorem plus_split (repr : List Sub → List Char) (b : Char) (term : List Char) (hb : ' ' ≠ b) (l l' : List Sub) (r r' : List Char)
    (hd : ∀ s ∈ l, s.Delimited repr) (hl : Sub.ReadableAll l) (hl' : Sub.ReadableAll l') (hne : (l ≠ [] ∧ l' ≠ []) ∨ (b ≠ '\'' ∧ b.isAlpha = false))
    (h : plusJoin (Sub.describeAll repr l) ++ (b :: (term ++ r)) = plusJoin (Sub.describeAll repr l') ++ (b :: (term ++ r'))) : l = l' ∧ r = r' :=
  describeAll_split repr ' ' ['+', ' '] b term hb l l' r r' hd hl hl' hne h

theorem comma_split (repr : List Sub → List Char) (b : Char) (term : List Char) (hb : ',' ≠ b) (l l' : List Sub) (r r' : List Char)
    (hd : ∀ s ∈ l, s.Delimited repr) (hl : Sub.ReadableAll l) (hl' : Sub.ReadableAll l') (hne : (l ≠ [] ∧ l' ≠ []) ∨ (b ≠ '\'' ∧ b.isAlpha = false))
    (h : commaJoin (Sub.describeAll repr l) ++ (b :: (term ++ r)) = commaJoin (Sub.describeAll repr l') ++ (b :: (term ++ r'))) : l = l' ∧ r = r' :=
  describeAll_split repr ',' [' '] b term hb l l' r r' hd hl hl' hne h

mutual
theorem describe_delimited (repr : List Sub → List Char) : (s : Sub) → s.Readable → s.Delimited repr
  | .text t, hs => text_delimited repr t (by simpa only [Sub.Readable] using hs)
  | .launchConfig n d, hs => fun s' r r' hs' h => by
    obtain ⟨hw, hi⟩ := describe_words repr _ s' r r' hs hs' (by simp only [Sub.word]; decide) h
    cases s' with
    | launchConfig n' d' =>
      simp only [Sub.Readable] at hs hs'
      simp only [Sub.inner] at hi
      obtain ⟨e1, e2⟩ := plus_split repr ')' [] (by decide) n n' r r' (describe_delimitedAll repr n hs.1) hs.1 hs'.1 (.inr ⟨by decide, by decide⟩) hi
      exact ⟨by rw [e1, hs.2, hs'.2], e2⟩
    | _ => first
      | (simp only [Sub.word] at hw; exact absurd hw (by decide))
      | (simp only [Sub.Readable] at hs')
  | .envVar n d, hs => fun s' r r' hs' h => by
    obtain ⟨hw, hi⟩ := describe_words repr _ s' r r' hs hs' (by simp only [Sub.word]; decide) h
    cases s' with
    | envVar n' d' =>
      simp only [Sub.Readable] at hs hs'
      simp only [Sub.inner] at hi
      obtain ⟨e1, e2⟩ := plus_split repr ')' [] (by decide) n n' r r' (describe_delimitedAll repr n hs.1) hs.1 hs'.1 (.inr ⟨by decide, by decide⟩) hi
      exact ⟨by rw [e1, hs.2, hs'.2], e2⟩
    | _ => first
      | (simp only [Sub.word] at hw; exact absurd hw (by decide))
      | (simp only [Sub.Readable] at hs')
  | .command n d, hs => fun s' r r' hs' h => by
    obtain ⟨hw, hi⟩ := describe_words repr _ s' r r' hs hs' (by simp only [Sub.word]; decide) h
    cases s' with
    | command n' d' =>
      simp only [Sub.Readable] at hs hs'
      simp only [Sub.inner] at hi
      obtain ⟨e1, e2⟩ := plus_split repr ')' [] (by decide) n n' r r' (describe_delimitedAll repr n hs.1) hs.1 hs'.1 (.inr ⟨by decide, by decide⟩) hi
      exact ⟨by rw [e1, hs.2, hs'.2], e2⟩
    | _ => first
      | (simp only [Sub.word] at hw; exact absurd hw (by decide))
      | (simp only [Sub.Readable] at hs')
  | .anonName n, hs => fun s' r r' hs' h => by
    obtain ⟨hw, hi⟩ := describe_words repr _ s' r r' hs hs' (by simp only [Sub.word]; decide) h
    cases s' with
    | anonName n' =>
      simp only [Sub.Readable] at hs hs'
      simp only [Sub.inner] at hi
      obtain ⟨e1, e2⟩ := plus_split repr ')' [] (by decide) n n' r r' (describe_delimitedAll repr n hs) hs hs' (.inr ⟨by decide, by decide⟩) hi
      exact ⟨by rw [e1], e2⟩
    | _ => first
      | (simp only [Sub.word] at hw; exact absurd hw (by decide))
      | (simp only [Sub.Readable] at hs')
  | .findExec n, hs => fun s' r r' hs' h => by
    obtain ⟨hw, hi⟩ := describe_words repr _ s' r r' hs hs' (by simp only [Sub.word]; decide) h
    cases s' with
    | findExec n' =>
      simp only [Sub.Readable] at hs hs'
      simp only [Sub.inner] at hi
      obtain ⟨e1, e2⟩ := plus_split repr ')' [] (by decide) n n' r r' (describe_delimitedAll repr n hs) hs hs' (.inr ⟨by decide, by decide⟩) hi
      exact ⟨by rw [e1], e2⟩
    | _ => first
      | (simp only [Sub.word] at hw; exact absurd hw (by decide))
      | (simp only [Sub.Readable] at hs')
  | .fileContent n, hs => fun s' r r' hs' h => by
    obtain ⟨hw, hi⟩ := describe_words repr _ s' r r' hs hs' (by simp only [Sub.word]; decide) h
    cases s' with
    | fileContent n' =>
      simp only [Sub.Readable] at hs hs'
      simp only [Sub.inner] at hi
      obtain ⟨e1, e2⟩ := comma_split repr ')' [] (by decide) n n' r r' (describe_delimitedAll repr n hs) hs hs' (.inr ⟨by decide, by decide⟩) hi
      exact ⟨by rw [e1], e2⟩
    | _ => first
      | (simp only [Sub.word] at hw; exact absurd hw (by decide))
      | (simp only [Sub.Readable] at hs')
  | .pathJoin n, hs => fun s' r r' hs' h => by
    obtain ⟨hw, hi⟩ := describe_words repr _ s' r r' hs hs' (by simp only [Sub.word]; decide) h
    cases s' with
    | pathJoin n' =>
      simp only [Sub.Readable] at hs hs'
      simp only [Sub.inner, List.cons_append, List.cons.injEq, true_and, List.append_assoc, List.nil_append] at hi
      obtain ⟨e1, e2⟩ := plus_split repr '\'' [')'] (by decide) n n' r r' (describe_delimitedAll repr n hs.2) hs.2 hs'.2 (.inl ⟨hs.1, hs'.1⟩) hi
      exact ⟨by rw [e1], e2⟩
    | _ => first
      | (simp only [Sub.word] at hw; exact absurd hw (by decide))
      | (simp only [Sub.Readable] at hs')
  | .localVar n, hs => fun s' r r' hs' h => by
    obtain ⟨hw, hi⟩ := describe_words repr _ s' r r' hs hs' (by simp only [Sub.word]; decide) h
    cases s' with
    | localVar n' =>
      simp only [Sub.Readable] at hs hs'
      simp only [Sub.inner, List.cons_append, List.cons.injEq, true_and, List.append_assoc, List.nil_append] at hi
      obtain ⟨e1, e2⟩ := quote_split hi hs hs'
      exact ⟨by rw [String.toList_inj.1 e1], by simpa using e2⟩
    | _ => first
      | (simp only [Sub.word] at hw; exact absurd hw (by decide))
      | (simp only [Sub.Readable] at hs')
  | .pyExpr n m, hs => fun s' r r' hs' h => by
    obtain ⟨hw, hi⟩ := describe_words repr _ s' r r' hs hs' (by simp only [Sub.word]; decide) h
    cases s' with
    | pyExpr n' m' =>
      simp only [Sub.Readable] at hs hs'
      simp only [Sub.inner, List.cons_append, List.append_assoc, List.nil_append] at hi
      obtain ⟨e1, e2⟩ := plus_split repr ',' [' ', '['] (by decide) n n' _ _ (describe_delimitedAll repr n hs.1) hs.1 hs'.1 (.inr ⟨by decide, by decide⟩) hi
      obtain ⟨e3, e4⟩ := comma_split repr ']' [')'] (by decide) m m' r r' (describe_delimitedAll repr m hs.2) hs.2 hs'.2 (.inr ⟨by decide, by decide⟩) e2
      exact ⟨by rw [e1, e3], e4⟩
    | _ => first
      | (simp only [Sub.word] at hw; exact absurd hw (by decide))
      | (simp only [Sub.Readable] at hs')
  | .thisLaunchFile, hs => fun s' r r' hs' h => by
    obtain ⟨hw, hi⟩ := describe_words repr _ s' r r' hs hs' (by simp only [Sub.word]; decide) h
    cases s' with
    | thisLaunchFile =>
      simp only [Sub.inner, List.nil_append, List.cons.injEq, true_and] at hi
      exact ⟨rfl, hi⟩
    | _ => first
      | (simp only [Sub.word] at hw; exact absurd hw (by decide))
      | (simp only [Sub.Readable] at hs')
  | .thisLaunchFileDir, hs => fun s' r r' hs' h => by
    obtain ⟨hw, hi⟩ := describe_words repr _ s' r r' hs hs' (by simp only [Sub.word]; decide) h
    cases s' with
    | thisLaunchFileDir =>
      simp only [Sub.inner, List.nil_append, List.cons.injEq, true_and] at hi
      exact ⟨rfl, hi⟩
    | _ => first
      | (simp only [Sub.word] at hw; exact absurd hw (by decide))
      | (simp only [Sub.Readable] at hs')
  | .launchLogDir, hs => fun s' r r' hs' h => by
    obtain ⟨hw, hi⟩ := describe_words repr _ s' r r' hs hs' (by simp only [Sub.word]; decide) h
    cases s' with
    | launchLogDir =>
      simp only [Sub.inner, List.nil_append, List.cons.injEq, true_and] at hi
      exact ⟨rfl, hi⟩
    | _ => first
      | (simp only [Sub.word] at hw; exact absurd hw (by decide))
      | (simp only [Sub.Readable] at hs')
  | .notS _, hs => absurd hs (by simp only [Sub.Readable]; exact not_false)
  | .andS _ _, hs => absurd hs (by simp only [Sub.Readable]; exact not_false)
  | .orS _ _, hs => absurd hs (by simp only [Sub.Readable]; exact not_false)
  | .anyS _, hs => absurd hs (by simp only [Sub.Readable]; exact not_false)
  | .allS _, hs => absurd hs (by simp only [Sub.Readable]; exact not_false)
  | .equals _ _, hs => absurd hs (by simp only [Sub.Readable]; exact not_false)
  | .notEquals _ _, hs => absurd hs (by simp only [Sub.Readable]; exact not_false)
  | .ifElse _ _ _, hs => absurd hs (by simp only [Sub.Readable]; exact not_false)

theorem describe_delimitedAll (repr : List Sub → List Char) : (l : List Sub) → Sub.ReadableAll l → ∀ s ∈ l, s.Delimited repr
  | [], _, _, hm => by cases hm
  | s :: l, hl, x, hm => by
    simp only [Sub.ReadableAll] at hl
    have h1 := describe_delimited repr s hl.1
    rcases List.mem_cons.1 hm with rfl | hm
    · exact h1
    · exact describe_delimitedAll repr l hl.2 x hm
end

end Verif
