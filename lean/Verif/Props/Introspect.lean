import Verif.Spec.Introspect

/-!
# C84: the description of a launch description tells everything that is in it
-/

namespace Verif

/-- A text at a depth, before the tree is drawn. -/
def renderPlain (p : Nat × List Char) : List Char := List.replicate (4 * p.1) ' ' ++ p.2

theorem render_deeper (o : List (Nat × List Char)) :
    (o.map fun p => (p.1 + 1, p.2)).map renderPlain = indentLines (o.map renderPlain) := by
  simp only [indentLines, List.map_map]
  apply List.map_congr_left
  intro p _
  simp only [Function.comp, renderPlain, show 4 * (p.1 + 1) = 4 * p.1 + 1 + 1 + 1 + 1 by omega, List.replicate_succ]
  rfl

mutual

theorem formatEnt_outline : (e : IEnt) → e.Describable → formatEnt e = .ok (e.outline.map renderPlain)
  | .logInfo _, _ => rfl
  | .emitEvent _, _ => rfl
  | .execute _ _ _ _, _ => rfl
  | .register r h, hd => by
    have := formatHandler_outline h hd
    simp only [formatEnt, this, IEnt.outline, List.map_cons, render_deeper]
    rfl
  | .action _, _ => rfl
  | .entity _, _ => rfl

theorem formatEnts_outline : (es : List IEnt) → IEnt.AllDescribable es → formatEnts es = .ok ((IEnt.outlines es).map renderPlain)
  | [], _ => rfl
  | e :: es, hd => by
    have h1 := formatEnt_outline e hd.1
    have h2 := formatEnts_outline es hd.2
    simp only [formatEnts, h1, h2, IEnt.outlines, List.map_append]

theorem formatHandler_outline : (h : IHandler) → h.Describable → formatHandler h = .ok (h.outline.map renderPlain)
  | .plain _, _ => rfl
  | .many t es, hd => by
    have := formatEnts_outline es hd.2
    simp only [formatHandler, this, IHandler.outline, List.map_cons, render_deeper]
    rfl
  | .one t e, hd => by
    have := formatEnt_outline e hd.2
    simp only [formatHandler, this, IHandler.outline, List.map_cons, render_deeper]
    rfl
  | .fails _, hd => hd.elim

end

/-- The text begins with something other than white space. -/
def Solid (t : List Char) : Prop := t.head?.any (fun c => !isSpace c) = true

mutual

theorem outline_solid : (e : IEnt) → e.Describable → ∀ p ∈ e.outline, Solid p.2
  | .logInfo m, _, p, hp => by simp only [IEnt.outline, List.mem_singleton] at hp; subst hp; rfl
  | .emitEvent m, _, p, hp => by simp only [IEnt.outline, List.mem_singleton] at hp; subst hp; rfl
  | .execute _ _ _ _, _, p, hp => by simp only [IEnt.outline, List.mem_singleton] at hp; subst hp; rfl
  | .register r h, hd, p, hp => by
    have ih := handler_solid h hd
    simp only [IEnt.outline, List.mem_cons, List.mem_map] at hp
    rcases hp with rfl | ⟨q, hq, rfl⟩
    · rfl
    · exact ih q hq
  | .action m, _, p, hp => by simp only [IEnt.outline, List.mem_singleton] at hp; subst hp; rfl
  | .entity m, _, p, hp => by simp only [IEnt.outline, List.mem_singleton] at hp; subst hp; rfl

theorem outlines_solid : (es : List IEnt) → IEnt.AllDescribable es → ∀ p ∈ IEnt.outlines es, Solid p.2
  | [], _, p, hp => by cases hp
  | e :: es, hd, p, hp => by
    have h1 := outline_solid e hd.1
    have h2 := outlines_solid es hd.2
    simp only [IEnt.outlines, List.mem_append] at hp
    rcases hp with hp | hp
    · exact h1 p hp
    · exact h2 p hp

theorem handler_solid : (h : IHandler) → h.Describable → ∀ p ∈ h.outline, Solid p.2
  | .plain _, _, p, hp => by simp only [IHandler.outline, List.mem_singleton] at hp; subst hp; rfl
  | .many t es, hd, p, hp => by
    have ih := outlines_solid es hd.2
    simp only [IHandler.outline, List.mem_cons, List.mem_map] at hp
    rcases hp with rfl | ⟨q, hq, rfl⟩
    · exact hd.1
    · exact ih q hq
  | .one t e, hd, p, hp => by
    have ih := outline_solid e hd.2
    simp only [IHandler.outline, List.mem_cons, List.mem_map] at hp
    rcases hp with rfl | ⟨q, hq, rfl⟩
    · exact hd.1
    · exact ih q hq
  | .fails _, hd, _, _ => hd.elim

end

/-- The indentation of a line of the tree. -/
def pad (d : Nat) : List Char := ('│' :: List.replicate (4 * d + 3) ' ').take (4 * d)

theorem pad_length (d : Nat) : (pad d).length = 4 * d := by simp [pad]; omega

theorem pad_chars (d : Nat) : ∀ c ∈ pad d, c = ' ' ∨ c = '│' := by
  intro c hc
  have := List.mem_of_mem_take hc
  simp only [List.mem_cons, List.mem_replicate] at this
  rcases this with h | ⟨_, h⟩
  · exact .inr h
  · exact .inl h

theorem leading_spaces (n : Nat) (t : List Char) (h : Solid t) : leading (List.replicate n ' ' ++ t) = n := by
  have hd : (List.replicate n ' ' ++ t).dropWhile isSpace = t := by
    induction n with
    | zero =>
      cases t with
      | nil => rfl
      | cons c t =>
        have hc : isSpace c = false := by simpa [Solid] using h
        simp [hc]
    | succ n ih =>
      rw [List.replicate_succ, List.cons_append, List.dropWhile_cons, if_pos (by decide)]
      exact ih
  simp [leading, hd]

theorem replaceCorner_pad (p r : List Char) (h : ∀ c ∈ p, c = ' ' ∨ c = '│') : replaceCorner (p ++ '└' :: r) = p ++ '├' :: r := by
  induction p with
  | nil => simp [replaceCorner]
  | cons c p ih =>
    have hc : c ≠ '└' := by rcases h c List.mem_cons_self with rfl | rfl <;> decide
    simp only [List.cons_append, replaceCorner, if_neg hc, ih (fun x hx => h x (List.mem_cons_of_mem _ hx))]

/-- The tree, line by line. -/
def drawn : List (Nat × List Char) → List (List Char)
  | [] => []
  | (d, t) :: o => (pad d ++ branch d (o.head?.map (·.1)) ++ t) :: drawn o

theorem drawn_shows (o : List (Nat × List Char)) : Shows (drawn o) o := by
  induction o with
  | nil => exact .nil
  | cons p o ih => exact .cons (pad_length p.1) (pad_chars p.1) ih

theorem line_drawn (d : Nat) (t : List Char) (h : Solid t) :
    "    ".toList.isPrefixOf ("    ".toList ++ renderPlain (d, t)) = true ∧ leading ("    ".toList ++ renderPlain (d, t)) = 4 * (d + 1) ∧
    ('│' :: ("    ".toList ++ renderPlain (d, t)).drop 1).take (4 * (d + 1) - 4) = pad d ∧
    ('│' :: ("    ".toList ++ renderPlain (d, t)).drop 1).drop (4 * (d + 1)) = t := by
  have he : "    ".toList ++ renderPlain (d, t) = List.replicate (4 * (d + 1)) ' ' ++ t := by
    simp only [renderPlain, show 4 * (d + 1) = 4 * d + 1 + 1 + 1 + 1 by omega, List.replicate_succ]
    rfl
  have hr : ('│' :: ("    ".toList ++ renderPlain (d, t)).drop 1) = ('│' :: List.replicate (4 * d + 3) ' ') ++ t := by
    rw [he, show 4 * (d + 1) = (4 * d + 3) + 1 by omega, List.replicate_succ]
    rfl
  refine ⟨by simp [List.isPrefixOf], by rw [he, leading_spaces _ _ h], ?_, ?_⟩
  · rw [hr, show 4 * (d + 1) - 4 = 4 * d by omega, List.take_append_of_le_length (by simp; omega)]
    rfl
  · rw [hr, List.drop_append_of_le_length (by simp; omega)]
    simp [show 4 * (d + 1) = 4 * d + 3 + 1 by omega]

theorem modifyLast_concat (f : List Char → List Char) (l : List (List Char)) (x : List Char) : modifyLast f (l ++ [x]) = l ++ [f x] := by
  simp [modifyLast]

theorem treeLoop_drawn (o : List (Nat × List Char)) (ho : ∀ p ∈ o, Solid p.2) (d : Nat) (t : List Char) (res : List (List Char)) :
    treeLoop (indentLines (o.map renderPlain)) (some (4 * (d + 1))) (res ++ [pad d ++ "└── ".toList ++ t]) = res ++ drawn ((d, t) :: o) := by
  induction o generalizing d t res with
  | nil => simp [indentLines, treeLoop, drawn, branch]
  | cons p o ih =>
    obtain ⟨d', t'⟩ := p
    have hs : Solid t' := ho _ List.mem_cons_self
    obtain ⟨h1, h2, h3, h4⟩ := line_drawn d' t' hs
    have ih := ih (fun p hp => ho p (List.mem_cons_of_mem _ hp))
    simp only [indentLines, List.map_cons] at ih ⊢
    rw [treeLoop, if_pos h1]
    simp only [h2, h3, h4]
    have hc : ((res ++ [pad d ++ "└── ".toList ++ t]).getLast?.getD []).contains '└' = true := by
      simp [List.getLast?_append]
    rw [hc, Bool.true_and]
    have hle : (4 * (d + 1) ≤ 4 * (d' + 1)) ↔ d ≤ d' := by omega
    by_cases hd : d ≤ d'
    · rw [if_pos (by simpa using hle.2 hd), modifyLast_concat]
      have hrep : replaceCorner (pad d ++ "└── ".toList ++ t) = pad d ++ "├── ".toList ++ t := by
        rw [List.append_assoc, List.append_assoc]
        exact replaceCorner_pad (pad d) ("── ".toList ++ t) (pad_chars d)
      rw [hrep, ih d' t']
      simp [drawn, branch, hd]
    · rw [if_neg (by simpa using fun h => hd (hle.1 h)), ih d' t']
      simp [drawn, branch, hd]

theorem treeLoop_start (o : List (Nat × List Char)) (ho : ∀ p ∈ o, Solid p.2) : treeLoop (indentLines (o.map renderPlain)) none [] = drawn o := by
  cases o with
  | nil => rfl
  | cons p o =>
    obtain ⟨d, t⟩ := p
    obtain ⟨h1, h2, h3, h4⟩ := line_drawn d t (ho _ List.mem_cons_self)
    have := treeLoop_drawn o (fun p hp => ho p (List.mem_cons_of_mem _ hp)) d t []
    simp only [indentLines, List.map_cons] at this ⊢
    rw [treeLoop, if_pos h1]
    simp only [h2, h3, h4]
    exact this

theorem shows_last {ls : List (List Char)} {o : List (Nat × List Char)} (h : Shows ls o) (l : List Char) (hl : ls.getLast? = some l)
    (hh : l.head? = some '│') : Shows (modifyLast (fun l => ' ' :: l.drop 1) ls) o := by
  induction h with
  | nil => cases hl
  | @cons pad text d ls o h1 h2 h3 ih =>
    cases ls with
    | nil =>
      simp only [List.getLast?_singleton, Option.some.injEq] at hl
      subst hl
      cases pad with
      | nil =>
        exfalso
        unfold branch at hh
        split at hh
        · split at hh <;> simp at hh
        · simp at hh
      | cons c pad =>
        have hmod : modifyLast (fun l => ' ' :: l.drop 1) [(c :: pad) ++ branch d (o.head?.map (·.1)) ++ text] =
            [(' ' :: pad) ++ branch d (o.head?.map (·.1)) ++ text] := rfl
        rw [hmod]
        refine .cons (by simpa using h1) ?_ h3
        intro x hx
        rcases List.mem_cons.1 hx with rfl | hx
        · exact .inl rfl
        · exact h2 x (List.mem_cons_of_mem _ hx)
    | cons l2 ls =>
      have ih := ih (by simpa [List.getLast?_cons] using hl)
      have hmod : modifyLast (fun l => ' ' :: l.drop 1) ((pad ++ branch d (o.head?.map (·.1)) ++ text) :: l2 :: ls) =
          (pad ++ branch d (o.head?.map (·.1)) ++ text) :: modifyLast (fun l => ' ' :: l.drop 1) (l2 :: ls) := by
        simp [modifyLast, List.getLast?_cons]
      rw [hmod]
      exact .cons h1 h2 ih

/-- C84: the description of a non-empty launch description shows every action, and below each event handler the actions it describes, in order and at
their depths. -/
theorem C84_shows_partial (repr : List Char) (es : List IEnt) (hne : es ≠ []) (hd : IEnt.AllDescribable es) :
    ∃ ls, formatDescription repr es = .ok (repr ++ ['\n'] ++ ['\n'].intercalate ls) ∧ Shows ls (IEnt.outlines es) := by
  have h1 := formatEnts_outline es hd
  have h2 := treeLoop_start _ (outlines_solid es hd)
  have hne' : IEnt.outlines es ≠ [] := by
    cases es with
    | nil => exact absurd rfl hne
    | cons e es => cases e <;> simp [IEnt.outlines, IEnt.outline]
  have hlast : ∃ l, (drawn (IEnt.outlines es)).getLast? = some l := by
    cases hl : (drawn (IEnt.outlines es)).getLast? with
    | none =>
      rw [List.getLast?_eq_none_iff] at hl
      cases ho : IEnt.outlines es with
      | nil => exact absurd ho hne'
      | cons p o => rw [ho] at hl; simp [drawn] at hl
    | some l => exact ⟨l, rfl⟩
  obtain ⟨l, hl⟩ := hlast
  simp only [formatDescription, describeLines, h1, treeLike, h2, hl]
  refine ⟨_, rfl, ?_⟩
  split
  · rename_i hh
    exact shows_last (drawn_shows _) l hl hh
  · exact drawn_shows _

/-- What it means to be shown: there is one line for each text, which is the text after four drawing characters per level. -/
theorem C84_one_line_each (ls : List (List Char)) (o : List (Nat × List Char)) (h : Shows ls o) :
    ls.length = o.length ∧ ∀ (i d : Nat) (t : List Char), o[i]? = some (d, t) →
      ∃ pre, ls[i]? = some (pre ++ t) ∧ pre.length = 4 * (d + 1) ∧ ∀ c ∈ pre, c ∈ " │├└─".toList := by
  induction h with
  | nil => exact ⟨rfl, fun i d t h => by simp at h⟩
  | @cons pad text d ls o h1 h2 h3 ih =>
    refine ⟨by simp [ih.1], ?_⟩
    intro i d' t' hi
    cases i with
    | succ i => exact ih.2 i d' t' (by simpa using hi)
    | zero =>
      simp only [List.getElem?_cons_zero, Option.some.injEq, Prod.mk.injEq] at hi
      obtain ⟨rfl, rfl⟩ := hi
      have hb : ∃ c, (c = '├' ∨ c = '└') ∧ branch d (o.head?.map (·.1)) = [c, '─', '─', ' '] := by
        unfold branch
        split
        · split
          · exact ⟨_, .inl rfl, rfl⟩
          · exact ⟨_, .inr rfl, rfl⟩
        · exact ⟨_, .inr rfl, rfl⟩
      obtain ⟨c, hc, hb⟩ := hb
      refine ⟨_, by simp only [List.getElem?_cons_zero]; rfl, by rw [hb]; simp [h1]; omega, ?_⟩
      intro x hx
      rw [hb] at hx
      simp only [List.mem_append, List.mem_cons, List.not_mem_nil, or_false] at hx
      rcases hx with hx | hx
      · rcases h2 x hx with rfl | rfl <;> decide
      · rcases hx with rfl | rfl | rfl | rfl
        · rcases hc with rfl | rfl <;> decide
        all_goals decide

theorem comma_cons (a b : List Char) (l : List (List Char)) : ", ".toList.intercalate (a :: b :: l) = a ++ ',' :: ' ' :: ", ".toList.intercalate (b :: l) := by
  simp [List.intercalate]

theorem first_part {c : Char} {a b : List Char} {r s : List Char} (ha : c ∉ a) (hb : c ∉ b) (h : a ++ c :: r = b ++ c :: s) : a = b ∧ r = s := by
  induction a generalizing b with
  | nil =>
    cases b with
    | nil => simpa using h
    | cons y b => simp only [List.nil_append, List.cons_append, List.cons.injEq] at h; exact absurd (h.1 ▸ List.mem_cons_self) hb
  | cons x a ih =>
    cases b with
    | nil => simp only [List.nil_append, List.cons_append, List.cons.injEq] at h; exact absurd (h.1 ▸ List.mem_cons_self) ha
    | cons y b =>
      simp only [List.cons_append, List.cons.injEq] at h
      obtain ⟨h1, h2⟩ := ih (fun hm => ha (List.mem_cons_of_mem _ hm)) (fun hm => hb (List.mem_cons_of_mem _ hm)) h.2
      exact ⟨by rw [h.1, h1], h2⟩

theorem commas_inj : ∀ (a b : List (List Char)), (∀ x ∈ a, ',' ∉ x ∧ x ≠ []) → (∀ x ∈ b, ',' ∉ x ∧ x ≠ []) →
    ", ".toList.intercalate a = ", ".toList.intercalate b → a = b
  | [], [], _, _, _ => rfl
  | [], [y], _, hb, h => absurd (by simpa [List.intercalate] using h.symm) (hb y List.mem_cons_self).2
  | [], y :: z :: b, _, _, h => by rw [comma_cons] at h; simp [List.intercalate] at h
  | [x], [], ha, _, h => absurd (by simpa [List.intercalate] using h) (ha x List.mem_cons_self).2
  | x :: z :: a, [], _, _, h => by rw [comma_cons] at h; simp [List.intercalate] at h
  | [x], [y], _, _, h => by simpa [List.intercalate] using h
  | [x], y :: z :: b, ha, _, h => by
    rw [comma_cons] at h
    have : ',' ∈ x := by
      have hx : x = y ++ ',' :: ' ' :: ", ".toList.intercalate (z :: b) := by simpa [List.intercalate] using h
      rw [hx]; simp
    exact absurd this (ha x List.mem_cons_self).1
  | x :: z :: a, [y], _, hb, h => by
    rw [comma_cons] at h
    have : ',' ∈ y := by
      have hx : x ++ ',' :: ' ' :: ", ".toList.intercalate (z :: a) = y := by simpa [List.intercalate] using h
      rw [← hx]; simp
    exact absurd this (hb y List.mem_cons_self).1
  | x :: x' :: a, y :: y' :: b, ha, hb, h => by
    rw [comma_cons, comma_cons] at h
    obtain ⟨h1, h2⟩ := first_part (ha x List.mem_cons_self).1 (hb y List.mem_cons_self).1 h
    simp only [List.cons.injEq, true_and] at h2
    have := commas_inj (x' :: a) (y' :: b) (fun z hz => ha z (List.mem_cons_of_mem _ hz)) (fun z hz => hb z (List.mem_cons_of_mem _ hz)) h2
    rw [h1, this]

/-- C84: the arguments of an ExecuteProcess can be read off its text, if none of their descriptions is empty or contains a comma or a closing bracket. -/
theorem C84_arguments (cmd cmd' : List (List (List Char))) (cwd cwd' : Option (List (List Char))) (env env' : Option (List (List (List Char) × List (List Char))))
    (shell shell' : Bool) (h : formatExecute cmd cwd env shell = formatExecute cmd' cwd' env' shell')
    (h1 : ∀ x ∈ cmd.map " + ".toList.intercalate, ',' ∉ x ∧ ']' ∉ x ∧ x ≠ []) (h2 : ∀ x ∈ cmd'.map " + ".toList.intercalate, ',' ∉ x ∧ ']' ∉ x ∧ x ≠ []) :
    cmd.map " + ".toList.intercalate = cmd'.map " + ".toList.intercalate := by
  change ∀ x ∈ cmd.map formatSubs, _ at h1
  change ∀ x ∈ cmd'.map formatSubs, _ at h2
  change cmd.map formatSubs = cmd'.map formatSubs
  have key : ∀ l : List (List Char), (∀ x ∈ l, ',' ∉ x ∧ ']' ∉ x ∧ x ≠ []) → ']' ∉ ", ".toList.intercalate l := by
    intro l hl
    induction l with
    | nil => simp [List.intercalate]
    | cons x l ih =>
      have ih := ih (fun y hy => hl y (List.mem_cons_of_mem _ hy))
      cases l with
      | nil => simpa [List.intercalate] using (hl x List.mem_cons_self).2.1
      | cons y l =>
        rw [comma_cons]
        intro hm
        rcases List.mem_append.1 hm with hm | hm
        · exact (hl x List.mem_cons_self).2.1 hm
        · simp only [List.mem_cons] at hm
          rcases hm with hm | hm | hm
          · exact absurd hm (by decide)
          · exact absurd hm (by decide)
          · exact ih hm
  refine commas_inj _ _ (fun x hx => ⟨(h1 x hx).1, (h1 x hx).2.2⟩) (fun x hx => ⟨(h2 x hx).1, (h2 x hx).2.2⟩) ?_
  unfold formatExecute at h
  simp only [List.append_assoc] at h
  have h3 := List.append_cancel_left h
  rw [show "], cwd=".toList = ']' :: ", cwd=".toList from rfl] at h3
  simp only [List.cons_append] at h3
  exact (first_part (key _ h1) (key _ h2) h3).1

example : formatExecute [["'ls'".toList], ["'-l'".toList, "'a'".toList]] none none false =
    "ExecuteProcess(cmd=['ls', '-l' + 'a'], cwd=None, env=None, shell=False)".toList := by decide +kernel

/-- C84 fails for the empty launch description: IndexError. -/
theorem C84_empty_violated (repr : List Char) : formatDescription repr [] = .error .indexError := rfl

/-- C84 fails for an EventHandler whose `entities` is a single entity, as its documentation allows: TypeError. (OnIncludeLaunchDescription is
one.) The same exception comes out of `describe_conditional_sub_entities` of the action that registers it. -/
theorem C84_single_entity_violated (repr r : List Char) (x : Nat) (es : List IEnt) :
    ∃ e, (HandlerEntities.single x).described = .error e ∧ formatDescription repr (.register r (.fails e) :: es) = .error .typeError :=
  ⟨.typeError, rfl, rfl⟩

/-- A handler with two actions below it, and another action. -/
example : IEnt.AllDescribable [.register "r".toList (.many "OnProcessExit".toList [.logInfo ["'a'".toList], .action "b".toList]), .emitEvent "e".toList] ∧
    (describeLines [.register "r".toList (.many "OnProcessExit".toList [.logInfo ["'a'".toList], .action "b".toList]), .emitEvent "e".toList] |>.toOption) =
      some ["├── RegisterEventHandler('r'):".toList, "│   ├── OnProcessExit".toList, "│       ├── LogInfo('a')".toList,
        "│       └── Action('b')".toList, "└── EmitEvent(event='e')".toList] := by
  refine ⟨?_, ?_⟩
  · simp [IEnt.AllDescribable, IEnt.Describable, IHandler.Describable, isSpace]
  · decide +kernel

end Verif
