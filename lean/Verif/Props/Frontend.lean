import Verif.Spec.Frontend
import Verif.Spec.Subst
import Verif.Lemmas.Parse

/-!
# Frontends (C42, C44, C45)
-/

namespace Verif

/-! ## C42 -/

/-- C42.  Escaping any set of characters that contains the backslash (and not the newline) is undone by unescaping. -/
theorem C42_round_trip (special : Char → Bool) (hb : special '\\' = true) (hn : special '\n' = false) (s : List Char) :
    unescape (escapeAll special s) = s := by
  have key : ∀ s, unescape (escapeAll special s) = s ∧
      ∀ c, c ≠ '\\' → unescape (c :: escapeAll special s) = c :: s := by
    intro s
    induction s with
    | nil => exact ⟨rfl, fun c _ => rfl⟩
    | cons x xs ih =>
      have h1 : unescape (escapeAll special (x :: xs)) = x :: xs := by
        by_cases hx : special x = true
        · have hxn : x ≠ '\n' := by rintro rfl; rw [hn] at hx; simp at hx
          simp only [escapeAll, List.flatMap_cons, hx, if_true, List.cons_append, List.nil_append, unescape]
          rw [if_pos ⟨trivial, hxn⟩]
          rw [show List.flatMap _ xs = escapeAll special xs from rfl, ih.1]
        · have hxb : x ≠ '\\' := by rintro rfl; exact hx hb
          simp only [escapeAll, List.flatMap_cons, hx]
          exact ih.2 x hxb
      refine ⟨h1, fun c hc => ?_⟩
      by_cases hx : special x = true
      · have e : escapeAll special (x :: xs) = '\\' :: x :: escapeAll special xs := by simp [escapeAll, hx]
        rw [e] at h1 ⊢
        rw [unescape, if_neg (by simp [hc]), h1]
      · have e : escapeAll special (x :: xs) = x :: escapeAll special xs := by simp [escapeAll, hx]
        rw [e] at h1 ⊢
        rw [unescape, if_neg (by simp [hc]), h1]
  exact (key s).1

/-- C42.  Text without backslashes is left alone. -/
theorem C42_identity (s : List Char) (h : '\\' ∉ s) : unescape s = s := by
  fun_induction unescape s with
  | case1 => rfl
  | case2 => rfl
  | case3 c d cs hc _ => exact absurd hc.1 (by rintro rfl; simp at h)
  | case4 c d cs _ ih => rw [ih (by intro h'; exact h (by simp at h' ⊢; right; exact h'))]

/-- C42.  Exactly the backslashes that are followed by a character of the same line are removed: a text is left alone iff it has none of these. -/
theorem C42_fixed_iff (s : List Char) : unescape s = s ↔ ¬ ∃ a c b, s = a ++ '\\' :: c :: b ∧ c ≠ '\n' := by
  have len : ∀ s, (unescape s).length ≤ s.length := by
    intro s
    fun_induction unescape s with
    | case1 => simp
    | case2 => simp
    | case3 c d cs _ ih => simp; omega
    | case4 c d cs _ ih => simp at ih ⊢; omega
  constructor
  · intro h
    rintro ⟨a, c, b, rfl, hc⟩
    have : ∀ a : List Char, (unescape (a ++ '\\' :: c :: b)).length < (a ++ '\\' :: c :: b).length := by
      intro a
      generalize hs : a ++ '\\' :: c :: b = s
      fun_induction unescape s generalizing a with
      | case1 => cases a <;> simp at hs
      | case2 x =>
        rcases a with _ | ⟨y, _ | ⟨z, a⟩⟩ <;> simp at hs
      | case3 x y cs _ _ =>
        have := len cs
        simp; omega
      | case4 x y cs hx ih =>
        cases a with
        | nil =>
          simp at hs
          obtain ⟨rfl, rfl, rfl⟩ := hs
          exact absurd ⟨rfl, hc⟩ hx
        | cons z a =>
          simp at hs
          have := ih a hs.2
          simp at this ⊢; omega
    have := this a
    rw [h] at this
    omega
  · intro h
    fun_induction unescape s with
    | case1 => rfl
    | case2 => rfl
    | case3 c d cs hc _ =>
      obtain ⟨rfl, hd⟩ := hc
      exact absurd ⟨[], d, cs, rfl, hd⟩ h
    | case4 c d cs _ ih =>
      rw [ih]
      rintro ⟨a, x, b, e, hx⟩
      exact h ⟨c :: a, x, b, by simp [e], hx⟩

example : unescape "a\\$b\\\\n".toList = "a$b\\n".toList := by decide +kernel

/-- A backslash at the end of the text or of a line stays. -/
example : unescape "a\\\n\\".toList = "a\\\n\\".toList := by decide +kernel

/-! ## C45 -/

theorem tryAll_seekable {α : Type} (f : TextFile) (hs : f.seekable = true) (hp : f.pos = 0) (es : List Err) (ps : List (Impl α)) :
    (∀ a, (∃ f', tryAll f es ps = (f', .inr (.ok a))) ↔ ∃ errs, FirstAccepting f.rest ps errs a) ∧
    (∀ f' errs, tryAll f es ps = (f', .inl errs) → f' = f ∧ ∃ l, errs = es ++ l ∧ Each2 (fun (p : Impl α) e => (p.load f.rest).2 = .error e) ps l) ∧
    (∀ f', tryAll f es ps ≠ (f', .inr .seekFailed)) ∧ (∀ f' l x, tryAll f es ps ≠ (f', .inr (.invalid l x))) := by
  induction ps generalizing es with
  | nil =>
    refine ⟨fun a => ⟨?_, ?_⟩, ?_, ?_, ?_⟩
    · rintro ⟨f', h⟩; simp [tryAll] at h
    · rintro ⟨errs, h⟩; cases h
    · intro f' errs h
      simp [tryAll] at h
      obtain ⟨rfl, rfl⟩ := h
      exact ⟨rfl, [], by simp, .nil⟩
    · intro f' h; simp [tryAll] at h
    · intro f' l x h; simp [tryAll] at h
  | cons p ps ih =>
    have e0 : ({ f with pos := 0 } : TextFile) = f := by cases f; simp only at hp; subst hp; rfl
    cases hl : p.load f.rest with
    | mk n r =>
      cases r with
      | ok b =>
        simp only [tryAll, hl]
        refine ⟨fun a => ⟨?_, ?_⟩, ?_, ?_, ?_⟩
        · rintro ⟨f', h⟩
          simp at h
          obtain ⟨_, rfl⟩ := h
          exact ⟨[], .here hl⟩
        · rintro ⟨errs, h⟩
          cases h with
          | here h' => rw [hl] at h'; simp at h'; rw [h'.2]; exact ⟨_, rfl⟩
          | later h' _ => rw [hl] at h'; simp at h'
        · intro f' errs h; simp at h
        · intro f' h; simp at h
        · intro f' l x h; simp at h
      | error e =>
        have hf : tryAll f es (p :: ps) = tryAll f (es ++ [e]) ps := by simp only [tryAll, hl]; rw [if_pos hs, e0]
        rw [hf]
        obtain ⟨i1, i2, i3, i4⟩ := ih (es ++ [e])
        refine ⟨fun a => ?_, ?_, i3, i4⟩
        · rw [i1]
          constructor
          · rintro ⟨errs, h⟩; exact ⟨e :: errs, .later hl h⟩
          · rintro ⟨errs, h⟩
            cases h with
            | here h' => rw [hl] at h'; simp at h'
            | later h' h => exact ⟨_, h⟩
        · intro f' errs h
          obtain ⟨rfl, l, rfl, h2⟩ := i2 f' errs h
          exact ⟨rfl, e :: l, by simp, .cons (by rw [hl]) h2⟩

/-- C45.  Loading from the start of a file gives the result of the first parser that accepts the whole content. -/
theorem C45_first_accepting {α : Type} (reg : List (Impl α)) (f : TextFile) (hs : f.seekable = true) (hp : f.pos = 0) (a : α) :
    (loadFile reg f).2 = .ok a ↔ ∃ errs, FirstAccepting (String.ofList f.content) (implementations reg f.name) errs a := by
  have hr : f.rest = String.ofList f.content := by simp [TextFile.rest, hp]
  obtain ⟨h1, h2, h3, h4⟩ := tryAll_seekable f hs hp [] (implementations reg f.name)
  rw [← hr, ← h1]
  unfold loadFile
  cases h : tryAll f [] (implementations reg f.name) with
  | mk f' r =>
    cases r with
    | inl errs => simp
    | inr r => simp

/-- C45.  If no parser accepts the content, InvalidFrontendLaunchFileError is raised with the error of every registered parser, in the order they were tried. -/
theorem C45_none_accepts {α : Type} (reg : List (Impl α)) (f : TextFile) (hs : f.seekable = true) (hp : f.pos = 0)
    (h : ∀ p ∈ implementations reg f.name, ∃ e, (p.load (String.ofList f.content)).2 = .error e) :
    ∃ errs ext, (loadFile reg f).2 = .invalid errs ext ∧
      Each2 (fun (p : Impl α) e => (p.load (String.ofList f.content)).2 = .error e) (implementations reg f.name) errs := by
  have hr : f.rest = String.ofList f.content := by simp [TextFile.rest, hp]
  obtain ⟨h1, h2, h3, h4⟩ := tryAll_seekable f hs hp [] (implementations reg f.name)
  rw [hr] at h1 h2
  have hno : ∀ ps : List (Impl α), (∀ p ∈ ps, ∃ e, (p.load (String.ofList f.content)).2 = .error e) → ∀ errs a, ¬ FirstAccepting (String.ofList f.content) ps errs a := by
    intro ps hps errs a ha
    induction ha with
    | here h' =>
      obtain ⟨e, he⟩ := hps _ (List.mem_cons_self ..)
      rw [h'] at he; simp at he
    | later _ _ ih => exact ih (fun p hp => hps p (by simp [hp]))
  unfold loadFile
  cases ht : tryAll f [] (implementations reg f.name) with
  | mk f' r =>
    cases r with
    | inl errs =>
      obtain ⟨_, l, rfl, hl⟩ := h2 f' errs ht
      exact ⟨_, _, rfl, by simpa using hl⟩
    | inr r =>
      cases r with
      | ok a =>
        obtain ⟨errs, ha⟩ := (h1 a).mp ⟨f', ht⟩
        exact absurd ha (hno _ h errs a)
      | invalid l x => exact absurd ht (h4 f' l x)
      | seekFailed => exact absurd ht (h3 f')

/-- C45.  The parsers tried are the registered ones: first those that know an extension the file name ends with, then all others, each group in the order of the registry. -/
theorem C45_order {α : Type} (reg : List (Impl α)) (hcls : (reg.map (·.cls)).Nodup) (name : String) :
    ∃ others, implementations reg name = reg.filter (·.mayParse name) ++ others ∧ others = reg.filter (fun p => !p.mayParse name) ∧
      ∀ p, p ∈ implementations reg name ↔ p ∈ reg := by
  refine ⟨_, rfl, ?_, ?_⟩
  · apply List.filter_congr
    intro p hp
    congr 1
    rw [Bool.eq_iff_iff, List.contains_iff_mem]
    simp only [List.mem_map, List.mem_filter]
    constructor
    · rintro ⟨q, ⟨hq, hm⟩, hc⟩
      have : p = q := by
        clear hm
        induction reg with
        | nil => simp at hp
        | cons x xs ih =>
          simp at hcls
          rcases List.mem_cons.mp hp with rfl | hp' <;> rcases List.mem_cons.mp hq with rfl | hq'
          · rfl
          · exact absurd hc.symm (fun h => hcls.1 q hq' h.symm)
          · exact absurd hc.symm (fun h => hcls.1 p hp' h)
          · exact ih hcls.2 hp' hq'
      rw [this]; exact hm
    · intro hm
      exact ⟨p, ⟨hp, hm⟩, rfl⟩
  · intro p
    simp only [implementations, List.mem_append, List.mem_filter]
    constructor
    · rintro (⟨h, _⟩ | ⟨h, _⟩) <;> exact h
    · intro h
      by_cases hm : p.mayParse name = true
      · exact .inl ⟨h, hm⟩
      · by_cases hc : ((reg.filter (·.mayParse name)).map (·.cls)).contains p.cls = true
        · left
          refine ⟨h, ?_⟩
          rw [List.contains_iff_mem] at hc
          simp only [List.mem_map, List.mem_filter] at hc
          obtain ⟨q, ⟨hq, hmq⟩, hcq⟩ := hc
          have : p = q := by
            clear hmq hm
            induction reg with
            | nil => simp at h
            | cons x xs ih =>
              simp at hcls
              rcases List.mem_cons.mp h with rfl | hp' <;> rcases List.mem_cons.mp hq with rfl | hq'
              · rfl
              · exact absurd hcq.symm (fun h => hcls.1 q hq' h.symm)
              · exact absurd hcq.symm (fun h => hcls.1 p hp' h)
              · exact ih hcls.2 hp' hq'
          rw [this]; exact hmq
        · exact .inr ⟨h, by rw [Bool.not_eq_true] at hc; rw [hc]; rfl⟩

/-- Two parsers, as installed with launch_xml and launch_yaml. -/
def sampleRegistry : List (Impl String) :=
  [{ cls := 0, exts := ["launch.xml", "xml", "launch"], load := fun s => (s.length, if s.toList.head? = some '<' then .ok "xml" else .error .valueError) },
   { cls := 1, exts := ["launch.yaml", "yaml", "launch"], load := fun s => (s.length, if s.toList.head? = some 'l' then .ok "yaml" else .error .runtimeError) }]

example : (implementations sampleRegistry "a.launch.yaml").map (·.cls) = [1, 0] ∧ (implementations sampleRegistry "a.launch").map (·.cls) = [0, 1] := by
  decide +kernel

example : (loadFile sampleRegistry { content := "launch: []".toList, name := "a.launch" }).2 = .ok "yaml" ∧
    (loadFile sampleRegistry { content := "?".toList, name := "a.launch" }).2 = .invalid [.valueError, .runtimeError] "launch" := ⟨rfl, rfl⟩

/-- C45 is violated by open files that are not at their start: the first parser gets the rest of the text, the others get the whole text, so a text that a
registered parser accepts may be rejected. -/
theorem C45_offset_violated : ∃ (f : TextFile) (p : Impl String), f.seekable = true ∧ f.pos ≠ 0 ∧ p ∈ implementations sampleRegistry f.name ∧
    (p.load f.rest).2 = .ok "xml" ∧ (loadFile sampleRegistry f).2 = .invalid [.runtimeError, .valueError] "yaml" :=
  ⟨{ content := "?<".toList, pos := 1, name := "a.launch.yaml" }, sampleRegistry[0], rfl, by decide, ((C45_order sampleRegistry (by decide) _).choose_spec.2.2 _).mpr (by simp [sampleRegistry]), rfl, rfl⟩

/-- C45 is violated by files that cannot be rewound: the failure of the first parser is not followed by the next one, and its error is lost. -/
theorem C45_not_seekable_violated {α : Type} (p : Impl α) (ps : List (Impl α)) (reg : List (Impl α)) (f : TextFile)
    (hr : implementations reg f.name = p :: ps) (hs : f.seekable = false) (n : Nat) (e : Err) (hl : p.load f.rest = (n, .error e)) :
    (loadFile reg f).2 = .seekFailed := by
  simp [loadFile, hr, tryAll, hl, hs]

/-! ## C44 -/

theorem Access.run_xml_sound (O : Oracle) (x : Xml) (r : Reads) (s : Access) :
    (∀ a ∈ (s.run O (.xml x) r).1.attrs, a ∈ r.attrs ∨ AttrRead x [s] a) ∧
    (∀ t ∈ (s.run O (.xml x) r).1.tags, t ∈ r.tags ∨ TagRead [s] t) := by
  cases s with
  | children =>
    simp only [Access.run, Ent.children, xmlChildren]
    exact ⟨fun a ha => .inl ha, fun t _ => .inr (.inl (by simp))⟩
  | attr n ty o c =>
    have e1 : (Access.run O (.xml x) r (.attr n ty o c)).1 = (xmlGetAttr O x r n ty o c).1 := by
      simp only [Access.run, Ent.getAttr]; split <;> simp_all
    rw [e1]
    unfold xmlGetAttr
    cases ty with
    | entities =>
      dsimp only
      split
      · exact ⟨fun a ha => .inl ha, fun a ha => .inl ha⟩
      · refine ⟨fun a ha => .inl ha, fun a ha => ?_⟩
        rcases List.mem_cons.mp ha with rfl | ha
        · exact .inr (.inr ⟨o, c, by simp⟩)
        · exact .inl ha
    | value ty =>
      dsimp only
      split
      · exact ⟨fun a ha => .inl ha, fun a ha => .inl ha⟩
      · rename_i text ht
        have hk : n ∈ x.attrs.keys := Dict.mem_keys_of_get? ht
        split
        · refine ⟨fun a ha => ?_, fun a ha => .inl ha⟩
          rcases List.mem_cons.mp ha with rfl | ha
          · exact .inr ⟨_, ty, o, c, by simp, hk, .inl rfl⟩
          · exact .inl ha
        · split
          · refine ⟨fun a ha => ?_, fun a ha => .inl ha⟩
            rcases List.mem_cons.mp ha with rfl | ha
            · exact .inr ⟨_, ty, o, c, by simp, hk, .inr rfl⟩
            · exact .inl ha
          · refine ⟨fun a ha => ?_, fun a ha => .inl ha⟩
            rcases List.mem_cons.mp ha with rfl | ha
            · exact .inr ⟨_, ty, o, c, by simp, hk, .inl rfl⟩
            rcases List.mem_cons.mp ha with rfl | ha
            · exact .inr ⟨_, ty, o, c, by simp, hk, .inr rfl⟩
            · exact .inl ha

theorem Access.run_xml_complete (O : Oracle) (x : Xml) (r : Reads) (s : Access) :
    (∀ a ∈ r.attrs, a ∈ (s.run O (.xml x) r).1.attrs) ∧
    (∀ t ∈ r.tags, t ∈ x.nested.map Xml.tag → t ∈ (s.run O (.xml x) r).1.tags) ∧
    (∀ a ∈ x.attrs.keys, AttrRead x [s] a → (s.run O (.xml x) r).2 = none → a ∈ (s.run O (.xml x) r).1.attrs) ∧
    (∀ t ∈ x.nested.map Xml.tag, TagRead [s] t → t ∈ (s.run O (.xml x) r).1.tags) := by
  cases s with
  | children =>
    simp only [Access.run, Ent.children, xmlChildren]
    refine ⟨fun a ha => ha, fun t _ ht => ht, fun a _ ha _ => ?_, fun t ht _ => ht⟩
    obtain ⟨n, ty, o, c, hm, _⟩ := ha
    simp at hm
  | attr n ty o c =>
    have e1 : (Access.run O (.xml x) r (.attr n ty o c)).1 = (xmlGetAttr O x r n ty o c).1 := by
      simp only [Access.run, Ent.getAttr]; split <;> simp_all
    have e2 : (Access.run O (.xml x) r (.attr n ty o c)).2 = none → ∃ v, (xmlGetAttr O x r n ty o c).2 = .ok v := by
      simp only [Access.run, Ent.getAttr]; split <;> simp_all
    rw [e1]
    cases ty with
    | entities =>
      unfold xmlGetAttr
      dsimp only
      split
      · rename_i hl
        refine ⟨fun a ha => ha, fun t ht _ => ht, fun a _ ha _ => ?_, fun t ht h => ?_⟩
        · obtain ⟨_, _, _, _, hm, _⟩ := ha; simp at hm
        · rcases h with h | ⟨_, _, h⟩
          · simp at h
          · simp at h
            obtain ⟨rfl, _⟩ := h
            obtain ⟨y, hy, rfl⟩ := List.mem_map.mp ht
            have : y ∈ ([] : List Xml) := by rw [← hl]; simp [hy]
            simp at this
      · refine ⟨fun a ha => ha, fun t ht _ => List.mem_cons_of_mem _ ht, fun a _ ha _ => ?_, fun t ht h => ?_⟩
        · obtain ⟨_, _, _, _, hm, _⟩ := ha; simp at hm
        · rcases h with h | ⟨_, _, h⟩
          · simp at h
          · simp at h
            simp [h.1]
    | value ty =>
      have ht : ∀ t, ¬ TagRead [Access.attr n (.value ty) o c] t := by rintro t (h | ⟨_, _, h⟩) <;> simp at h
      refine ⟨?_, ?_, fun a hk ha he => ?_, fun t _ h => absurd h (ht t)⟩
      · unfold xmlGetAttr
        dsimp only
        intro a ha
        split
        · exact ha
        · split
          · simp [ha]
          · split <;> simp [ha]
      · unfold xmlGetAttr
        dsimp only
        intro a ha _
        split
        · exact ha
        · split
          · exact ha
          · split <;> exact ha
      · obtain ⟨n', ty', o', c', hm, hn, hor⟩ := ha
        simp at hm
        obtain ⟨rfl, rfl, rfl, rfl⟩ := hm
        obtain ⟨v, hv⟩ := e2 he
        unfold xmlGetAttr at hv ⊢
        dsimp only at hv ⊢
        obtain ⟨text, htx⟩ := Option.isSome_iff_exists.mp (Dict.get?_isSome_iff.mpr hn)
        simp only [htx] at hv ⊢
        cases hsep : x.attrs.get? (n' ++ "-sep") with
        | none =>
          rcases hor with rfl | rfl
          · simp
          · have := Dict.get?_isSome_iff.mpr hk
            rw [hsep] at this; simp at this
        | some sep =>
          simp only [hsep] at hv ⊢
          by_cases hs : sep = ""
          · simp [hs] at hv
          · simp only [hs, if_false]
            rcases hor with rfl | rfl <;> simp

theorem AttrRead.mono {x : Xml} {as bs : List Access} {a : String} (h : AttrRead x as a) (hs : ∀ s ∈ as, s ∈ bs) : AttrRead x bs a := by
  obtain ⟨n, ty, o, c, hm, h⟩ := h
  exact ⟨n, ty, o, c, hs _ hm, h⟩

theorem TagRead.mono {as bs : List Access} {a : String} (h : TagRead as a) (hs : ∀ s ∈ as, s ∈ bs) : TagRead bs a := by
  rcases h with h | ⟨o, c, h⟩
  · exact .inl (hs _ h)
  · exact .inr ⟨o, c, hs _ h⟩

theorem AttrRead.cons_iff {x : Xml} {s : Access} {as : List Access} {a : String} : AttrRead x (s :: as) a ↔ AttrRead x [s] a ∨ AttrRead x as a := by
  constructor
  · rintro ⟨n, ty, o, c, hm, h⟩
    rcases List.mem_cons.mp hm with e | hm
    · exact .inl ⟨n, ty, o, c, by simp [e], h⟩
    · exact .inr ⟨n, ty, o, c, hm, h⟩
  · rintro (h | h) <;> exact h.mono (by simp +contextual)

theorem TagRead.cons_iff {s : Access} {as : List Access} {a : String} : TagRead (s :: as) a ↔ TagRead [s] a ∨ TagRead as a := by
  constructor
  · rintro (h | ⟨o, c, h⟩) <;> rcases List.mem_cons.mp h with e | h
    · exact .inl (.inl (by simp [e]))
    · exact .inr (.inl h)
    · exact .inl (.inr ⟨o, c, by simp [e]⟩)
    · exact .inr (.inr ⟨o, c, h⟩)
  · rintro (h | h) <;> exact h.mono (by simp +contextual)

/-- C44.  Whatever a parse method does with an XML entity: if the entity passes the check afterwards, each of its attributes and nested tags was read
(an attribute also as the separator of another one). -/
theorem C44_xml_all_read (O : Oracle) (x : Xml) (as : List Access) (h : (Ent.xml x).assertParsed (Access.runAll O (.xml x) as) = .ok ()) :
    (∀ a ∈ x.attrs.keys, AttrRead x as a) ∧ (∀ y ∈ x.nested, TagRead as y.tag) := by
  have key : ∀ (as : List Access) (r : Reads),
      (∀ a ∈ (as.foldl (fun r a => (a.run O (.xml x) r).1) r).attrs, a ∈ r.attrs ∨ AttrRead x as a) ∧
      (∀ t ∈ (as.foldl (fun r a => (a.run O (.xml x) r).1) r).tags, t ∈ r.tags ∨ TagRead as t) := by
    intro as
    induction as with
    | nil => intro r; exact ⟨fun a h => .inl h, fun a h => .inl h⟩
    | cons s as ih =>
      intro r
      obtain ⟨i1, i2⟩ := ih (s.run O (.xml x) r).1
      obtain ⟨s1, s2⟩ := Access.run_xml_sound O x r s
      refine ⟨fun a ha => ?_, fun t ht => ?_⟩
      · rcases i1 a ha with h | h
        · rcases s1 a h with h | h
          · exact .inl h
          · exact .inr (AttrRead.cons_iff.mpr (.inl h))
        · exact .inr (AttrRead.cons_iff.mpr (.inr h))
      · rcases i2 t ht with h | h
        · rcases s2 t h with h | h
          · exact .inl h
          · exact .inr (TagRead.cons_iff.mpr (.inl h))
        · exact .inr (TagRead.cons_iff.mpr (.inr h))
  obtain ⟨k1, k2⟩ := key as {}
  simp only [Ent.assertParsed, xmlAssert] at h
  split at h
  · simp at h
  · rename_i h1
    split at h
    · simp at h
    · rename_i h2
      simp at h1 h2
      refine ⟨fun a ha => ?_, fun y hy => ?_⟩
      · rcases k1 a (h2 a ha) with h | h
        · simp at h
        · exact h
      · rcases k2 _ (h1 y hy) with h | h
        · simp at h
        · exact h

/-- C44.  Conversely, an XML entity of which everything was read without exceptions passes the check. -/
theorem C44_xml_accepts (O : Oracle) (x : Xml) (as : List Access) (hok : ∀ s ∈ as, ∀ r, (s.run O (.xml x) r).2 = none)
    (ha : ∀ a ∈ x.attrs.keys, AttrRead x as a) (ht : ∀ y ∈ x.nested, TagRead as y.tag) :
    (Ent.xml x).assertParsed (Access.runAll O (.xml x) as) = .ok () := by
  have key : ∀ (as : List Access) (r : Reads), (∀ s ∈ as, ∀ r, (s.run O (.xml x) r).2 = none) →
      (∀ a ∈ x.attrs.keys, a ∈ r.attrs ∨ AttrRead x as a → a ∈ (as.foldl (fun r a => (a.run O (.xml x) r).1) r).attrs) ∧
      (∀ t ∈ x.nested.map Xml.tag, t ∈ r.tags ∨ TagRead as t → t ∈ (as.foldl (fun r a => (a.run O (.xml x) r).1) r).tags) := by
    intro as
    induction as with
    | nil =>
      intro r _
      refine ⟨fun a _ h => ?_, fun t _ h => ?_⟩
      · rcases h with h | ⟨_, _, _, _, h, _⟩
        · exact h
        · simp at h
      · rcases h with h | h | ⟨_, _, h⟩
        · exact h
        · simp at h
        · simp at h
    | cons s as ih =>
      intro r hok
      obtain ⟨i1, i2⟩ := ih (s.run O (.xml x) r).1 (fun t ht => hok t (by simp [ht]))
      obtain ⟨s1, s2, s3, s4⟩ := Access.run_xml_complete O x r s
      refine ⟨fun a hk h => i1 a hk ?_, fun t hk h => i2 t hk ?_⟩
      · rcases h with h | h
        · exact .inl (s1 a h)
        · rcases AttrRead.cons_iff.mp h with h | h
          · exact .inl (s3 a hk h (hok s (by simp) r))
          · exact .inr h
      · rcases h with h | h
        · exact .inl (s2 t h hk)
        · rcases TagRead.cons_iff.mp h with h | h
          · exact .inl (s4 t hk h)
          · exact .inr h
  obtain ⟨k1, k2⟩ := key as {} hok
  simp only [Ent.assertParsed, xmlAssert]
  rw [if_neg, if_neg]
  · simp
    exact fun a h => k1 a h (.inr (ha a h))
  · simp
    exact fun y h => k2 y.tag (List.mem_map.mpr ⟨y, h, rfl⟩) (.inr (ht y h))

/-- C44.  A YAML entity that is a mapping passes the check iff each of its keys was read, with whatever result. -/
theorem C44_yaml_iff_all_read (O : Oracle) (d : List (String × Yaml)) (t : String) (as : List Access) :
    (Ent.yaml (.dict d) t).assertParsed (Access.runAll O (.yaml (.dict d) t) as) = .ok () ↔ ∀ k ∈ Dict.keys d, KeyRead as k := by
  have step : ∀ s r k, k ∈ Dict.keys d → (k ∈ (Access.run O (.yaml (.dict d) t) r s).1.attrs ↔ k ∈ r.attrs ∨ KeyRead [s] k) := by
    intro s r k hk
    obtain ⟨v, hv⟩ := Option.isSome_iff_exists.mp (Dict.get?_isSome_iff.mpr hk)
    cases s with
    | children =>
      have e1 : (Access.run O (.yaml (.dict d) t) r .children).1 = (yamlChildren (.dict d) r).1 := by
        simp only [Access.run, Ent.children]; split <;> simp_all
      rw [e1]
      have e2 : KeyRead [Access.children] k ↔ k = "children" := by
        constructor
        · rintro (⟨_, _, _, h⟩ | h)
          · simp at h
          · exact h.1
        · rintro rfl; exact .inr ⟨rfl, by simp⟩
      rw [e2]
      unfold yamlChildren
      dsimp only
      split
      · rename_i h0
        constructor
        · exact .inl
        · rintro (h | rfl)
          · exact h
          · rw [hv] at h0; simp at h0
      · split <;> simp [or_comm]
    | attr n ty o c =>
      have e1 : (Access.run O (.yaml (.dict d) t) r (.attr n ty o c)).1 = (yamlGetAttr (.dict d) r n ty o c).1 := by
        simp only [Access.run, Ent.getAttr]; split <;> simp_all
      rw [e1]
      have e2 : KeyRead [Access.attr n ty o c] k ↔ k = n := by
        constructor
        · rintro (⟨_, _, _, h⟩ | h)
          · simp at h; exact h.1
          · simp at h
        · rintro rfl; exact .inl ⟨ty, o, c, by simp⟩
      rw [e2]
      unfold yamlGetAttr yamlLookup
      dsimp only
      cases hn : Dict.get? d n with
      | none =>
        dsimp only
        constructor
        · exact .inl
        · rintro (h | rfl)
          · exact h
          · rw [hv] at hn; simp at hn
      | some z =>
        dsimp only
        split
        · split <;> simp [or_comm]
        · simp [or_comm]
  have key : ∀ (as : List Access) (r : Reads) (k : String), k ∈ Dict.keys d →
      (k ∈ (as.foldl (fun r a => (a.run O (.yaml (.dict d) t) r).1) r).attrs ↔ k ∈ r.attrs ∨ KeyRead as k) := by
    intro as
    induction as with
    | nil => intro r k _; simp [KeyRead]
    | cons s as ih =>
      intro r k hk
      rw [List.foldl_cons, ih _ k hk, step s r k hk]
      have : KeyRead (s :: as) k ↔ KeyRead [s] k ∨ KeyRead as k := by
        unfold KeyRead
        constructor
        · rintro (⟨ty, o, c, h⟩ | ⟨hk, h⟩) <;> rcases List.mem_cons.mp h with e | h
          · exact .inl (.inl ⟨ty, o, c, by simp [e]⟩)
          · exact .inr (.inl ⟨ty, o, c, h⟩)
          · exact .inl (.inr ⟨hk, by simp [e]⟩)
          · exact .inr (.inr ⟨hk, h⟩)
        · rintro ((⟨ty, o, c, h⟩ | ⟨hk, h⟩) | (⟨ty, o, c, h⟩ | ⟨hk, h⟩))
          · simp at h; exact .inl ⟨ty, o, c, by simp [h]⟩
          · simp at h; exact .inr ⟨hk, by simp [h]⟩
          · exact .inl ⟨ty, o, c, by simp [h]⟩
          · exact .inr ⟨hk, by simp [h]⟩
      rw [this, or_assoc]
  have hif : ∀ b : Bool, ((if b = true then (.error .valueError : Res Unit) else .ok ()) = .ok () ↔ b = false) := by
    intro b; cases b <;> simp
  simp only [Ent.assertParsed, yamlAssert]
  rw [hif, List.any_eq_false]
  constructor
  · intro h k hk
    have := h k hk
    simp at this
    rcases (key as {} k hk).mp this with h | h
    · simp at h
    · exact h
  · intro h k hk
    simp
    exact (key as {} k hk).mpr (.inr (h k hk))

example (O : Oracle) : (Ent.xml (.elem "let" [("name", "a"), ("value", "b"), ("typo", "c")] [])).assertParsed
    (Access.runAll O (.xml (.elem "let" [("name", "a"), ("value", "b"), ("typo", "c")] []))
      [.attr "name" (.value (some (.scalar .str))) false true, .attr "value" (.value (some (.scalar .str))) false true]) = .error .valueError := by
  rfl

/-! ### The built-in tags -/

theorem parseBase_only {F : Front} {A T : List String} {C : Bool} (hi : "if" ∈ A) (hu : "unless" ∈ A) : Only A T C (parseBase F) :=
  .bind (.attrText? hi) fun _ => .bind (.attrText? hu) fun _ => by
    split
    · exact .raise _
    · exact .bind (.lift _) fun _ => .pure _
    · exact .bind (.lift _) fun _ => .pure _
    · exact .pure _

theorem parseKind_only {F : Front} {rec : List Ent → Res (List PAct)} {tag : String} {m : P PKind} (h : parseKind F rec tag = some m) :
    tag ∈ knownTags ∧ Only (["if", "unless"] ++ tagAttrs tag) (tagPairs tag ++ tagOthers tag) (hasActions tag) m := by
  unfold parseKind at h
  by_cases ht : tag = "let"
  · rw [if_pos ht] at h
    subst ht
    simp only [Option.some.injEq] at h
    subst h
    exact ⟨by simp [knownTags], .bind (.attrSubs (by simp [tagAttrs])) fun _ => .bind (.attrSubs (by simp [tagAttrs])) fun _ => .pure _⟩
  rw [if_neg ht] at h
  clear ht
  by_cases ht : tag = "arg"
  · rw [if_pos ht] at h
    subst ht
    simp only [Option.some.injEq] at h
    subst h
    exact ⟨by simp [knownTags], .bind (.attrText (by simp [tagAttrs])) fun _ => .bind (.attrSubs? (by simp [tagAttrs])) fun _ => .bind (.attrText? (by simp [tagAttrs])) fun _ =>
        .bind (.bind (.attrEnts? (by simp [tagPairs, tagOthers])) fun _ => by split <;> first | exact .pure _ | exact .bind (.lift _) fun _ => .pure _) fun _ => .pure _⟩
  rw [if_neg ht] at h
  clear ht
  by_cases ht : tag = "group"
  · rw [if_pos ht] at h
    subst ht
    simp only [Option.some.injEq] at h
    subst h
    exact ⟨by simp [knownTags], .bind (.attrVal (by simp [tagAttrs])) fun _ => .bind (.attrVal (by simp [tagAttrs])) fun _ => .bind (.attrPairs? (by simp [tagPairs])) fun _ =>
        .bind .entChildren fun _ => .bind (.lift _) fun _ => .pure _⟩
  rw [if_neg ht] at h
  clear ht
  by_cases ht : tag = "include"
  · rw [if_pos ht] at h
    subst ht
    simp only [Option.some.injEq] at h
    subst h
    exact ⟨by simp [knownTags], .bind (.attrSubs (by simp [tagAttrs])) fun _ => .bind (.attrPairs? (by simp [tagPairs])) fun _ => .pure _⟩
  rw [if_neg ht] at h
  clear ht
  by_cases ht : tag = "set_env"
  · rw [if_pos ht] at h
    subst ht
    simp only [Option.some.injEq] at h
    subst h
    exact ⟨by simp [knownTags], .bind (.attrSubs (by simp [tagAttrs])) fun _ => .bind (.attrSubs (by simp [tagAttrs])) fun _ => .pure _⟩
  rw [if_neg ht] at h
  clear ht
  by_cases ht : tag = "unset_env"
  · rw [if_pos ht] at h
    subst ht
    simp only [Option.some.injEq] at h
    subst h
    exact ⟨by simp [knownTags], .bind (.attrSubs (by simp [tagAttrs])) fun _ => .pure _⟩
  rw [if_neg ht] at h
  clear ht
  by_cases ht : tag = "append_env"
  · rw [if_pos ht] at h
    subst ht
    simp only [Option.some.injEq] at h
    subst h
    exact ⟨by simp [knownTags], .bind (.attrSubs (by simp [tagAttrs])) fun _ => .bind (.attrSubs (by simp [tagAttrs])) fun _ => .bind (.attrVal (by simp [tagAttrs])) fun _ =>
        .bind (.lift _) fun _ => .bind (.attrSubs? (by simp [tagAttrs])) fun _ => .pure _⟩
  rw [if_neg ht] at h
  clear ht
  by_cases ht : tag = "reset_env"
  · rw [if_pos ht] at h
    subst ht
    simp only [Option.some.injEq] at h
    subst h
    exact ⟨by simp [knownTags], .pure _⟩
  rw [if_neg ht] at h
  clear ht
  by_cases ht : tag = "reset"
  · rw [if_pos ht] at h
    subst ht
    simp only [Option.some.injEq] at h
    subst h
    exact ⟨by simp [knownTags], .bind (.attrPairs? (by simp [tagPairs])) fun _ => .pure _⟩
  rw [if_neg ht] at h
  clear ht
  by_cases ht : tag = "log"
  · rw [if_pos ht] at h
    subst ht
    simp only [Option.some.injEq] at h
    subst h
    exact ⟨by simp [knownTags], .bind (.attrSubs (by simp [tagAttrs])) fun _ => .pure _⟩
  rw [if_neg ht] at h
  clear ht
  by_cases ht : tag = "shutdown"
  · rw [if_pos ht] at h
    subst ht
    simp only [Option.some.injEq] at h
    subst h
    exact ⟨by simp [knownTags], .bind (.attrText? (by simp [tagAttrs])) fun _ => by split <;> first | exact .pure _ | exact .bind (.lift _) fun _ => .pure _⟩
  rw [if_neg ht] at h
  clear ht
  by_cases ht : tag = "timer"
  · rw [if_pos ht] at h
    subst ht
    simp only [Option.some.injEq] at h
    subst h
    exact ⟨by simp [knownTags], .bind (.attrVal (by simp [tagAttrs])) fun _ => .bind (.lift _) fun _ => .bind .entChildren fun _ => .bind (.lift _) fun _ =>
        .bind (.attrVal (by simp [tagAttrs])) fun _ => .bind (.lift _) fun _ => .pure _⟩
  rw [if_neg ht] at h
  clear ht
  by_cases ht : tag = "executable"
  · rw [if_pos ht] at h
    subst ht
    simp only [Option.some.injEq] at h
    subst h
    exact ⟨by simp [knownTags], .bind (.attrText (by simp [tagAttrs])) fun _ => .bind (.lift _) fun _ => .bind (.attrSubs? (by simp [tagAttrs])) fun _ =>
        .bind (.attrSubs? (by simp [tagAttrs])) fun _ => .bind (.attrText? (by simp [tagAttrs])) fun _ => .bind (.lift _) fun _ =>
        .bind (.attrSubs? (by simp [tagAttrs])) fun _ => .bind (.attrSubs? (by simp [tagAttrs])) fun _ => .bind (.attrSubs? (by simp [tagAttrs])) fun _ =>
        .bind (.attrVal (by simp [tagAttrs])) fun _ => .bind (.attrVal (by simp [tagAttrs])) fun _ => .bind (.lift _) fun _ =>
        .bind (.attrVal (by simp [tagAttrs])) fun _ => .bind (.lift _) fun _ => .bind (.attrVal (by simp [tagAttrs])) fun _ => .bind (.lift _) fun _ =>
        .bind (.attrVal (by simp [tagAttrs])) fun _ => .bind (.attrVal (by simp [tagAttrs])) fun _ => .bind (.attrPairs? (by simp [tagPairs])) fun _ => .pure _⟩
  rw [if_neg ht] at h
  clear ht
  simp at h

theorem parseKind_nested {F : Front} {rec : List Ent → Res (List PAct)} {tag : String} {m : P PKind} (h : parseKind F rec tag = some m)
    {e : Ent} {r r' : Reads} {x : PKind} (hm : m e r = (r', .ok x)) :
    (∀ n ∈ tagPairs tag, ∀ y ∈ nestedEnts e n, NamesWithin ["name", "value"] [] false y) ∧
    (hasActions tag = true → ∃ l, rec ((childEnts e).filter (fun y => y.typeName ∉ tagPairs tag)) = .ok l) := by
  unfold parseKind at h
  by_cases ht : tag = "let"
  · rw [if_pos ht] at h
    subst ht
    simp only [Option.some.injEq] at h
    subst h
    exact ⟨by simp [tagPairs], by simp [hasActions]⟩
  rw [if_neg ht] at h
  clear ht
  by_cases ht : tag = "arg"
  · rw [if_pos ht] at h
    subst ht
    simp only [Option.some.injEq] at h
    subst h
    exact ⟨by simp [tagPairs], by simp [hasActions]⟩
  rw [if_neg ht] at h
  clear ht
  by_cases ht : tag = "group"
  · rw [if_pos ht] at h
    subst ht
    simp only [Option.some.injEq] at h
    subst h
    obtain ⟨_, _, _, hm⟩ := P.bind_ok hm
    obtain ⟨_, _, _, hm⟩ := P.bind_ok hm
    obtain ⟨_, _, hp, hm⟩ := P.bind_ok hm
    obtain ⟨_, _, hc, hm⟩ := P.bind_ok hm
    obtain ⟨_, _, hl, hm⟩ := P.bind_ok hm
    refine ⟨?_, fun _ => ?_⟩
    · simp only [tagPairs, List.mem_singleton, forall_eq]
      exact attrPairs?_names hp
    · rw [← entChildren_ok hc]
      simp [P.lift] at hl
      exact ⟨_, by simpa [tagPairs] using hl.2⟩
  rw [if_neg ht] at h
  clear ht
  by_cases ht : tag = "include"
  · rw [if_pos ht] at h
    subst ht
    simp only [Option.some.injEq] at h
    subst h
    obtain ⟨_, _, _, hm⟩ := P.bind_ok hm
    obtain ⟨_, _, hp, hm⟩ := P.bind_ok hm
    refine ⟨?_, by simp [hasActions]⟩
    simp only [tagPairs, List.mem_singleton, forall_eq]
    exact attrPairs?_names hp
  rw [if_neg ht] at h
  clear ht
  by_cases ht : tag = "set_env"
  · rw [if_pos ht] at h
    subst ht
    simp only [Option.some.injEq] at h
    subst h
    exact ⟨by simp [tagPairs], by simp [hasActions]⟩
  rw [if_neg ht] at h
  clear ht
  by_cases ht : tag = "unset_env"
  · rw [if_pos ht] at h
    subst ht
    simp only [Option.some.injEq] at h
    subst h
    exact ⟨by simp [tagPairs], by simp [hasActions]⟩
  rw [if_neg ht] at h
  clear ht
  by_cases ht : tag = "append_env"
  · rw [if_pos ht] at h
    subst ht
    simp only [Option.some.injEq] at h
    subst h
    exact ⟨by simp [tagPairs], by simp [hasActions]⟩
  rw [if_neg ht] at h
  clear ht
  by_cases ht : tag = "reset_env"
  · rw [if_pos ht] at h
    subst ht
    simp only [Option.some.injEq] at h
    subst h
    exact ⟨by simp [tagPairs], by simp [hasActions]⟩
  rw [if_neg ht] at h
  clear ht
  by_cases ht : tag = "reset"
  · rw [if_pos ht] at h
    subst ht
    simp only [Option.some.injEq] at h
    subst h
    obtain ⟨_, _, hp, hm⟩ := P.bind_ok hm
    refine ⟨?_, by simp [hasActions]⟩
    simp only [tagPairs, List.mem_singleton, forall_eq]
    exact attrPairs?_names hp
  rw [if_neg ht] at h
  clear ht
  by_cases ht : tag = "log"
  · rw [if_pos ht] at h
    subst ht
    simp only [Option.some.injEq] at h
    subst h
    exact ⟨by simp [tagPairs], by simp [hasActions]⟩
  rw [if_neg ht] at h
  clear ht
  by_cases ht : tag = "shutdown"
  · rw [if_pos ht] at h
    subst ht
    simp only [Option.some.injEq] at h
    subst h
    exact ⟨by simp [tagPairs], by simp [hasActions]⟩
  rw [if_neg ht] at h
  clear ht
  by_cases ht : tag = "timer"
  · rw [if_pos ht] at h
    subst ht
    simp only [Option.some.injEq] at h
    subst h
    obtain ⟨_, _, _, hm⟩ := P.bind_ok hm
    obtain ⟨_, _, _, hm⟩ := P.bind_ok hm
    obtain ⟨_, _, hc, hm⟩ := P.bind_ok hm
    obtain ⟨_, _, hl, hm⟩ := P.bind_ok hm
    refine ⟨by simp [tagPairs], fun _ => ?_⟩
    rw [← entChildren_ok hc]
    simp [P.lift] at hl
    rw [List.filter_eq_self.mpr (by simp [tagPairs])]
    exact ⟨_, hl.2⟩
  rw [if_neg ht] at h
  clear ht
  by_cases ht : tag = "executable"
  · rw [if_pos ht] at h
    subst ht
    simp only [Option.some.injEq] at h
    subst h
    obtain ⟨_, _, _, hm⟩ := P.bind_ok hm
    obtain ⟨_, _, _, hm⟩ := P.bind_ok hm
    obtain ⟨_, _, _, hm⟩ := P.bind_ok hm
    obtain ⟨_, _, _, hm⟩ := P.bind_ok hm
    obtain ⟨_, _, _, hm⟩ := P.bind_ok hm
    obtain ⟨_, _, _, hm⟩ := P.bind_ok hm
    obtain ⟨_, _, _, hm⟩ := P.bind_ok hm
    obtain ⟨_, _, _, hm⟩ := P.bind_ok hm
    obtain ⟨_, _, _, hm⟩ := P.bind_ok hm
    obtain ⟨_, _, _, hm⟩ := P.bind_ok hm
    obtain ⟨_, _, _, hm⟩ := P.bind_ok hm
    obtain ⟨_, _, _, hm⟩ := P.bind_ok hm
    obtain ⟨_, _, _, hm⟩ := P.bind_ok hm
    obtain ⟨_, _, _, hm⟩ := P.bind_ok hm
    obtain ⟨_, _, _, hm⟩ := P.bind_ok hm
    obtain ⟨_, _, _, hm⟩ := P.bind_ok hm
    obtain ⟨_, _, _, hm⟩ := P.bind_ok hm
    obtain ⟨_, _, _, hm⟩ := P.bind_ok hm
    obtain ⟨_, _, hp, hm⟩ := P.bind_ok hm
    refine ⟨?_, by simp [hasActions]⟩
    simp only [tagPairs, List.mem_singleton, forall_eq]
    exact attrPairs?_names hp
  rw [if_neg ht] at h
  clear ht
  simp at h

/-- C44.  A built-in action is only accepted by a frontend if its entity contains nothing but the documented attributes and nested entities, at all
levels of nested actions, and with whatever parser of substitutions. -/
theorem C44_only_documented (F : Front) (fuel : Nat) (e : Ent) (a : PAct) (h : parseAction F fuel e = .ok a) : Documented e := by
  induction fuel generalizing e a with
  | zero => simp [parseAction] at h
  | succ fuel ih =>
    unfold parseAction at h
    split at h
    · simp at h
    · rename_i m hm
      obtain ⟨r, h1, h2⟩ := checked_inv h
      unfold parseMethod at hm
      split at hm
      · simp at hm
      · rename_i k hk
        simp only [Option.some.injEq] at hm
        subst hm
        obtain ⟨ht, hO⟩ := parseKind_only hk
        obtain ⟨r1, c, hb, h3⟩ := P.bind_ok h1
        obtain ⟨r2, x, hx, h4⟩ := P.bind_ok h3
        obtain ⟨n1, n2⟩ := parseKind_nested hk hx
        refine .mk ht (checked_names (.bind (parseBase_only (by simp) (by simp)) fun _ => .bind hO fun _ => .pure _) h1 h2) n1 ?_
        intro ha y hy hn
        obtain ⟨l, hl⟩ := n2 ha
        obtain ⟨b, _, hb⟩ := mapRes_each hl y (by simp [hy]; exact hn)
        exact ih y b hb

/-- An oracle for the examples: substitutions are texts. -/
def plainFront : Front := { subst := fun s => .ok [.text s], negative := fun _ => false, O := sampleOracle }

example : ∃ a, parseAction plainFront 3 (.xml (.elem "group" [("scoped", "true"), ("if", "1")]
    [.elem "keep" [("name", "k"), ("value", "v")] [], .elem "let" [("name", "a"), ("value", "b")] []])) = .ok a := ⟨_, rfl⟩

example : parseAction plainFront 3 (.xml (.elem "group" [("scoped", "true")] [.elem "let" [("name", "a"), ("value", "b"), ("typo", "")] []])) =
    .error .valueError := rfl

example : ∃ a, parseAction plainFront 3 (.yaml (.list [.dict [("let", .dict [("name", .scalar (.str "a")), ("value", .scalar (.str "b"))])]]) "group") =
    .ok a := ⟨_, rfl⟩

/-- C44 is violated by the root of a launch file: its attributes are not checked, so that misspelled ones are silently ignored. -/
theorem C44_root_violated (F : Front) (fuel : Nat) (x : String) (hx : x ≠ "deprecated") (v : String) (actions : List Xml) :
    parseDescription F fuel (.xml (.elem "launch" [(x, v)] actions)) = parseDescription F fuel (.xml (.elem "launch" [] actions)) := by
  have hg : Dict.get? [(x, v)] "deprecated" = none := by simp [Dict.get?, hx]
  have hg0 : Dict.get? ([] : Dict String) "deprecated" = none := rfl
  simp [parseDescription, onFresh, P.bind, P.pure, attrText?, attrVal, Ent.getAttr, xmlGetAttr, Xml.attrs, hg, hg0, entChildren, Ent.children, xmlChildren,
    Ent.typeName, Xml.tag, Xml.nested]

/-- C44 is violated by the choices of an argument: further attributes of a `choice` are silently ignored. -/
theorem C44_choice_violated (F : Front) (x v w : String) (hs : x ≠ "value-sep") :
    parseChoices F [.xml (.elem "choice" [("value", v), (x, w)] [])] = .ok [unescapeText v] := by
  have h1 : Dict.get? [("value", v), (x, w)] "value" = some v := by simp [Dict.get?]
  have h3 : Dict.get? [("value", v), (x, w)] "value-sep" = none := by simp [Dict.get?, hs]
  have h5 : xmlTyped F.O (.text v) (some (.scalar .str)) true = .ok (.value (.str v)) := rfl
  simp [parseChoices, mapRes, onFresh, parseChoice, attrText, P.bind, P.pure, attrVal, Ent.getAttr, xmlGetAttr, Xml.attrs, h1, h3, h5]

/-- C44.  What was not read is reported as a ValueError, in XML and in YAML files. -/
theorem C44_value_error (e : Ent) (r : Reads) (hs : ∀ v t, e ≠ .yaml (.scalar v) t) : e.assertParsed r = .ok () ∨ e.assertParsed r = .error .valueError := by
  cases e with
  | xml x =>
    simp only [Ent.assertParsed, xmlAssert]
    repeat' split
    all_goals first | exact .inl rfl | exact .inr rfl
  | yaml y t =>
    cases y with
    | scalar v => exact absurd rfl (hs v t)
    | list l => simp only [Ent.assertParsed, yamlAssert]; split <;> first | exact .inl rfl | exact .inr rfl
    | dict d => simp only [Ent.assertParsed, yamlAssert]; split <;> first | exact .inl rfl | exact .inr rfl

example : (Ent.xml (.elem "let" [("nam", "a")] [])).assertParsed {} = .error .valueError ∧
    (Ent.yaml (.dict [("nam", .list [])]) "let").assertParsed {} = .error .valueError := ⟨rfl, rfl⟩

end Verif
