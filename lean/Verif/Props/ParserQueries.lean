import Verif.Model.ParserQueries
import Verif.Spec.ParserQueries
import Verif.Props.Expose
import Verif.Props.FrontendMore

namespace Verif

/-! ## C123 What front ends say about files is consistent -/

variable {α : Type}

theorem mem_toSet (x : String) : ∀ l : List String, x ∈ toSet l ↔ x ∈ l
  | [] => by simp [toSet]
  | y :: ys => by
    unfold toSet
    split
    · rename_i h
      rw [mem_toSet x ys]
      constructor
      · exact List.mem_cons_of_mem _
      · rintro hx
        rcases List.mem_cons.mp hx with rfl | hx
        · exact h
        · exact hx
    · simp [mem_toSet x ys]

theorem nodup_toSet : ∀ l : List String, (toSet l).Nodup
  | [] => by simp [toSet]
  | y :: ys => by
    unfold toSet
    split
    · exact nodup_toSet ys
    · rename_i h
      exact List.nodup_cons.mpr ⟨fun hm => h ((mem_toSet y ys).mp hm), nodup_toSet ys⟩

theorem mem_installedParsers {es : List (String × Option (Impl α))} (hd : (es.map (·.1)).Nodup) (p : Impl α) :
    p ∈ installedParsers es ↔ ∃ name, Installed es name p := by
  have h := (C102_parsers es es hd (.refl _)).2.2
  unfold installedParsers Installed
  simp only [List.mem_map]
  constructor
  · rintro ⟨⟨n, q⟩, hm, rfl⟩
    exact ⟨n, (h n q).mp hm⟩
  · rintro ⟨n, hm⟩
    exact ⟨(n, p), (h n p).mpr hm, rfl⟩

theorem get?_loadParsers {es : List (String × Option (Impl α))} (hd : (es.map (·.1)).Nodup) (n : String) (p : Impl α) :
    (loadParsers es).get? n = some p ↔ Installed es n p := by
  have h := C102_parsers es es hd (.refl _)
  rw [Installed, ← h.2.2 n p]
  have key : ∀ d : Dict (Impl α), d.Pairwise (fun a b => a.1 < b.1) → (d.get? n = some p ↔ (n, p) ∈ d) := by
    intro d
    induction d with
    | nil => simp
    | cons x d ih =>
      obtain ⟨k, v⟩ := x
      intro hp
      rw [List.pairwise_cons] at hp
      by_cases hk : k = n
      · subst hk
        simp only [Dict.get?, if_true, List.mem_cons, Prod.mk.injEq, true_and, Option.some.injEq]
        constructor
        · intro e; exact .inl e.symm
        · rintro (e | hm)
          · exact e.symm
          · exact absurd (hp.1 _ hm) (String.lt_irrefl _)
      · have : n ≠ k := fun e => hk e.symm
        simp only [Dict.get?, hk, if_false, List.mem_cons, Prod.mk.injEq, this, false_and, false_or]
        exact ih hp.2
  exact key _ h.2.1

/-- C123.  A file name is valid if and only if it has an extension of an installed front end; front ends that cannot be loaded do not count. -/
theorem C123_valid_iff (es : List (String × Option (Impl α))) (hd : (es.map (·.1)).Nodup) (file : String) :
    isFilenameValid es file = true ↔ ∃ name p, Installed es name p ∧ IsFor p file := by
  unfold isFilenameValid IsFor
  simp only [List.any_eq_true, mem_installedParsers hd, C45_extension]
  constructor
  · rintro ⟨p, ⟨n, h1⟩, h2⟩; exact ⟨n, p, h1, h2⟩
  · rintro ⟨n, p, h1, h2⟩; exact ⟨p, ⟨n, h1⟩, h2⟩

/-- The installed front ends of this repository, and one that cannot be loaded. -/
def installedFrontends : List (String × Option (Impl String)) :=
  [("yaml", some { cls := 1, exts := ["launch.yaml", "launch.yml", "yaml", "yml", "launch"], load := fun s => (s.length, .error .runtimeError) }), ("broken", none),
   ("xml", some { cls := 0, exts := ["launch.xml", "xml", "launch"], load := fun s => (s.length, .error .valueError) })]

example : (installedFrontends.map (·.1)).Nodup ∧ isFilenameValid installedFrontends "dir/a.launch.yml" = true ∧ isFilenameValid installedFrontends "a.py" = false ∧
    isFilenameValid installedFrontends "a.broken" = false := by decide +kernel

/-- C123.  The front ends found for a file are exactly the installed ones that are for it, in the order in which they are tried; there is one if and only if the name is valid, and
then one of them is tried before all others. -/
theorem C123_parsers (es : List (String × Option (Impl α))) (hd : (es.map (·.1)).Nodup) (file : String) :
    (∀ p, p ∈ parsersFromFilename es file ↔ (∃ name, Installed es name p) ∧ IsFor p file) ∧
    (isFilenameValid es file = true ↔ parsersFromFilename es file ≠ []) ∧
    ∃ others, implementations (installedParsers es) file = parsersFromFilename es file ++ others := by
  refine ⟨fun p => ?_, ?_, _, rfl⟩
  · unfold parsersFromFilename IsFor
    rw [List.mem_filter, mem_installedParsers hd, C45_extension]
  · unfold isFilenameValid parsersFromFilename
    rw [List.any_eq_true, ne_eq, List.filter_eq_nil_iff]
    constructor
    · rintro ⟨p, h1, h2⟩ hn; exact hn p h1 h2
    · intro hn
      refine Classical.byContradiction fun hc => hn fun p hp hm => hc ⟨p, hp, hm⟩

example : (parsersFromFilename installedFrontends "a.launch").map (·.cls) = [0, 1] ∧ (parsersFromFilename installedFrontends "a.yml").map (·.cls) = [1] := by decide +kernel

/-- C123.  The known extensions are exactly those of the installed front ends, each once; and every file with one of them is valid. -/
theorem C123_extensions (es : List (String × Option (Impl α))) (hd : (es.map (·.1)).Nodup) :
    (∀ e, e ∈ knownExtensions es ↔ ∃ name p, Installed es name p ∧ e ∈ p.exts) ∧ (knownExtensions es).Nodup ∧
    ∀ file, isFilenameValid es file = true ↔ ∃ e ∈ knownExtensions es, ∃ stem : String, file = stem ++ "." ++ e := by
  have h1 : ∀ e, e ∈ knownExtensions es ↔ ∃ name p, Installed es name p ∧ e ∈ p.exts := by
    intro e
    unfold knownExtensions
    rw [mem_toSet, List.mem_flatMap]
    simp only [mem_installedParsers hd]
    constructor
    · rintro ⟨p, ⟨n, hp⟩, he⟩; exact ⟨n, p, hp, he⟩
    · rintro ⟨n, p, hp, he⟩; exact ⟨p, ⟨n, hp⟩, he⟩
  refine ⟨h1, nodup_toSet _, fun file => ?_⟩
  rw [C123_valid_iff es hd file]
  constructor
  · rintro ⟨n, p, hp, e, he, hs⟩; exact ⟨e, (h1 e).mpr ⟨n, p, hp, he⟩, hs⟩
  · rintro ⟨e, he, hs⟩
    obtain ⟨n, p, hp, he⟩ := (h1 e).mp he
    exact ⟨n, p, hp, e, he, hs⟩

example : "yml" ∈ knownExtensions installedFrontends ∧ (knownExtensions installedFrontends).count "launch" = 1 := by decide +kernel

/-- C123.  The deprecated methods are consistent with each other: the available extensions are those that are valid, for these, and only these, a parser is found, and it is
the one installed under this name. -/
theorem C123_names (es : List (String × Option (Impl α))) (hd : (es.map (·.1)).Nodup) (name : String) :
    (name ∈ availableExtensions es ↔ ∃ p, Installed es name p) ∧ (isExtensionValid es name = true ↔ name ∈ availableExtensions es) ∧
    (∀ p, parserFromExtension es name = .ok p ↔ Installed es name p) ∧
    (isExtensionValid es name = false → parserFromExtension es name = .error .runtimeError) := by
  refine ⟨?_, Dict.has_iff, fun p => ?_, fun h => ?_⟩
  · unfold availableExtensions
    rw [← Dict.get?_isSome_iff, Option.isSome_iff_exists]
    simp only [get?_loadParsers hd]
  · rw [← get?_loadParsers hd]
    unfold parserFromExtension
    cases (loadParsers es).get? name <;> simp
  · unfold parserFromExtension
    have : (loadParsers es).get? name = none := by
      cases hg : (loadParsers es).get? name with
      | none => rfl
      | some p =>
        have := Dict.has_iff.mpr (Dict.mem_keys_of_get? hg)
        unfold isExtensionValid at h
        rw [h] at this; cases this
    rw [this]

example : availableExtensions installedFrontends = ["xml", "yaml"] ∧ isExtensionValid installedFrontends "broken" = false := by decide +kernel

/-- C123 fails for the deprecated methods: their extensions are names of entry points.  With the installed front ends `a.yml` and `a.launch` are valid, and `yml` and `launch` known, but
neither is a valid extension, and asking for its parser raises RuntimeError. -/
theorem C123_deprecated_violated :
    (∀ e ∈ ["yml", "launch", "launch.xml"], e ∈ knownExtensions installedFrontends ∧ isFilenameValid installedFrontends ("a." ++ e) = true ∧
      isExtensionValid installedFrontends e = false) ∧
    ∀ e ∈ ["yml", "launch", "launch.xml"], ∃ x, parserFromExtension installedFrontends e = .error x := by
  refine ⟨by decide +kernel, ?_⟩
  intro e he
  refine ⟨_, (C123_names installedFrontends (by decide +kernel) e).2.2.2 ?_⟩
  revert e
  decide +kernel

end Verif
