import Verif.Model.PytestVersion
import Verif.Spec.PytestVersion
import Verif.Spec.Subst
import Verif.Lemmas.Typed

namespace Verif

/-! ## C124 The plug-in uses the interfaces of the installed pytest -/

theorem splitSep_dot_plain : ∀ (p cur : List Char), '.' ∉ p → splitSep ['.'] 0 cur p = [cur.reverse ++ p]
  | [], cur, _ => by simp [splitSep]
  | c :: cs, cur, h => by
    simp only [List.mem_cons, not_or] at h
    have : (['.'].isPrefixOf (c :: cs)) = false := by simp [List.isPrefixOf, h.1]
    rw [splitSep, this]
    simp only [Bool.false_eq_true, if_false]
    rw [splitSep_dot_plain cs (c :: cur) h.2]
    simp

theorem splitSep_dot_first : ∀ (p cur rest : List Char), '.' ∉ p →
    splitSep ['.'] 0 cur (p ++ '.' :: rest) = (cur.reverse ++ p) :: splitSep ['.'] 0 [] rest
  | [], cur, rest, _ => by simp [splitSep, List.isPrefixOf]
  | c :: cs, cur, rest, h => by
    simp only [List.mem_cons, not_or] at h
    have : (['.'].isPrefixOf (c :: (cs ++ '.' :: rest))) = false := by simp [List.isPrefixOf, h.1]
    rw [List.cons_append, splitSep, this]
    simp only [Bool.false_eq_true, if_false]
    rw [splitSep_dot_first cs (c :: cur) rest h.2]
    simp

theorem split_version {a b c : String} (ha : '.' ∉ a.toList) (hb : '.' ∉ b.toList) (hc : '.' ∉ c.toList) :
    splitSep ['.'] 0 [] (a ++ "." ++ b ++ "." ++ c).toList = [a.toList, b.toList, c.toList] := by
  have : (a ++ "." ++ b ++ "." ++ c).toList = a.toList ++ '.' :: (b.toList ++ '.' :: c.toList) := by simp
  rw [this, splitSep_dot_first _ _ _ ha, splitSep_dot_first _ _ _ hb, splitSep_dot_plain _ _ hc]
  simp

instance (v w : Version) : Decidable (v.NotBefore w) := by unfold Version.NotBefore; infer_instance

/-- C124.  For a version of three numbers the plug-in knows exactly whether it is at least another one. -/
theorem C124_at_least (O : Oracle) (text : String) (v w : Version) (h : IsVersion O text v) :
    ∃ r, pytestVersionGe O text w.major w.minor w.patch = .ok r ∧ (r = true ↔ v.NotBefore w) := by
  obtain ⟨a, b, c, rfl, ⟨ha, hx⟩, ⟨hb, hy⟩, ⟨hc, hz⟩⟩ := h
  refine ⟨tupleGe [v.major, v.minor, v.patch] [w.major, w.minor, w.patch], ?_, ?_⟩
  · unfold pytestVersionGe
    rw [split_version ha hb hc]
    simp [mapRes, hx, hy, hz]
  · obtain ⟨x, y, z⟩ := v
    obtain ⟨p, q, r⟩ := w
    simp only [tupleGe, Version.NotBefore]
    split
    · split
      · split
        · simp; omega
        · simp; omega
      · simp; omega
    · simp; omega

/-- An oracle that reads some numbers. -/
def versionOracle : Oracle :=
  { sampleOracle with parseInt := fun s => if s = "8" then some 8 else if s = "1" then some 1 else if s = "0" then some 0 else if s = "10" then some 10 else if s = "7" then some 7 else none }

/-- The numbers count, not the texts: 8.10.0 is later than 8.7.0. -/
example : IsVersion versionOracle "8.10.0" ⟨8, 10, 0⟩ ∧ Version.NotBefore ⟨8, 10, 0⟩ ⟨8, 7, 0⟩ ∧ (pytestVersionGe versionOracle "8.10.0" 8 7).toOption = some true := by
  refine ⟨⟨"8", "10", "0", by decide +kernel, ⟨by decide +kernel, rfl⟩, ⟨by decide +kernel, rfl⟩, ⟨by decide +kernel, rfl⟩⟩, by decide, by decide +kernel⟩

/-- C124.  Files are imported with the function of that version of pytest: `import_path` since 7.0.0, since 8.1.0 with the argument about namespace packages. -/
theorem C124_import_partial (O : Oracle) (text : String) (v : Version) (h : IsVersion O text v) :
    (v.NotBefore ⟨8, 1, 0⟩ → importCall O text = .ok .namespacePackages) ∧
    (¬ v.NotBefore ⟨8, 1, 0⟩ → v.NotBefore ⟨7, 0, 0⟩ → importCall O text = .ok .importPath) ∧
    (¬ v.NotBefore ⟨7, 0, 0⟩ → importCall O text = .ok .pyimport) := by
  obtain ⟨r1, h1, e1⟩ := C124_at_least O text v ⟨8, 1, 0⟩ h
  obtain ⟨r2, h2, e2⟩ := C124_at_least O text v ⟨7, 0, 0⟩ h
  unfold importCall
  dsimp only at h1 h2
  rw [h1, h2]
  refine ⟨fun h => ?_, fun h h' => ?_, fun h => ?_⟩
  · rw [e1.mpr h]
  · rw [e2.mpr h', show r1 = false by cases r1 with | false => rfl | true => exact absurd (e1.mp rfl) h]
  · have h8 : ¬ v.NotBefore ⟨8, 1, 0⟩ := by
      unfold Version.NotBefore at h ⊢
      dsimp only at h ⊢
      omega
    rw [show r1 = false by cases r1 with | false => rfl | true => exact absurd (e1.mp rfl) h8,
      show r2 = false by cases r2 with | false => rfl | true => exact absurd (e2.mp rfl) h]

example : IsVersion versionOracle "8.1.0" ⟨8, 1, 0⟩ ∧ Version.NotBefore ⟨8, 1, 0⟩ ⟨8, 1, 0⟩ ∧ ¬ Version.NotBefore ⟨8, 0, 1⟩ ⟨8, 1, 0⟩ := by
  refine ⟨⟨"8", "1", "0", by decide +kernel, ⟨by decide +kernel, rfl⟩, ⟨by decide +kernel, rfl⟩, ⟨by decide +kernel, rfl⟩⟩, by decide, by decide⟩

/-- C124.  Other modules and packages are made with `from_parent` since 5.4, and since 7 with `path`. -/
theorem C124_make_partial (O : Oracle) (text : String) (v : Version) (h : IsVersion O text v) :
    (v.NotBefore ⟨7, 0, 0⟩ → makeCall O text = .ok .path) ∧
    (¬ v.NotBefore ⟨7, 0, 0⟩ → v.NotBefore ⟨5, 4, 0⟩ → makeCall O text = .ok .fspath) ∧
    (¬ v.NotBefore ⟨5, 4, 0⟩ → makeCall O text = .ok .constructor) := by
  obtain ⟨r1, h1, e1⟩ := C124_at_least O text v ⟨7, 0, 0⟩ h
  obtain ⟨r2, h2, e2⟩ := C124_at_least O text v ⟨5, 4, 0⟩ h
  unfold makeCall
  dsimp only at h1 h2
  rw [h1, h2]
  refine ⟨fun h => ?_, fun h h' => ?_, fun h => ?_⟩
  · rw [e1.mpr h]
  · rw [e2.mpr h', show r1 = false by cases r1 with | false => rfl | true => exact absurd (e1.mp rfl) h]
  · have h7 : ¬ v.NotBefore ⟨7, 0, 0⟩ := by
      unfold Version.NotBefore at h ⊢
      dsimp only at h ⊢
      omega
    rw [show r1 = false by cases r1 with | false => rfl | true => exact absurd (e1.mp rfl) h7,
      show r2 = false by cases r2 with | false => rfl | true => exact absurd (e2.mp rfl) h]

theorem mapRes_stops {α β : Type} (f : α → Res β) (e : Err) : ∀ (l : List α) (x : α), x ∈ l → f x = .error e → (∀ y ∈ l, ∀ e', f y = .error e' → e' = e) →
    mapRes f l = .error e
  | [], x, hm, _, _ => by simp at hm
  | y :: ys, x, hm, hx, hall => by
    unfold mapRes
    cases hy : f y with
    | error e' => rw [hall y (by simp) e' hy]
    | ok b =>
      have hxs : x ∈ ys := by
        rcases List.mem_cons.mp hm with rfl | hm
        · rw [hx] at hy; cases hy
        · exact hm
      dsimp only
      rw [mapRes_stops f e ys x hxs hx fun z hz => hall z (by simp [hz])]

/-- C124 fails for versions of pytest that are not only numbers, as 8.0.0rc1 or 8.1.0.dev3: whatever is asked raises ValueError, so that no file can be collected. -/
theorem C124_prerelease_violated (O : Oracle) (text : String) (part : List Char) (hm : part ∈ splitSep ['.'] 0 [] text.toList)
    (hp : O.parseInt (String.ofList part) = none) :
    importCall O text = .error .valueError ∧ makeCall O text = .error .valueError := by
  have key : ∀ a b c, pytestVersionGe O text a b c = .error .valueError := by
    intro a b c
    unfold pytestVersionGe
    rw [mapRes_stops _ .valueError _ part hm (by simp [hp]) ?_]
    intro y _ e' he
    cases hy : O.parseInt (String.ofList y) with
    | some i => rw [hy] at he; cases he
    | none => rw [hy] at he; cases he; rfl
  exact ⟨by simp [importCall, key], by simp [makeCall, key]⟩

example : "0rc1".toList ∈ splitSep ['.'] 0 [] "8.0.0rc1".toList ∧ versionOracle.parseInt "0rc1" = none := by decide +kernel

/-- C124 fails for versions of two numbers: 8.1 does not count as 8.1.0. -/
theorem C124_short_violated (O : Oracle) (a b : String) (x y : Nat) (ha : IsNumber O a x) (hb : IsNumber O b y) :
    pytestVersionGe O (a ++ "." ++ b) x y 0 = .ok false := by
  have : (a ++ "." ++ b).toList = a.toList ++ '.' :: b.toList := by simp
  unfold pytestVersionGe
  rw [this, splitSep_dot_first _ _ _ ha.1, splitSep_dot_plain _ _ hb.1]
  simp [mapRes, ha.2, hb.2, tupleGe]

example : IsNumber versionOracle "8" 8 ∧ IsNumber versionOracle "1" 1 := ⟨⟨by decide +kernel, rfl⟩, ⟨by decide +kernel, rfl⟩⟩

end Verif
