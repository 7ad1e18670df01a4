import Verif.Spec.Typed

namespace Verif

theorem isInst_iff (v : PyVal) (t : ScalarTy) : v.isInst t = true ↔ IsA v t := by
  constructor
  · intro h
    cases v <;> cases t <;> simp [PyVal.isInst] at h <;> constructor
  · intro h; cases h <;> rfl

theorem isStr_iff (v : PyVal) : v.isStr = true ↔ IsA v .str := by
  constructor
  · intro h; cases v <;> simp [PyVal.isStr] at h; constructor
  · intro h; cases h; rfl

theorem isInstOrStr_iff (b : Bool) (v : PyVal) (t : ScalarTy) : isInstOrStr b v t = true ↔ IsA v t ∨ (b = true ∧ IsA v .str) := by
  simp [isInstOrStr, isInst_iff, isStr_iff]

theorem scalarTy?_isA {v : PyVal} {t : ScalarTy} (h : v.scalarTy? = some t) : IsA v t := by
  cases v <;> simp [PyVal.scalarTy?] at h <;> subst h <;> constructor

theorem isScalar_isA {v : PyVal} (h : v.isScalar = true) : ∃ t, IsA v t := by
  cases v <;> simp [PyVal.isScalar] at h
  · exact ⟨_, .int _⟩
  · exact ⟨_, .float _⟩
  · exact ⟨_, .bool _⟩
  · exact ⟨_, .str _⟩

theorem validType_or {v : PyVal} {b : Bool} (h : isInstanceOfValidType v b = true) :
    (∃ t, IsA v t) ∨ ∃ l t, v = .list l ∧ ∀ x ∈ l, IsA x t ∨ (b = true ∧ IsA x .str) := by
  unfold isInstanceOfValidType at h
  split at h
  · exact .inr ⟨[], .str, rfl, by simp⟩
  · rename_i l _
    split at h
    · refine .inr ⟨l, .str, rfl, ?_⟩
      intro x hx
      exact (isInstOrStr_iff _ _ _).mp (List.all_eq_true.mp h x hx)
    · split at h
      · exact absurd h (by simp)
      · rename_i t _
        refine .inr ⟨l, t, rfl, ?_⟩
        intro x hx
        exact (isInstOrStr_iff _ _ _).mp (List.all_eq_true.mp h x hx)
  · exact .inl (isScalar_isA h)

theorem validType_ofType {v : PyVal} (h : isInstanceOfValidType v false = true) : OfType v none := by
  rcases validType_or h with h | ⟨l, t, rfl, h2⟩
  · exact .inl h
  · exact .inr ⟨l, t, rfl, fun x hx => by simpa using h2 x hx⟩

theorem isInstanceOf_ofType {v : PyVal} {ty : Option DataTy} (h : isInstanceOf v ty = true) : OfType v ty := by
  cases ty with
  | none => exact validType_ofType h
  | some d =>
    cases d with
    | scalar t => simpa [isInstanceOf, isInstOrStr_iff, OfType] using h
    | list t =>
      cases v <;> simp [isInstanceOf] at h
      rename_i l
      exact ⟨l, rfl, fun x hx => by simpa [isInstOrStr_iff] using h x hx⟩

theorem convertAsYaml_ofType {O : Oracle} {s : String} {v : PyVal} {b : Bool} (h : convertAsYaml O s b = .ok v) :
    (∃ t, IsA v t) ∨ ∃ l t, v = .list l ∧ ∀ x ∈ l, IsA x t ∨ (b = true ∧ IsA x .str) := by
  unfold convertAsYaml at h
  split at h
  · simp only [Except.ok.injEq] at h; subst h; exact .inl ⟨_, .str _⟩
  · split at h
    · split at h
      · simp only [Except.ok.injEq] at h; subst h; exact .inl ⟨_, .str _⟩
      · simp at h
    · split at h
      · rename_i hv
        simp only [Except.ok.injEq] at h; subst h; exact validType_or hv
      · simp at h

/-- `OfType` or `OfTypeOrStr`, depending on a flag. -/
def OfTypeB (b : Bool) (v : PyVal) : Option DataTy → Prop
  | some (.scalar t) => IsA v t ∨ (b = true ∧ IsA v .str)
  | some (.list t) => ∃ l, v = .list l ∧ ∀ x ∈ l, IsA x t ∨ (b = true ∧ IsA x .str)
  | none => (∃ t, IsA v t) ∨ ∃ l t, v = .list l ∧ ∀ x ∈ l, IsA x t ∨ (b = true ∧ IsA x .str)

theorem ofTypeB_false {v : PyVal} {ty : Option DataTy} : OfTypeB false v ty ↔ OfType v ty := by
  unfold OfTypeB OfType
  split <;> simp

theorem ofTypeB_true {v : PyVal} {ty : Option DataTy} : OfTypeB true v ty ↔ OfTypeOrStr v ty := by
  unfold OfTypeB OfTypeOrStr
  split <;> simp

theorem coerceToType_ofType {O : Oracle} {s : String} {ty : Option DataTy} {b : Bool} {v : PyVal} (h : coerceToType O s ty b = .ok v) : OfTypeB b v ty := by
  unfold coerceToType at h
  split at h
  · exact convertAsYaml_ofType h
  · split at h
    · simp at h
    · split at h
      · rename_i l _ hl
        simp only [Except.ok.injEq] at h; subst h
        exact ⟨l, rfl, fun x hx => (isInstOrStr_iff _ _ _).mp (List.all_eq_true.mp hl x hx)⟩
      · simp at h
    · simp at h
  · simp only [Except.ok.injEq] at h; subst h; exact .inl (.str _)
  · split at h
    · simp only [Except.ok.injEq] at h; subst h; exact .inl (.int _)
    · split at h
      · rename_i hb
        simp only [Except.ok.injEq] at h; subst h; exact .inr ⟨hb, .str _⟩
      · simp at h
  · split at h
    · simp only [Except.ok.injEq] at h; subst h; exact .inl (.float _)
    · split at h
      · rename_i hb
        simp only [Except.ok.injEq] at h; subst h; exact .inr ⟨hb, .str _⟩
      · simp at h
  · simp only at h
    split at h
    · simp at h
    · split at h
      · rename_i hv
        simp only [Except.ok.injEq] at h; subst h; exact (isInstOrStr_iff _ _ _).mp hv
      · simp at h

theorem mapRes_mem {α β : Type} {f : α → Res β} {l : List α} {r : List β} (h : mapRes f l = .ok r) : ∀ y ∈ r, ∃ x ∈ l, f x = .ok y := by
  induction l generalizing r with
  | nil => simp [mapRes] at h; subst h; simp
  | cons x xs ih =>
    simp only [mapRes] at h
    split at h
    · simp at h
    · rename_i y hy
      split at h
      · simp at h
      · rename_i ys hys
        simp only [Except.ok.injEq] at h; subst h
        intro z hz
        simp at hz
        rcases hz with rfl | hz
        · exact ⟨x, by simp, hy⟩
        · obtain ⟨w, hw, e⟩ := ih hys z hz
          exact ⟨w, by simp [hw], e⟩

theorem mapRes_forall₂ {α β : Type} {f : α → Res β} {l : List α} {r : List β} : mapRes f l = .ok r ↔ Each2 (fun x y => f x = .ok y) l r := by
  induction l generalizing r with
  | nil =>
    simp [mapRes]
    constructor
    · rintro rfl; exact .nil
    · intro h; cases h; rfl
  | cons x xs ih =>
    simp only [mapRes]
    constructor
    · intro h
      split at h
      · simp at h
      · rename_i y hy
        split at h
        · simp at h
        · rename_i ys hys
          simp only [Except.ok.injEq] at h; subst h
          exact .cons hy (ih.mp hys)
    · intro h
      cases h with
      | cons hy hys => rw [hy]; simp only [ih.mpr hys]

theorem coerceToType_error {O : Oracle} {s : String} {ty : Option DataTy} {b : Bool} {e : Err} (h : coerceToType O s ty b = .error e) : e = .valueError := by
  have hc : ∀ s b e, convertAsYaml O s b = .error e → e = .valueError := by
    intro s b e h
    unfold convertAsYaml at h
    split at h
    · simp at h
    · split at h <;> split at h <;> simp at h <;> exact h.symm
  unfold coerceToType at h
  split at h
  · exact hc _ _ _ h
  · split at h
    · rename_i hx; simp only [Except.error.injEq] at h; subst h; exact hc _ _ _ hx
    · split at h <;> simp at h; exact h.symm
    · simp at h; exact h.symm
  · simp at h
  · split at h
    · simp at h
    · split at h <;> simp at h; exact h.symm
  · split at h
    · simp at h
    · split at h <;> simp at h; exact h.symm
  · simp only at h
    split at h
    · rename_i hx; simp only [Except.error.injEq] at h; subst h; exact hc _ _ _ hx
    · split at h <;> simp at h; exact h.symm

/-! ## Written substitutions -/

theorem toSub_forall₂ {l : List TVal} {ss : List Sub} (h : Each2 (fun x s => x = TVal.sub s ∨ ∃ t, x = .str t ∧ s = .text t) l ss) :
    mapRes TVal.toSub l = .ok ss := by
  rw [mapRes_forall₂]
  induction h with
  | nil => exact .nil
  | cons h _ ih =>
    refine .cons ?_ ih
    rcases h with rfl | ⟨t, rfl, rfl⟩ <;> rfl

theorem written_isSubstitution {x : TVal} {ss : List Sub} (h : Written x ss) : x.isSubstitution = true ∧ x.toSubs = .ok ss ∧ x.scalar? = none ∧ ss ≠ [] := by
  cases h with
  | one s => exact ⟨rfl, rfl, rfl, by simp⟩
  | several hf hs =>
    rename_i l
    obtain ⟨s, hs⟩ := hs
    refine ⟨?_, toSub_forall₂ hf, rfl, ?_⟩
    · simp only [TVal.isSubstitution, Bool.and_eq_true, List.all_eq_true, List.any_eq_true]
      refine ⟨⟨?_, ?_⟩, ⟨_, hs, rfl⟩⟩
      · cases l with
        | nil => simp at hs
        | cons => rfl
      · intro x hx
        clear hs
        induction hf with
        | nil => simp at hx
        | cons h _ ih =>
          rcases List.mem_cons.mp hx with rfl | hx
          · rcases h with rfl | ⟨t, rfl, _⟩ <;> rfl
          · exact ih hx
    · rintro rfl
      cases hf
      simp at hs

theorem allSubs_map (l : List Sub) : allSubs (l.map .sub) = some l := by
  induction l with
  | nil => rfl
  | cons s l ih => simp [allSubs, ih]

theorem normalizedSubs_map {l : List Sub} (h : l ≠ []) : normalizedSubs? (.seq (l.map .sub)) = some l := by
  cases l with
  | nil => exact absurd rfl h
  | cons s l =>
    have := allSubs_map (s :: l)
    simp only [List.map_cons] at this
    simp only [List.map_cons, normalizedSubs?]
    exact this

theorem isSubstitution_written {x : TVal} (h : x.isSubstitution = true) : ∃ ss, Written x ss := by
  cases x <;> simp [TVal.isSubstitution] at h
  · exact ⟨_, .one _⟩
  · rename_i l
    obtain ⟨⟨hne, h2⟩, y, hy, hs⟩ := h
    have : ∃ ss, Each2 (fun x s => x = TVal.sub s ∨ ∃ t, x = .str t ∧ s = .text t) l ss := by
      clear hy hs hne
      induction l with
      | nil => exact ⟨[], .nil⟩
      | cons x l ih =>
        obtain ⟨ss, hss⟩ := ih (fun x hx => h2 x (by simp [hx])) 
        have hx := h2 x (by simp)
        cases x <;> simp [TVal.isSubOrStr] at hx
        · exact ⟨_, .cons (.inr ⟨_, rfl, rfl⟩) hss⟩
        · exact ⟨_, .cons (.inl rfl) hss⟩
    obtain ⟨ss, hss⟩ := this
    refine ⟨ss, .several hss ?_⟩
    cases y <;> simp [TVal.isSub] at hs
    exact ⟨_, hy⟩

end Verif
