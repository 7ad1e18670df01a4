/-!
# Python dictionaries

`Dict V` models a Python `dict` with string keys: an insertion-ordered association list.
`d[k] = v` replaces in place or appends, `del d[k]` removes, `d.update(e)` assigns the items of `e`
in order.  (Language semantics, not code of `/repo`.)
-/

namespace Verif

/-- Python `dict` with `str` keys, items in insertion order. -/
abbrev Dict (V : Type) := List (String × V)

namespace Dict
variable {V : Type}

/-- `d.get(k)`: the value stored under `k`, if any. -/
def get? : Dict V → String → Option V
  | [], _ => none
  | (k', v) :: d, k => if k' = k then some v else get? d k

/-- `k in d`. -/
def has (d : Dict V) (k : String) : Bool := (d.get? k).isSome

/-- `d[k] = v`: in-place replacement keeps the position, a new key goes last. -/
def set : Dict V → String → V → Dict V
  | [], k, v => [(k, v)]
  | (k', v') :: d, k, v => if k' = k then (k', v) :: d else (k', v') :: set d k v

/-- `d.pop(k, None)` / `del d[k]` for a key that may be absent. -/
def erase : Dict V → String → Dict V
  | [], _ => []
  | (k', v) :: d, k => if k' = k then d else (k', v) :: erase d k

/-- `d.update(e)`. -/
def update (d : Dict V) : Dict V → Dict V
  | [] => d
  | (k, v) :: e => update (d.set k v) e

/-- `list(d)`. -/
def keys (d : Dict V) : List String := d.map (·.1)

/-- The representation invariant of a `dict`: keys are distinct. -/
def Wf (d : Dict V) : Prop := d.keys.Nodup

@[simp] theorem get?_nil (k : String) : get? ([] : Dict V) k = none := rfl

@[simp] theorem get?_set_self (d : Dict V) (k : String) (v : V) : (d.set k v).get? k = some v := by
  induction d with
  | nil => simp [set, get?]
  | cons p d ih =>
    obtain ⟨k', v'⟩ := p
    by_cases h : k' = k <;> simp [set, get?, h, ih]

theorem get?_set_ne (d : Dict V) {k k' : String} (v : V) (h : k ≠ k') :
    (d.set k v).get? k' = d.get? k' := by
  induction d with
  | nil => simp [set, get?, h]
  | cons p d ih =>
    obtain ⟨k'', v'⟩ := p
    by_cases h1 : k'' = k
    · subst h1; simp [set, get?, h]
    · simp only [set, h1, if_false, get?, ih]

theorem get?_set (d : Dict V) (k k' : String) (v : V) :
    (d.set k v).get? k' = if k = k' then some v else d.get? k' := by
  by_cases h : k = k'
  · subst h; simp
  · simp [h, get?_set_ne]

theorem mem_keys_of_get? {d : Dict V} {k : String} {v : V} (h : d.get? k = some v) : k ∈ d.keys := by
  induction d with
  | nil => simp at h
  | cons p d ih =>
    obtain ⟨k', v'⟩ := p
    simp only [get?] at h
    by_cases hk : k' = k
    · simp [keys, hk]
    · simp only [hk, if_false] at h
      simp only [keys, List.map_cons, List.mem_cons]
      exact Or.inr (ih h)

theorem get?_none_of_not_mem {d : Dict V} {k : String} (h : k ∉ d.keys) : d.get? k = none := by
  cases hg : d.get? k with
  | none => rfl
  | some v => exact absurd (mem_keys_of_get? hg) h

theorem get?_isSome_iff {d : Dict V} {k : String} : (d.get? k).isSome ↔ k ∈ d.keys := by
  constructor
  · intro h
    obtain ⟨v, hv⟩ := Option.isSome_iff_exists.mp h
    exact mem_keys_of_get? hv
  · intro h
    induction d with
    | nil => simp [keys] at h
    | cons p d ih =>
      obtain ⟨k', v'⟩ := p
      by_cases hk : k' = k
      · simp [get?, hk]
      · simp only [keys, List.map_cons, List.mem_cons] at h
        rcases h with h | h
        · exact absurd h.symm hk
        · simp only [get?, hk, if_false]; exact ih h

theorem has_iff {d : Dict V} {k : String} : d.has k = true ↔ k ∈ d.keys := get?_isSome_iff

theorem keys_set (d : Dict V) (k : String) (v : V) :
    (d.set k v).keys = if k ∈ d.keys then d.keys else d.keys ++ [k] := by
  induction d with
  | nil => simp [set, keys]
  | cons p d ih =>
    obtain ⟨k', v'⟩ := p
    by_cases h : k' = k
    · subst h; simp [set, keys]
    · have h' : k ≠ k' := fun e => h e.symm
      simp only [set, h, if_false]
      simp only [keys, List.map_cons, List.mem_cons, h', false_or] at ih ⊢
      rw [ih]; split <;> simp_all

theorem Wf.set {d : Dict V} (h : d.Wf) (k : String) (v : V) : (d.set k v).Wf := by
  unfold Wf at *
  rw [keys_set]
  split
  · exact h
  · rename_i hk
    rw [List.nodup_append]
    refine ⟨h, by simp, ?_⟩
    intro a ha b hb
    simp at hb; subst hb
    exact fun e => hk (e ▸ ha)

theorem Wf.update {d : Dict V} (h : d.Wf) (e : Dict V) : (d.update e).Wf := by
  induction e generalizing d with
  | nil => exact h
  | cons p e ih => obtain ⟨k, v⟩ := p; exact ih (h.set k v)

theorem get?_update (d e : Dict V) (k : String) (he : e.Wf) :
    (d.update e).get? k = (e.get? k).or (d.get? k) := by
  induction e generalizing d with
  | nil => simp [update]
  | cons p e ih =>
    obtain ⟨k', v⟩ := p
    have hnd : k' ∉ Dict.keys e ∧ Dict.Wf e := by
      have := he; unfold Wf keys at this; simp only [List.map_cons, List.nodup_cons] at this; exact this
    simp only [update, get?]
    rw [ih _ hnd.2]
    by_cases h : k' = k
    · subst h; simp [get?_none_of_not_mem hnd.1]
    · simp [h, get?_set_ne]

theorem get?_erase_ne (d : Dict V) {k k' : String} (h : k ≠ k') :
    (d.erase k).get? k' = d.get? k' := by
  induction d with
  | nil => rfl
  | cons p d ih =>
    obtain ⟨k'', v⟩ := p
    by_cases h1 : k'' = k
    · subst h1; simp [erase, get?, h]
    · simp only [erase, h1, if_false, get?, ih]

theorem get?_erase_self {d : Dict V} (hd : d.Wf) (k : String) : (d.erase k).get? k = none := by
  induction d with
  | nil => rfl
  | cons p d ih =>
    obtain ⟨k', v⟩ := p
    have hnd : k' ∉ Dict.keys d ∧ Dict.Wf d := by
      have := hd; unfold Wf keys at this; simp only [List.map_cons, List.nodup_cons] at this; exact this
    by_cases h : k' = k
    · subst h; simp [erase, get?_none_of_not_mem hnd.1]
    · simp [erase, get?, h, ih hnd.2]

theorem erase_sublist (d : Dict V) (k : String) : (d.erase k).Sublist d := by
  induction d with
  | nil => exact List.Sublist.slnil
  | cons p d ih =>
    obtain ⟨k', v⟩ := p
    by_cases h : k' = k
    · simp [erase, h]
    · simp only [erase, h, if_false]; exact ih.cons_cons _

theorem Wf.erase {d : Dict V} (h : d.Wf) (k : String) : (d.erase k).Wf := by
  unfold Wf keys at *
  exact (List.Sublist.map _ (erase_sublist d k)).nodup h

theorem wf_nil : Wf ([] : Dict V) := List.nodup_nil

theorem update_append (d e f : Dict V) : d.update (e ++ f) = (d.update e).update f := by
  induction e generalizing d with
  | nil => rfl
  | cons p e ih => obtain ⟨k, v⟩ := p; exact ih _

/-- Updating the empty dict with a well-formed one copies it (order included). -/
theorem update_nil_eq {e : Dict V} (he : e.Wf) : update [] e = e := by
  suffices h : ∀ (d : Dict V), (d ++ e).Wf → d.update e = d ++ e by
    simpa using h [] (by simpa using he)
  induction e with
  | nil => intro d _; simp [update]
  | cons p e ih =>
    obtain ⟨k, v⟩ := p
    intro d hd
    have hk : k ∉ d.keys := by
      unfold Wf keys at hd
      simp only [List.map_append, List.map_cons, List.nodup_append] at hd
      intro hm
      exact hd.2.2 k hm k (by simp) rfl
    have hset : d.set k v = d ++ [(k, v)] := by
      clear hd ih
      induction d with
      | nil => rfl
      | cons q d ihd =>
        obtain ⟨k', v'⟩ := q
        simp only [keys, List.map_cons, List.mem_cons, not_or] at hk
        have : ¬ k' = k := fun e => hk.1 e.symm
        simp only [Dict.set, this, if_false, List.cons_append]
        rw [ihd hk.2]
    simp only [update, hset]
    rw [ih]
    · simp
    · unfold Wf keys at he; simp only [List.map_cons, List.nodup_cons] at he; exact he.2
    · simpa using hd

end Dict
end Verif
