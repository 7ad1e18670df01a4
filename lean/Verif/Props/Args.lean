import Verif.Spec.Args
import Verif.Lemmas.Order
import Verif.Spec.Subst

/-!
# Properties C11, C12: launch arguments of a description
-/

namespace Verif

/-- What is compared of an entry and of a declaration. -/
def ArgEntry.key (e : ArgEntry) : ActId × String × Bool × Bool := (e.id, e.name, e.hasDefault, e.conditional)
def Decl.key (d : Decl) : ActId × String × Bool × Bool := (d.id, d.name, d.hasDefault, d.direct)

/-- Keys of `ds` to be added to a list that already has `names`. -/
def addNew (names : List String) : List Decl → List Decl
  | [] => []
  | d :: ds => if d.name ∈ names then addNew names ds else d :: addNew (d.name :: names) ds

theorem addNew_congr {a b : List String} (h : ∀ x, x ∈ a ↔ x ∈ b) (ds : List Decl) : addNew a ds = addNew b ds := by
  induction ds generalizing a b with
  | nil => rfl
  | cons d ds ih =>
    simp only [addNew, h d.name]
    split
    · exact ih h
    · rw [ih]
      intro x; simp [h x]

theorem addNew_append (names : List String) (xs ys : List Decl) :
    addNew names (xs ++ ys) = addNew names xs ++ addNew (names ++ (addNew names xs).map (·.name)) ys := by
  induction xs generalizing names with
  | nil => simp [addNew]
  | cons d ds ih =>
    simp only [List.cons_append, addNew]
    split
    · exact ih names
    · rw [ih]
      simp only [List.cons_append, List.map_cons]
      congr 2
      apply addNew_congr
      intro x; simp [or_left_comm]

theorem addNew_filter (names : List String) (n : String) (ds : List Decl) :
    addNew (n :: names) ds = (addNew names ds).filter (fun x => x.name != n) := by
  induction ds generalizing names with
  | nil => rfl
  | cons d ds ih =>
    simp only [addNew, List.mem_cons]
    by_cases h1 : d.name = n
    · subst h1
      simp only [true_or, if_true]
      split
      · exact ih names
      · simp only [List.filter_cons, bne_self_eq_false]
        rw [ih names, List.filter_filter]
        simp
    · by_cases h2 : d.name ∈ names
      · simp only [h2, or_true, if_true]; exact ih names
      · simp only [h1, h2, or_self, if_false, List.filter_cons]
        have : (d.name != n) = true := by simp [h1]
        rw [this, if_pos rfl, ← ih]
        congr 1
        apply addNew_congr
        intro x; simp [or_left_comm]

theorem addNew_nil (ds : List Decl) : addNew [] ds = firstOfEach ds := by
  induction ds with
  | nil => rfl
  | cons d ds ih => simp only [addNew, firstOfEach, List.not_mem_nil, if_false, addNew_filter, ih]

theorem addDecl_key (s : ArgState) (id : ActId) (name : String) (hd cond under : Bool) (nested : Option Nat) :
    (s.addDecl id name hd cond nested).entries.map ArgEntry.key =
      s.entries.map ArgEntry.key ++
        (addNew (s.entries.map (·.name)) [⟨id, name, hd, cond, under⟩]).map Decl.key := by
  unfold ArgState.addDecl
  by_cases h : s.entries.any (fun e => e.name == name) = true
  · have : name ∈ s.entries.map (·.name) := by
      simp only [List.any_eq_true, beq_iff_eq] at h
      obtain ⟨e, he, hn⟩ := h
      exact List.mem_map.mpr ⟨e, he, hn⟩
    simp [h, addNew, this]
  · have : name ∉ s.entries.map (·.name) := by
      intro hm
      obtain ⟨e, he, hn⟩ := List.mem_map.mp hm
      apply h
      simp only [List.any_eq_true, beq_iff_eq]
      exact ⟨e, he, hn⟩
    simp only [h, addNew, this]
    simp [ArgEntry.key, Decl.key]

/-- The state after a search is the state before plus the new declarations found. -/
def Adds (s s' : ArgState) (ds : List Decl) : Prop :=
  s'.entries.map ArgEntry.key = s.entries.map ArgEntry.key ++ (addNew (s.entries.map (·.name)) ds).map Decl.key

theorem Adds.names {s s' : ArgState} {ds : List Decl} (h : Adds s s' ds) :
    s'.entries.map (·.name) = s.entries.map (·.name) ++ (addNew (s.entries.map (·.name)) ds).map (·.name) := by
  have h2 := congrArg (List.map (fun k => k.2.1)) h
  simpa [ArgEntry.key, Decl.key, List.map_map, Function.comp_def] using h2

theorem Adds.trans {a b c : ArgState} {xs ys : List Decl} (h1 : Adds a b xs) (h2 : Adds b c ys) :
    Adds a c (xs ++ ys) := by
  unfold Adds at *
  rw [h2, h1, addNew_append, Adds.names h1]
  simp

theorem Adds.refl (s : ArgState) : Adds s s [] := by simp [Adds, addNew]

/-- What is described of an entity: what lies below it, as conditional if it has a condition, and what may come
later, as conditional. -/
theorem describe_parts (res : Nat → Option (List Entity)) (e : Entity) (hr : ∀ id c k, e ≠ .act id c (.resetLC k))
    (hd : ∀ id c n df ch, e ≠ .act id c (.declareArg n df ch)) :
    (e.describeSub res = if e.hasCondition then [] else e.parts res) ∧
    ∃ a b, e.describeConditional res = a ++ b ∧ (e.hasCondition = false → a = []) ∧
      (e.hasCondition = true → (a = [e.parts res] ∨ (a = [] ∧ e.parts res = []))) ∧
      (b = [e.later] ∨ (b = [] ∧ e.later = [])) := by
  cases e with
  | desc es =>
    refine ⟨rfl, [], [], rfl, fun _ => rfl, fun h => ?_, .inr ⟨rfl, rfl⟩⟩
    simp [Entity.hasCondition] at h
  | act id c kind =>
    cases c with
    | none =>
      cases kind with
      | includeLD src args =>
        refine ⟨?_, [], [], rfl, fun _ => rfl, fun h => ?_, .inr ⟨rfl, rfl⟩⟩
        · simp only [Entity.hasCondition, Entity.describeSub, Entity.parts]
          cases res src <;> simp
        · simp [Entity.hasCondition] at h
      | registerHandler h d =>
        cases d with
        | none => exact ⟨rfl, [], [], rfl, fun _ => rfl, fun h => by simp [Entity.hasCondition] at h, .inr ⟨rfl, rfl⟩⟩
        | some d => exact ⟨rfl, [], [d], rfl, fun _ => rfl, fun h => by simp [Entity.hasCondition] at h, .inl rfl⟩
      | custom fn ss d => exact ⟨rfl, [], [d], rfl, fun _ => rfl, fun h => by simp [Entity.hasCondition] at h, .inl rfl⟩
      | _ => exact ⟨rfl, [], [], rfl, fun _ => rfl, fun h => by simp [Entity.hasCondition] at h, .inr ⟨rfl, rfl⟩⟩
    | some cd =>
      cases kind with
      | includeLD src args =>
        refine ⟨rfl, [Entity.parts res (.act id (some cd) (.includeLD src args))], [], ?_,
          fun h => by simp [Entity.hasCondition] at h, fun _ => .inl rfl, .inr ⟨rfl, rfl⟩⟩
        simp only [Entity.describeConditional, Entity.parts]
        cases res src <;> simp
      | group s f cfg as =>
        exact ⟨rfl, [Entity.groupSubEntities id s f cfg as], [], rfl, fun h => by simp [Entity.hasCondition] at h,
          fun _ => .inl rfl, .inr ⟨rfl, rfl⟩⟩
      | registerHandler h d =>
        cases d with
        | none => exact ⟨rfl, [], [], rfl, fun _ => rfl, fun _ => .inr ⟨rfl, rfl⟩, .inr ⟨rfl, rfl⟩⟩
        | some d => exact ⟨rfl, [], [d], rfl, fun _ => rfl, fun _ => .inr ⟨rfl, rfl⟩, .inl rfl⟩
      | custom fn ss d =>
        exact ⟨rfl, [ss], [d], rfl, fun h => by simp [Entity.hasCondition] at h, fun _ => .inl rfl, .inl rfl⟩
      | _ => exact ⟨rfl, [], [], rfl, fun _ => rfl, fun _ => .inr ⟨rfl, rfl⟩, .inr ⟨rfl, rfl⟩⟩

theorem searchAll_append (f : List Entity → ArgState → Option ArgState) (a b : List (List Entity)) (s : ArgState) :
    searchAll f (a ++ b) s = (searchAll f a s).bind (searchAll f b) := by
  induction a generalizing s with
  | nil => rfl
  | cons l a ih =>
    simp only [List.cons_append, searchAll]
    cases f l s with
    | none => rfl
    | some x => exact ih x

/-- A search over one list, which is left out when it is empty. -/
theorem searchAll_part {f : List Entity → ArgState → Option ArgState} {a : List (List Entity)} {p : List Entity}
    (h : a = [p] ∨ (a = [] ∧ p = [])) {s s' : ArgState} (hs : searchAll f a s = some s') :
    f p s = some s' ∨ (p = [] ∧ s = s') := by
  rcases h with rfl | ⟨rfl, rfl⟩
  · left
    simp only [searchAll] at hs
    cases hf : f p s with
    | none => rw [hf] at hs; simp at hs
    | some x => rw [hf] at hs; simpa using hs
  · right; exact ⟨rfl, by simpa [searchAll] using hs⟩

theorem part_searchAll {f : List Entity → ArgState → Option ArgState} {a : List (List Entity)} {p : List Entity}
    (h : a = [p] ∨ (a = [] ∧ p = [])) (h0 : ∀ s, f [] s = some s) {s s' : ArgState} (hs : f p s = some s') :
    searchAll f a s = some s' := by
  rcases h with rfl | ⟨rfl, rfl⟩
  · simp [searchAll, hs]
  · rw [h0] at hs; simpa [searchAll] using hs

/-- One turn of the loop over an entity that is neither a reset nor a declaration. -/
theorem processEntities_cons (res : Nat → Option (List Entity)) (e : Entity)
    (hr : ∀ id c k, e ≠ .act id c (.resetLC k)) (hd : ∀ id c n df ch, e ≠ .act id c (.declareArg n df ch))
    (k : Option Nat) (s : ArgState) :
    ∃ s1 next, s1.entries = s.entries ∧
      (s1.raised = true ↔ s.raised = true ∨ ∃ id c h, e = .act id c (.registerHandler h none)) ∧
      ∀ n rest d, processEntities res (n + 1) (e :: rest) d k s =
        (match processEntities res n (e.describeSub res) false next s1 with
          | none => none
          | some s2 =>
            match searchAll (fun l => processEntities res n l true next) (e.describeConditional res) s2 with
            | none => none
            | some s3 => processEntities res n rest d k s3) := by
  cases e with
  | desc es => exact ⟨s, k, rfl, by simp, fun _ _ _ => rfl⟩
  | act id c kind =>
    cases kind with
    | resetLC x => exact absurd rfl (hr id c x)
    | declareArg a b cc => exact absurd rfl (hd id c a b cc)
    | includeLD src args =>
      refine ⟨(s.enterInclude k args).1, (s.enterInclude k args).2, ?_, ?_, fun _ _ _ => rfl⟩
      · cases k <;> rfl
      · cases k <;> simp [ArgState.enterInclude]
    | registerHandler h d =>
      cases d with
      | none => exact ⟨{ s with raised := true }, k, rfl, by simp, fun _ _ _ => rfl⟩
      | some d => exact ⟨s, k, rfl, by simp, fun _ _ _ => rfl⟩
    | _ => exact ⟨s, k, rfl, by simp, fun _ _ _ => rfl⟩

/-- The three searches for one entity: below it, what comes later, the rest of the list. -/
theorem processEntities_parts {res : Nat → Option (List Entity)} {e : Entity}
    (hr : ∀ id c k, e ≠ .act id c (.resetLC k)) (hd : ∀ id c n df ch, e ≠ .act id c (.declareArg n df ch))
    {k : Option Nat} {s s' : ArgState} {n : Nat} {rest : List Entity} {d : Bool}
    (h : processEntities res (n + 1) (e :: rest) d k s = some s') :
    ∃ s1 s2 s3 next, s1.entries = s.entries ∧
      (s1.raised = true ↔ s.raised = true ∨ ∃ id c h, e = .act id c (.registerHandler h none)) ∧
      (processEntities res n (e.parts res) e.hasCondition next s1 = some s2 ∨ (e.parts res = [] ∧ s1 = s2)) ∧
      (processEntities res n e.later true next s2 = some s3 ∨ (e.later = [] ∧ s2 = s3)) ∧
      processEntities res n rest d k s3 = some s' := by
  obtain ⟨s1, next, he, hra, heq⟩ := processEntities_cons res e hr hd k s
  rw [heq] at h
  obtain ⟨hsub, a, b, hab, haF, haT, hb⟩ := describe_parts res e hr hd
  rw [hsub, hab] at h
  cases h1 : processEntities res n (if e.hasCondition = true then [] else e.parts res) false next s1 with
  | none => rw [h1] at h; simp at h
  | some s2 =>
    rw [h1] at h
    simp only [searchAll_append] at h
    cases h2 : searchAll (fun l => processEntities res n l true next) a s2 with
    | none => rw [h2] at h; simp at h
    | some s2' =>
      rw [h2] at h
      simp only [Option.bind_some] at h
      cases h3 : searchAll (fun l => processEntities res n l true next) b s2' with
      | none => rw [h3] at h; simp at h
      | some s3 =>
        rw [h3] at h
        refine ⟨s1, s2', s3, next, he, hra, ?_, searchAll_part hb h3, h⟩
        cases hc : e.hasCondition with
        | false =>
          rw [haF hc] at h2
          rw [hc] at h1
          simp only [searchAll, Option.some.injEq] at h2
          subst h2
          left; simpa using h1
        | true =>
          rw [hc, if_pos rfl] at h1
          have h12 : s1 = s2 := by
            cases n with
            | zero => simp [processEntities] at h1
            | succ n => simpa [processEntities] using h1
          subst h12
          exact searchAll_part (haT hc) h2

theorem search_flat (res : Nat → Option (List Entity)) :
    ∀ (n : Nat) (es : List Entity) (d u : Bool) (k : Option Nat) (s s' : ArgState),
      processEntities res n es d k s = some s' → ∃ ds, Flat res d u es ds ∧ Adds s s' ds
  | 0, _, _, _, _, _, _, h => by simp [processEntities] at h
  | n + 1, [], d, u, k, s, s', h => by
    simp [processEntities] at h; subst h; exact ⟨[], .nil, Adds.refl s⟩
  | n + 1, e :: rest, d, u, k, s, s', h => by
    have ih := search_flat res n
    -- the general case
    have gen : (∀ id c k, e ≠ .act id c (.resetLC k)) → (∀ id c n df ch, e ≠ .act id c (.declareArg n df ch)) →
        ∃ ds, Flat res d u (e :: rest) ds ∧ Adds s s' ds := by
      intro hr hd
      obtain ⟨s1, s2, s3, next, hent, _, h1, h2, h3⟩ := processEntities_parts hr hd h
      have hs1 : ∀ {x ds}, Adds s1 x ds → Adds s x ds := by
        intro x ds hx; unfold Adds at *; rw [hent] at hx; exact hx
      have b1 : ∃ xs, Flat res e.hasCondition (u || e.isConditional) (e.parts res) xs ∧ Adds s1 s2 xs := by
        rcases h1 with h1 | ⟨hp, rfl⟩
        · exact ih _ _ _ _ _ _ h1
        · exact ⟨[], by rw [hp]; exact .nil, Adds.refl _⟩
      have b2 : ∃ xs, Flat res true true e.later xs ∧ Adds s2 s3 xs := by
        rcases h2 with h2 | ⟨hp, rfl⟩
        · exact ih _ _ _ _ _ _ h2
        · exact ⟨[], by rw [hp]; exact .nil, Adds.refl _⟩
      obtain ⟨xs, fx, ax⟩ := b1
      obtain ⟨zs, fz, az⟩ := b2
      obtain ⟨ys, fy, ay⟩ := ih _ d u _ _ _ h3
      exact ⟨xs ++ (zs ++ ys), .other hr hd fx fz fy, (hs1 ax).trans (az.trans ay)⟩
    cases e with
    | desc es => exact gen (by simp) (by simp)
    | act id c kind =>
      cases kind with
      | resetLC x => simp [processEntities] at h; subst h; exact ⟨[], .reset, Adds.refl s⟩
      | declareArg name df ch =>
        simp only [processEntities] at h
        obtain ⟨ys, fy, ay⟩ := ih _ d u _ _ _ h
        refine ⟨_, .decl fy, ?_⟩
        have h1 : Adds s (s.addDecl id name df.isSome (d || c.isSome) k)
            [⟨id, name, df.isSome, d || c.isSome, u || c.isSome⟩] := addDecl_key s _ _ _ _ _ _
        exact h1.trans ay
      | _ => exact gen (by simp) (by simp)

/-- The search meets TypeError exactly if a handler that cannot be described is met. -/
theorem search_raised (res : Nat → Option (List Entity)) :
    ∀ (n : Nat) (es : List Entity) (d : Bool) (k : Option Nat) (s s' : ArgState),
      processEntities res n es d k s = some s' →
        (s'.raised = true ↔ s.raised = true ∨ MeetsUndescribable res es)
  | 0, _, _, _, _, _, h => by simp [processEntities] at h
  | n + 1, [], d, k, s, s', h => by
    simp [processEntities] at h; subst h
    exact ⟨.inl, fun h => h.elim id fun h => by cases h⟩
  | n + 1, e :: rest, d, k, s, s', h => by
    have ih := search_raised res n
    have gen : (∀ id c k, e ≠ .act id c (.resetLC k)) → (∀ id c n df ch, e ≠ .act id c (.declareArg n df ch)) →
        (s'.raised = true ↔ s.raised = true ∨ MeetsUndescribable res (e :: rest)) := by
      intro hr hd
      obtain ⟨s1, s2, s3, next, _, hra, h1, h2, h3⟩ := processEntities_parts hr hd h
      have noNil : ¬ MeetsUndescribable res [] := fun h => by cases h
      have b1 : s2.raised = true ↔ s1.raised = true ∨ MeetsUndescribable res (e.parts res) := by
        rcases h1 with h1 | ⟨hp, rfl⟩
        · exact ih _ _ _ _ _ h1
        · rw [hp]; exact ⟨.inl, fun h => h.elim id fun h => absurd h noNil⟩
      have b2 : s3.raised = true ↔ s2.raised = true ∨ MeetsUndescribable res e.later := by
        rcases h2 with h2 | ⟨hp, rfl⟩
        · exact ih _ _ _ _ _ h2
        · rw [hp]; exact ⟨.inl, fun h => h.elim id fun h => absurd h noNil⟩
      rw [ih _ _ _ _ _ h3, b2, b1, hra]
      constructor
      · rintro ((((h | ⟨id, c, hh, rfl⟩) | h) | h) | h)
        · exact .inl h
        · exact .inr .here
        · exact .inr (.inside h)
        · exact .inr (.later h)
        · exact .inr (.rest hr h)
      · rintro (h | h)
        · exact .inl (.inl (.inl (.inl h)))
        · cases h with
          | here => exact .inl (.inl (.inl (.inr ⟨_, _, _, rfl⟩)))
          | inside hb => exact .inl (.inl (.inr hb))
          | later hl => exact .inl (.inr hl)
          | rest _ h => exact .inr h
    cases e with
    | desc es => exact gen (by simp) (by simp)
    | act id c kind =>
      cases kind with
      | resetLC x =>
        simp [processEntities] at h; subst h
        refine ⟨.inl, fun h => h.elim (fun h => h) fun h => ?_⟩
        cases h with
        | inside hb => cases hb
        | later hl => cases hl
        | rest hr _ => exact absurd rfl (hr _ _ _)
      | declareArg name df ch =>
        simp only [processEntities] at h
        rw [ih _ _ _ _ _ h]
        have : (s.addDecl id name df.isSome (d || c.isSome) k).raised = s.raised := by
          unfold ArgState.addDecl; split <;> rfl
        rw [this]
        refine or_congr Iff.rfl ⟨fun h => .rest (by simp) h, fun h => ?_⟩
        cases h with
        | inside hb => cases hb
        | later hl => cases hl
        | rest _ h => exact h
      | _ => exact gen (by simp) (by simp)

theorem processEntities_fuel_le (res : Nat → Option (List Entity)) {n m : Nat} (hle : n ≤ m) {es : List Entity}
    {b : Bool} {k : Option Nat} {s x : ArgState} (h : processEntities res n es b k s = some x) :
    processEntities res m es b k s = some x := by
  induction hle with
  | refl => exact h
  | step _ ih => exact processEntities_fuel _ _ _ _ _ _ _ ih

theorem flat_search {res : Nat → Option (List Entity)} {d u : Bool} {es : List Entity} {ds : List Decl}
    (h : Flat res d u es ds) : ∀ (k : Option Nat) (s : ArgState), ∃ n s', processEntities res n es d k s = some s' := by
  induction h with
  | nil => intro k s; exact ⟨1, s, rfl⟩
  | reset => intro k s; exact ⟨1, s, rfl⟩
  | decl h ih =>
    intro k s
    rename_i id c name df ch rest ds
    obtain ⟨n, s', hn⟩ := ih k (s.addDecl id name df.isSome (_ || c.isSome) k)
    exact ⟨n + 1, s', by simpa [processEntities] using hn⟩
  | @other d u e rest below later ds hr hd hb hl h ihb ihl ih =>
    intro k s
    obtain ⟨s1, next, _, _, hex⟩ := processEntities_cons res e hr hd k s
    obtain ⟨hsub, a, b, hab, haF, haT, hbb⟩ := describe_parts res e hr hd
    obtain ⟨n1, s2, h1⟩ := ihb next s1
    obtain ⟨n2, s3, h2⟩ := ihl next s2
    obtain ⟨n3, s4, h3⟩ := ih k s3
    let m := n1 + n2 + n3 + 1
    have h0 : ∀ (b : Bool) (s : ArgState), processEntities res m [] b next s = some s := fun b s => by
      simp [m, processEntities]
    have h1 := processEntities_fuel_le res (show n1 ≤ m by omega) h1
    have h2 := processEntities_fuel_le res (show n2 ≤ m by omega) h2
    have h3 := processEntities_fuel_le res (show n3 ≤ m by omega) h3
    refine ⟨m + 1, s4, ?_⟩
    rw [hex, hsub, hab]
    have hB := part_searchAll (f := fun l => processEntities res m l true next) hbb (h0 true) h2
    cases hc : e.hasCondition with
    | false =>
      rw [hc] at h1
      rw [haF hc]
      simp only [Bool.false_eq_true, if_false, List.nil_append]
      rw [h1]
      simp only [hB]
      exact h3
    | true =>
      rw [hc] at h1
      have hA := part_searchAll (f := fun l => processEntities res m l true next) (haT hc) (h0 true) h1
      simp only [if_true]
      rw [h0]
      simp only [searchAll_append, hA, Option.bind_some, hB]
      exact h3

/-! ## C11 -/

/-- C11: the arguments listed for a description are exactly the declarations met depth-first, the first of each
name, in that order. -/
theorem C11_lists_first_declarations (res : Nat → Option (List Entity)) (n : Nat) (es : List Entity) (b : Bool)
    (st : ArgState) (h : getLaunchArguments res n es b = some (.ok st)) :
    ∃ ds, Flat res b b es ds ∧ st.entries.map ArgEntry.key = (firstOfEach ds).map Decl.key := by
  unfold getLaunchArguments at h
  cases hp : processEntities res n es b none {} with
  | none => rw [hp] at h; simp at h
  | some st' =>
    rw [hp] at h
    simp only [Option.map_some, Option.some.injEq] at h
    split at h
    · simp at h
    · cases h
      obtain ⟨ds, hf, ha⟩ := search_flat res n es b b none {} st hp
      refine ⟨ds, hf, ?_⟩
      rw [← addNew_nil]
      simpa [Adds] using ha

/-- C11: asking for the arguments returns whenever the description has finitely many entities below it (no include
recurses into itself for ever), and it returns the list unless a handler that cannot be described is met: then it
raises TypeError, see `C11_single_entity_violated`. -/
theorem C11_terminates_partial (res : Nat → Option (List Entity)) (es : List Entity) (b : Bool) (ds : List Decl)
    (h : Flat res b b es ds) :
    ∃ n r, getLaunchArguments res n es b = some r ∧ (¬ MeetsUndescribable res es → ∃ st, r = .ok st) ∧
      (MeetsUndescribable res es → r = .error .typeError) := by
  obtain ⟨n, s', hs⟩ := flat_search h none {}
  refine ⟨n, _, by unfold getLaunchArguments; rw [hs]; rfl, ?_⟩
  have hra := search_raised res n es b none {} s' hs
  constructor
  · intro hno
    have : s'.raised ≠ true := fun hr => hno ((hra.mp hr).elim (fun h => by simp at h) id)
    exact ⟨s', if_neg this⟩
  · intro hyes
    exact if_pos (hra.mpr (.inr hyes))

/-- C11 is violated: a description that registers a handler given a single action (not a list) has no list of
arguments: asking for it raises TypeError (event_handler.py:141-158), although the action can be executed. -/
theorem C11_single_entity_violated (P : Prog) (O : Oracle) :
    getLaunchArguments (fun _ => none) 3
      [.act (.user 1) none (.registerHandler 2 none), .act (.user 3) none (.declareArg "a" none none)] false =
        some (.error .typeError) ∧
    ∃ c, execute P O 3 (.user 1) (.registerHandler 2 none) {} = some (c, .ok []) ∧ 2 ∈ c.handlers :=
  ⟨rfl, _, rfl, .head _⟩

/-- Both cases of `C11_terminates_partial` occur. -/
example : MeetsUndescribable (fun _ => none) [.desc [.act (.user 1) none (.registerHandler 2 none)]] ∧
    ¬ MeetsUndescribable (fun _ => none) [.act (.user 1) none (.declareArg "a" none none)] := by
  refine ⟨.inside .here, fun h => ?_⟩
  cases h with
  | inside h => cases h
  | later h => cases h
  | rest _ h => cases h

theorem firstOfEach_mem {ds : List Decl} {x : Decl} (h : x ∈ firstOfEach ds) : x ∈ ds := by
  induction ds with
  | nil => simp [firstOfEach] at h
  | cons d ds ih =>
    simp only [firstOfEach, List.mem_cons, List.mem_filter] at h
    rcases h with rfl | ⟨h, _⟩
    · simp
    · exact List.mem_cons_of_mem _ (ih h)

/-- C11, about the specification: the first of each name are each name once, every name that occurs, each time the
first declaration of that name, in the original order. -/
theorem C11_first_of_each (ds : List Decl) :
    ((firstOfEach ds).map (·.name)).Nodup ∧
    (∀ d ∈ ds, d.name ∈ (firstOfEach ds).map (·.name)) ∧
    (∀ x ∈ firstOfEach ds, ds.find? (fun y => y.name == x.name) = some x) ∧
    (firstOfEach ds).Sublist ds := by
  induction ds with
  | nil => simp [firstOfEach]
  | cons d ds ih =>
    obtain ⟨h1, h2, h3, h4⟩ := ih
    refine ⟨?_, ?_, ?_, ?_⟩
    · simp only [firstOfEach, List.map_cons, List.nodup_cons]
      constructor
      · intro hm
        obtain ⟨x, hx, hn⟩ := List.mem_map.mp hm
        have := (List.mem_filter.mp hx).2
        simp [hn] at this
      · exact ((List.filter_sublist).map _).nodup h1
    · intro y hy
      simp only [firstOfEach, List.map_cons, List.mem_cons]
      rcases List.mem_cons.mp hy with rfl | hy
      · exact .inl rfl
      · by_cases hn : y.name = d.name
        · exact .inl hn
        · right
          obtain ⟨x, hx, hxn⟩ := List.mem_map.mp (h2 y hy)
          exact List.mem_map.mpr ⟨x, List.mem_filter.mpr ⟨hx, by simp [hxn, hn]⟩, hxn⟩
    · intro x hx
      simp only [firstOfEach, List.mem_cons] at hx
      rcases hx with rfl | hx
      · simp
      · obtain ⟨hx1, hx2⟩ := List.mem_filter.mp hx
        have hne : (d.name == x.name) = false := by
          simp at hx2; simp [Ne.symm hx2]
        rw [List.find?_cons, hne]
        exact h3 x hx1
    · exact (List.Sublist.trans List.filter_sublist h4).cons_cons _

/-- A description with a group, a conditional group, an include and a duplicate. -/
def sampleArgs : List Entity :=
  [.act (.user 1) none (.declareArg "a" none none),
   .act (.user 2) none (.group true true []
     [.act (.user 3) none (.declareArg "b" (some [.text "1"]) none),
      .act (.user 4) none (.declareArg "a" none none)]),
   .act (.user 5) (some (.ifC [.text "1"])) (.group false true []
     [.act (.user 6) none (.declareArg "c" none none)]),
   .act (.user 7) none (.includeLD 1 []),
   .act (.user 8) none (.resetLC none),
   .act (.user 9) none (.declareArg "e" none none)]

example : (getLaunchArguments (fun _ => some [.act (.user 20) none (.declareArg "d" none none)]) 20
    sampleArgs false).bind (fun r => r.toOption.map (fun st => st.entries.map ArgEntry.key)) =
    some [(.user 1, "a", false, false), (.user 3, "b", true, false), (.user 6, "c", false, true),
      (.user 20, "d", false, false)] := by decide +kernel

/-! ## C12 -/

theorem flat_direct_under {res : Nat → Option (List Entity)} {d u : Bool} {es : List Entity} {ds : List Decl}
    (h : Flat res d u es ds) : (d = true → u = true) → ∀ x ∈ ds, x.direct = true → x.under = true := by
  induction h with
  | nil => intro _ x hx; simp at hx
  | reset => intro _ x hx; simp at hx
  | decl h ih =>
    intro hdu x hx hdir
    rcases List.mem_cons.mp hx with rfl | hx
    · simp only [Bool.or_eq_true] at hdir ⊢
      exact hdir.imp hdu id
    · exact ih hdu x hx hdir
  | @other _ _ e _ _ _ _ hr hd hb hl h ihb ihl ih =>
    intro hdu x hx hdir
    rcases List.mem_append.mp hx with hx | hx
    · refine ihb (fun h => ?_) x hx hdir
      have : e.isConditional = true := by
        cases e with
        | desc es => exact h
        | act id c kind => cases kind <;> first | exact h | rfl
      simp [this]
    · rcases List.mem_append.mp hx with hx | hx
      · exact ihl (fun _ => rfl) x hx hdir
      · exact ih hdu x hx hdir

/-- C12 (partial): an argument is reported as conditionally included exactly if its first declaration has a condition
itself or is listed directly below something conditional; in particular what is reported as conditional is
declared below something conditional.  Missing: a declaration below a conditional action but inside a further
unconditional group or description is not reported, see `C12_nested_violated`. -/
theorem C12_directly_conditional_partial (res : Nat → Option (List Entity)) (n : Nat) (es : List Entity)
    (st : ArgState) (h : getLaunchArguments res n es false = some (.ok st)) :
    ∃ ds, Flat res false false es ds ∧
      (∀ e ∈ st.entries, ∃ d ∈ ds, ds.find? (fun y => y.name == e.name) = some d ∧ e.id = d.id ∧
        (e.conditional = true ↔ d.direct = true) ∧ (e.conditional = true → d.under = true)) := by
  obtain ⟨ds, hf, hk⟩ := C11_lists_first_declarations res n es false st h
  refine ⟨ds, hf, ?_⟩
  intro e he
  have : e.key ∈ (firstOfEach ds).map Decl.key := by rw [← hk]; exact List.mem_map_of_mem he
  obtain ⟨d, hd, hkey⟩ := List.mem_map.mp this
  simp only [Decl.key, ArgEntry.key, Prod.mk.injEq] at hkey
  obtain ⟨h1, h2, h3, h4⟩ := hkey
  refine ⟨d, firstOfEach_mem hd, ?_, h1.symm, by rw [h4], ?_⟩
  · rw [← h2]; exact (C11_first_of_each ds).2.2.1 d hd
  · intro hc
    exact flat_direct_under hf (by simp) d (firstOfEach_mem hd) (h4.trans hc)

/-- C12 is violated: an argument declared in a group inside a conditional group is reported as not conditional
(launch_description.py:152-155 starts again with False). -/
theorem C12_nested_violated (res : Nat → Option (List Entity)) :
    ∃ st, getLaunchArguments res 5
      [.act (.user 1) (some (.ifC [.text "false"])) (.group false true []
        [.act (.user 2) none (.group false true [] [.act (.user 3) none (.declareArg "x" none none)])])] false =
        some (.ok st) ∧ st.entries = [⟨.user 3, "x", false, false, none⟩] ∧
    Flat res false false [.act (.user 1) (some (.ifC [.text "false"])) (.group false true []
        [.act (.user 2) none (.group false true [] [.act (.user 3) none (.declareArg "x" none none)])])]
      [⟨.user 3, "x", false, false, true⟩] := by
  refine ⟨_, rfl, rfl, ?_⟩
  refine .other (below := [⟨.user 3, "x", false, false, true⟩]) (later := []) (ds := []) (by simp) (by simp) ?_ .nil .nil
  refine .other (below := [⟨.user 3, "x", false, false, true⟩]) (later := []) (ds := []) (by simp) (by simp) ?_ .nil .nil
  exact .decl .nil

/-- C12 is violated: an argument declared in the actions that follow the exit of a process (`on_exit`), which may never
be executed, is reported as not conditional (execute_local.py:262-265 and action.py:92-94), while the
same declaration as an action of a timer is reported as conditional. -/
theorem C12_on_exit_violated (res : Nat → Option (List Entity)) :
    ∃ st, getLaunchArguments res 5
      [.act (.user 1) none (.custom 7 [.act (.user 2) none (.declareArg "x" none none)] []),
       .act (.user 3) none (.custom 8 [] [.act (.user 4) none (.declareArg "y" none none)])] false = some (.ok st) ∧
      st.entries = [⟨.user 2, "x", false, false, none⟩, ⟨.user 4, "y", false, true, none⟩] ∧
    Flat res false false
      [.act (.user 1) none (.custom 7 [.act (.user 2) none (.declareArg "x" none none)] []),
       .act (.user 3) none (.custom 8 [] [.act (.user 4) none (.declareArg "y" none none)])]
      [⟨.user 2, "x", false, false, true⟩, ⟨.user 4, "y", false, true, true⟩] := by
  refine ⟨_, rfl, rfl, ?_⟩
  refine .other (below := [⟨.user 2, "x", false, false, true⟩]) (later := [])
    (ds := [⟨.user 4, "y", false, true, true⟩]) (by simp) (by simp) (.decl .nil) .nil ?_
  exact .other (below := []) (later := [⟨.user 4, "y", false, true, true⟩]) (ds := []) (by simp) (by simp) .nil
    (.decl .nil) .nil

end Verif
