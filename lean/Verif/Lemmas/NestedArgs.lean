import Verif.Spec.NestedArgs
import Verif.Props.Args
import Verif.Props.Actions

/-!
# The lists of includes kept by the search for arguments
-/

namespace Verif

/-- What the search does with an entity before it looks below it. -/
def searchInto (e : Entity) (k : Option Nat) (s : ArgState) : ArgState × Option Nat :=
  match e with
  | .act _ _ (.includeLD _ args) => s.enterInclude k args
  | .act _ _ (.registerHandler _ none) => ({ s with raised := true }, k)
  | _ => (s, k)

theorem processEntities_into (res : Nat → Option (List Entity)) (e : Entity)
    (hr : ∀ id c k, e ≠ .act id c (.resetLC k)) (hd : ∀ id c n df ch, e ≠ .act id c (.declareArg n df ch))
    (k : Option Nat) (s : ArgState) (n : Nat) (rest : List Entity) (d : Bool) :
    processEntities res (n + 1) (e :: rest) d k s =
        (match processEntities res n (e.describeSub res) false (searchInto e k s).2 (searchInto e k s).1 with
          | none => none
          | some s2 =>
            match searchAll (fun l => processEntities res n l true (searchInto e k s).2) (e.describeConditional res) s2 with
            | none => none
            | some s3 => processEntities res n rest d k s3) := by
  cases e with
  | desc es => rfl
  | act id c kind =>
    cases kind with
    | resetLC x => exact absurd rfl (hr id c x)
    | declareArg a b cc => exact absurd rfl (hd id c a b cc)
    | registerHandler h d => cases d <;> rfl
    | _ => rfl

/-- The three searches for one entity. -/
theorem processEntities_three {res : Nat → Option (List Entity)} {e : Entity}
    (hr : ∀ id c k, e ≠ .act id c (.resetLC k)) (hd : ∀ id c n df ch, e ≠ .act id c (.declareArg n df ch))
    {k : Option Nat} {s s' : ArgState} {n : Nat} {rest : List Entity} {d : Bool}
    (h : processEntities res (n + 1) (e :: rest) d k s = some s') :
    ∃ s2 s3, (processEntities res n (e.parts res) e.hasCondition (searchInto e k s).2 (searchInto e k s).1 = some s2 ∨
        (e.parts res = [] ∧ (searchInto e k s).1 = s2)) ∧
      (processEntities res n e.later true (searchInto e k s).2 s2 = some s3 ∨ (e.later = [] ∧ s2 = s3)) ∧
      processEntities res n rest d k s3 = some s' := by
  rw [processEntities_into res e hr hd] at h
  generalize (searchInto e k s).1 = s1 at h ⊢
  generalize (searchInto e k s).2 = next at h ⊢
  obtain ⟨hsub, a, b, hab, haF, haT, hb⟩ := describe_parts res e hr hd
  rw [hsub, hab] at h
  cases h1 : processEntities res n (if e.hasCondition = true then [] else e.parts res) false next s1 with
  | none => rw [h1] at h; simp at h
  | some s2 =>
    rw [h1] at h
    simp only [searchAll_append] at h
    cases h2 : searchAll (fun l => processEntities res n l true next) a s2 with
    | none => rw [h2] at h; simp at h
    | some s2' =>
      rw [h2] at h
      simp only [Option.bind_some] at h
      cases h3 : searchAll (fun l => processEntities res n l true next) b s2' with
      | none => rw [h3] at h; simp at h
      | some s3 =>
        rw [h3] at h
        refine ⟨s2', s3, ?_, searchAll_part hb h3, h⟩
        cases hc : e.hasCondition with
        | false =>
          rw [haF hc] at h2
          rw [hc] at h1
          simp only [searchAll, Option.some.injEq] at h2
          subst h2
          left; simpa using h1
        | true =>
          rw [hc, if_pos rfl] at h1
          have h12 : s1 = s2 := by
            cases n with
            | zero => simp [processEntities] at h1
            | succ n => simpa [processEntities] using h1
          subst h12
          exact searchAll_part (haT hc) h2

/-- The lists only grow. -/
def HeapLe (s s' : ArgState) : Prop :=
  s.heap.length ≤ s'.heap.length ∧ ∀ i a, a ∈ s.heap.getD i [] → a ∈ s'.heap.getD i []

theorem HeapLe.refl (s : ArgState) : HeapLe s s := ⟨Nat.le_refl _, fun _ _ h => h⟩

theorem HeapLe.trans {a b c : ArgState} (h1 : HeapLe a b) (h2 : HeapLe b c) : HeapLe a c :=
  ⟨Nat.le_trans h1.1 h2.1, fun i x h => h2.2 i x (h1.2 i x h)⟩

/-- The includes on the way to where the search is are in the list it carries. -/
def OnPath (s : ArgState) (k : Option Nat) (p : List IncludeArgs) : Prop :=
  (∀ i, k = some i → i < s.heap.length) ∧ ∀ a ∈ p, ∃ i, k = some i ∧ a ∈ s.heap.getD i []

theorem OnPath.mono {s s' : ArgState} {k : Option Nat} {p : List IncludeArgs} (h : OnPath s k p) (hl : HeapLe s s') : OnPath s' k p :=
  ⟨fun i hi => Nat.lt_of_lt_of_le (h.1 i hi) hl.1, fun a ha =>
    let ⟨i, hi, hm⟩ := h.2 a ha
    ⟨i, hi, hl.2 i a hm⟩⟩

theorem enterInclude_path {s : ArgState} {k : Option Nat} {p : List IncludeArgs} (h : OnPath s k p) (args : IncludeArgs) :
    HeapLe s (s.enterInclude k args).1 ∧ (s.enterInclude k args).1.entries = s.entries ∧
      OnPath (s.enterInclude k args).1 (s.enterInclude k args).2 (p ++ [args]) ∧
      (∀ i a, a ∈ (s.enterInclude k args).1.heap.getD i [] → a ∈ s.heap.getD i [] ∨ a = args) := by
  cases k with
  | none =>
    have hp : p = [] := by
      cases p with
      | nil => rfl
      | cons a p => obtain ⟨i, hi, _⟩ := h.2 a (by simp); simp at hi
    subst hp
    simp only [ArgState.enterInclude]
    refine ⟨⟨by simp, fun i a ha => ?_⟩, trivial, ⟨fun i hi => ?_, fun a ha => ?_⟩, fun i a ha => ?_⟩
    · simp only [List.getD_eq_getElem?_getD] at ha ⊢
      by_cases hi : i < s.heap.length
      · rw [List.getElem?_append_left hi]; exact ha
      · rw [List.getElem?_eq_none (by omega)] at ha; simp at ha
    · cases hi; simp
    · simp only [List.nil_append, List.mem_singleton] at ha
      subst ha
      exact ⟨_, rfl, by simp [List.getD_eq_getElem?_getD]⟩
    · simp only [List.getD_eq_getElem?_getD] at ha ⊢
      by_cases hi : i < s.heap.length
      · rw [List.getElem?_append_left hi] at ha; exact .inl ha
      · rw [List.getElem?_append_right (by omega)] at ha
        right
        cases hj : i - s.heap.length with
        | zero => rw [hj] at ha; simpa using ha
        | succ j => rw [hj] at ha; simp at ha
  | some j =>
    simp only [ArgState.enterInclude]
    have hj : j < s.heap.length := h.1 j rfl
    have key : ∀ i, (s.heap.modify j (fun l => l ++ [args])).getD i [] =
        if i = j then s.heap.getD i [] ++ [args] else s.heap.getD i [] := by
      intro i
      simp only [List.getD_eq_getElem?_getD, List.getElem?_modify]
      by_cases hi : j = i
      · subst hi
        simp [List.getElem?_eq_getElem hj]
      · have : ¬ i = j := fun h => hi h.symm
        simp [hi, this]
    refine ⟨⟨by simp, fun i a ha => ?_⟩, trivial, ⟨fun i hi => ?_, fun a ha => ?_⟩, fun i a ha => ?_⟩
    · rw [key]
      split
      · exact List.mem_append_left _ ha
      · exact ha
    · cases hi; simpa using hj
    · refine ⟨j, rfl, ?_⟩
      rw [key, if_pos rfl]
      rcases List.mem_append.mp ha with ha | ha
      · obtain ⟨i, hi, hm⟩ := h.2 a ha
        cases hi
        exact List.mem_append_left _ hm
      · exact List.mem_append_right _ ha
    · rw [key] at ha
      split at ha
      · rcases List.mem_append.mp ha with ha | ha
        · exact .inl ha
        · exact .inr (by simpa using ha)
      · exact .inl ha

theorem Under.cons {res : Nat → Option (List Entity)} {e : Entity} {es : List Entity} {p : List IncludeArgs} {id : ActId} {name : String}
    (h : Under res es p id name) : Under res (e :: es) p id name := by
  cases h with
  | here he => exact .here (.tail _ he)
  | inside he hi h => exact .inside (.tail _ he) hi h
  | later he h => exact .later (.tail _ he) h
  | included he h => exact .included (.tail _ he) h

theorem IncludesBelow.cons {res : Nat → Option (List Entity)} {e : Entity} {es : List Entity} {args : IncludeArgs}
    (h : IncludesBelow res es args) : IncludesBelow res (e :: es) args := by
  cases h with
  | here he => exact .here (.tail _ he)
  | inside he h => exact .inside (.tail _ he) h
  | later he h => exact .later (.tail _ he) h

/-- What the search adds, with the includes around it. -/
structure Found (res : Nat → Option (List Entity)) (es : List Entity) (p : List IncludeArgs) (s s' : ArgState) : Prop where
  le : HeapLe s s'
  entries : ∀ e ∈ s'.entries, e ∈ s.entries ∨ ∃ q, Under res es q e.id e.name ∧ ∀ a ∈ p ++ q, ∃ i, e.nested = some i ∧ a ∈ s'.heap.getD i []
  heap : ∀ i a, a ∈ s'.heap.getD i [] → a ∈ s.heap.getD i [] ∨ IncludesBelow res es a

theorem Found.refl (res : Nat → Option (List Entity)) (es : List Entity) (p : List IncludeArgs) (s : ArgState) : Found res es p s s :=
  ⟨.refl s, fun _ h => .inl h, fun _ _ h => .inl h⟩

theorem Found.grow {res : Nat → Option (List Entity)} {es : List Entity} {p : List IncludeArgs} {s s1 s' : ArgState}
    (hl : HeapLe s1 s') (he : ∀ e ∈ s1.entries, e ∈ s.entries ∨ ∃ q, Under res es q e.id e.name ∧
      ∀ a ∈ p ++ q, ∃ i, e.nested = some i ∧ a ∈ s1.heap.getD i []) :
    ∀ e ∈ s1.entries, e ∈ s.entries ∨ ∃ q, Under res es q e.id e.name ∧ ∀ a ∈ p ++ q, ∃ i, e.nested = some i ∧ a ∈ s'.heap.getD i [] := by
  intro e hm
  rcases he e hm with h1 | ⟨q, hq, hall⟩
  · exact .inl h1
  · refine .inr ⟨q, hq, fun a ha => ?_⟩
    obtain ⟨i, hi, hx⟩ := hall a ha
    exact ⟨i, hi, hl.2 i a hx⟩

/-- Both parts of a search. -/
theorem Found.trans {res : Nat → Option (List Entity)} {es : List Entity} {p : List IncludeArgs} {a b c : ArgState}
    (h1 : Found res es p a b) (h2 : Found res es p b c) : Found res es p a c := by
  refine ⟨h1.le.trans h2.le, fun e he => ?_, fun i x hx => ?_⟩
  · rcases h2.entries e he with h | h
    · exact Found.grow h2.le h1.entries e h
    · exact .inr h
  · rcases h2.heap i x hx with h | h
    · exact h1.heap i x h
    · exact .inr h

theorem search_found (res : Nat → Option (List Entity)) :
    ∀ (n : Nat) (es : List Entity) (d : Bool) (k : Option Nat) (p : List IncludeArgs) (s s' : ArgState),
      processEntities res n es d k s = some s' → OnPath s k p → Found res es p s s'
  | 0, _, _, _, _, _, _, h, _ => by simp [processEntities] at h
  | n + 1, [], d, k, p, s, s', h, _ => by
    simp only [processEntities, Option.some.injEq] at h
    subst h
    exact .refl ..
  | n + 1, e :: rest, d, k, p, s, s', h, hp => by
    -- what the rest of the list gives
    have tail : ∀ {x y : ArgState}, Found res rest p x y → Found res (e :: rest) p x y := by
      intro x y hf
      refine ⟨hf.le, fun a ha => ?_, fun i a ha => ?_⟩
      · rcases hf.entries a ha with h | ⟨q, hq, hall⟩
        · exact .inl h
        · exact .inr ⟨q, hq.cons, hall⟩
      · rcases hf.heap i a ha with h | h
        · exact .inl h
        · exact .inr h.cons
    by_cases hr : ∃ id c k, e = .act id c (.resetLC k)
    · obtain ⟨id, c, k', rfl⟩ := hr
      simp only [processEntities, Option.some.injEq] at h
      subst h
      exact .refl ..
    by_cases hd : ∃ id c nm df ch, e = .act id c (.declareArg nm df ch)
    · obtain ⟨id, c, nm, df, ch, rfl⟩ := hd
      simp only [processEntities] at h
      refine Found.trans (b := s.addDecl id nm df.isSome (d || c.isSome) k) ?_ (tail (search_found res n rest d k p _ s' h ?_))
      · unfold ArgState.addDecl
        split
        · exact .refl ..
        · refine ⟨⟨Nat.le_refl _, fun _ _ h => h⟩, fun x hx => ?_, fun _ _ h => .inl h⟩
          rcases List.mem_append.mp hx with h1 | h1
          · exact .inl h1
          · simp only [List.mem_singleton] at h1
            subst h1
            refine .inr ⟨[], .here (.head _), fun a ha => ?_⟩
            rw [List.append_nil] at ha
            exact hp.2 a ha
      · unfold ArgState.addDecl
        split
        · exact hp
        · exact hp
    have hr' : ∀ id c k, e ≠ .act id c (.resetLC k) := fun id c k he => hr ⟨id, c, k, he⟩
    have hd' : ∀ id c n df ch, e ≠ .act id c (.declareArg n df ch) := fun id c a b x he => hd ⟨id, c, a, b, x, he⟩
    obtain ⟨s2, s3, h1, h2, h3⟩ := processEntities_three hr' hd' h
    by_cases hin : ∃ i c src args, e = .act i c (.includeLD src args)
    · obtain ⟨i, c, src, args, rfl⟩ := hin
      obtain ⟨hle, hent, hpath, hheap⟩ := enterInclude_path hp args
      simp only [searchInto] at h1 h2
      have f1 : Found res ((Entity.act i c (.includeLD src args)).parts res) (p ++ [args]) (s.enterInclude k args).1 s2 := by
        rcases h1 with h1 | ⟨_, h1⟩
        · exact search_found res n _ _ _ _ _ _ h1 hpath
        · subst h1; exact .refl ..
      have f1' : Found res (.act i c (.includeLD src args) :: rest) p s s2 := by
        refine ⟨hle.trans f1.le, fun x hx => ?_, fun j a ha => ?_⟩
        · rcases f1.entries x hx with h | ⟨q, hq, hall⟩
          · rw [hent] at h; exact .inl h
          · refine .inr ⟨args :: q, .included (.head _) hq, fun a ha => hall a ?_⟩
            simpa using ha
        · rcases f1.heap j a ha with h | h
          · rcases hheap j a h with h | rfl
            · exact .inl h
            · exact .inr (.here (.head _))
          · exact .inr (.inside (.head _) h)
      have h23 : s2 = s3 := by
        rcases h2 with h2 | ⟨_, h2⟩
        · have hl : (Entity.act i c (.includeLD src args)).later = [] := rfl
          rw [hl] at h2
          cases n with
          | zero => simp [processEntities] at h2
          | succ n => simpa [processEntities] using h2
        · exact h2
      subst h23
      exact f1'.trans (tail (search_found res n rest d k p _ s' h3 (hp.mono f1'.le)))
    · have hi' : ∀ i c src args, e ≠ .act i c (.includeLD src args) := fun i c x y he => hin ⟨i, c, x, y, he⟩
      have hs1 : (searchInto e k s).1.entries = s.entries ∧ (searchInto e k s).1.heap = s.heap ∧ (searchInto e k s).2 = k := by
        unfold searchInto
        split
        · next a b cc args => exact absurd rfl (hi' a b cc args)
        · exact ⟨rfl, rfl, rfl⟩
        · exact ⟨rfl, rfl, rfl⟩
      obtain ⟨e1, e2, e3⟩ := hs1
      rw [e3] at h1 h2
      have hp1 : OnPath (searchInto e k s).1 k p := by
        unfold OnPath; rw [e2]; exact hp
      have f0 : Found res (e :: rest) p s (searchInto e k s).1 :=
        ⟨⟨by rw [e2]; exact Nat.le_refl _, fun i a ha => by rw [e2]; exact ha⟩, fun x hx => .inl (by rw [← e1]; exact hx),
          fun i a ha => .inl (by rw [← e2]; exact ha)⟩
      have f1 : Found res (e :: rest) p (searchInto e k s).1 s2 := by
        rcases h1 with h1 | ⟨_, h1⟩
        · have f := search_found res n _ _ _ p _ _ h1 hp1
          refine ⟨f.le, fun a ha => ?_, fun i a ha => ?_⟩
          · rcases f.entries a ha with h | ⟨q, hq, hall⟩
            · exact .inl h
            · exact .inr ⟨q, .inside (.head _) hi' hq, hall⟩
          · rcases f.heap i a ha with h | h
            · exact .inl h
            · exact .inr (.inside (.head _) h)
        · rw [h1]; exact .refl ..
      have f2 : Found res (e :: rest) p s2 s3 := by
        rcases h2 with h2 | ⟨_, h2⟩
        · have f := search_found res n _ _ _ p _ _ h2 (hp1.mono f1.le)
          refine ⟨f.le, fun a ha => ?_, fun i a ha => ?_⟩
          · rcases f.entries a ha with h | ⟨q, hq, hall⟩
            · exact .inl h
            · exact .inr ⟨q, .later (.head _) hq, hall⟩
          · rcases f.heap i a ha with h | h
            · exact .inl h
            · exact .inr (.later (.head _) h)
        · rw [h2]; exact .refl ..
      have f02 := (f0.trans f1).trans f2
      exact f02.trans (tail (search_found res n rest d k p _ s' h3 (hp.mono f02.le)))

end Verif
