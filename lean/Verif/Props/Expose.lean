import Verif.Spec.Expose

/-!
# Property C102: what names in launch files mean
-/

namespace Verif

theorem put_get (r : ParseMethods) (k k' : ExposeKind) (n n' : String) (m : StoredMethod) :
    ((r.put k n m).map k').get? n' = if k = k' ∧ n = n' then some m else (r.map k').get? n' := by
  cases k <;> cases k' <;> simp [ParseMethods.put, ParseMethods.map, Dict.get?_set]

theorem put_meaning (r : ParseMethods) (k k' : ExposeKind) (n n' : String) (m : ParseMethod) :
    (r.put k n (k.store m)).meaning k' n' = if k = k' ∧ n = n' then some m else r.meaning k' n' := by
  unfold ParseMethods.meaning
  rw [put_get]
  split
  · rename_i h; obtain ⟨rfl, rfl⟩ := h; cases k <;> rfl
  · rfl

/-- The three ways using a decorator can end. -/
theorem expose_cases (r : ParseMethods) (kind : ExposeKind) (name : String) (x : Exposed) :
    (r.expose kind name x = (r, .error .runtimeError) ∧
      ((∀ m, x.method ≠ .ok m) ∨ ∃ m old, x.method = .ok m ∧ (r.map kind).get? name = some old ∧ StoredMethod.plain m ≠ old)) ∨
    (∃ m, x.method = .ok m ∧ r.expose kind name x = (r.put kind name (kind.store m), .ok ()) ∧
      ((r.map kind).get? name = none ∨ (r.map kind).get? name = some (.plain m))) := by
  unfold ParseMethods.expose
  cases hx : x.method with
  | error e =>
    left
    have : e = .runtimeError := by
      cases x with
      | cls c p => cases p <;> simp [Exposed.method] at hx; exact hx.symm
      | function f => simp [Exposed.method] at hx
      | other => simp [Exposed.method] at hx; exact hx.symm
    subst this
    exact ⟨rfl, .inl (by simp)⟩
  | ok m =>
    simp only
    cases hg : (r.map kind).get? name with
    | none => right; exact ⟨m, rfl, rfl, .inl rfl⟩
    | some old =>
      simp only
      by_cases h : StoredMethod.plain m = old
      · right; refine ⟨m, rfl, ?_, .inr (by rw [h])⟩
        rw [if_neg (by simpa using h)]
      · left; exact ⟨if_pos h, .inr ⟨m, old, rfl, rfl, h⟩⟩

/-- Using a decorator keeps every meaning there is. -/
theorem expose_keeps (r : ParseMethods) (kind k : ExposeKind) (name n : String) (x : Exposed) (m : ParseMethod)
    (h : r.meaning k n = some m) : (r.expose kind name x).1.meaning k n = some m := by
  rcases expose_cases r kind name x with ⟨h1, _⟩ | ⟨m', _, h1, h2⟩
  · rw [h1]; exact h
  · rw [h1]
    simp only [put_meaning]
    split
    · rename_i hk
      obtain ⟨rfl, rfl⟩ := hk
      unfold ParseMethods.meaning at h
      rcases h2 with h2 | h2
      · rw [h2] at h; simp at h
      · rw [h2] at h; simpa [StoredMethod.calls] using h
    · exact h

/-- And every new meaning is given by it. -/
theorem expose_new (r : ParseMethods) (e : Exposure) (k : ExposeKind) (n : String) (m : ParseMethod)
    (h : (r.expose e.kind e.name e.what).1.meaning k n = some m) : r.meaning k n = some m ∨ e.Gives k n m := by
  rcases expose_cases r e.kind e.name e.what with ⟨h1, _⟩ | ⟨m', hm, h1, h2⟩
  · rw [h1] at h; exact .inl h
  · rw [h1] at h
    simp only [put_meaning] at h
    split at h
    · rename_i hk
      right
      exact ⟨hk.1, hk.2, by rw [hm]; simpa using h⟩
    · exact .inl h

theorem exposeAll_keeps (k : ExposeKind) (n : String) (m : ParseMethod) : ∀ (es : List Exposure) (r : ParseMethods),
    r.meaning k n = some m → (r.exposeAll es).1.meaning k n = some m
  | [], _, h => h
  | e :: es, r, h => by
    have h1 := expose_keeps r e.kind k e.name n e.what m h
    unfold ParseMethods.exposeAll
    cases hx : r.expose e.kind e.name e.what with
    | mk r1 res =>
      rw [hx] at h1
      cases res with
      | error err => exact h1
      | ok u => exact exposeAll_keeps k n m es r1 h1

theorem exposeAll_new (k : ExposeKind) (n : String) (m : ParseMethod) : ∀ (es : List Exposure) (r : ParseMethods),
    (r.exposeAll es).1.meaning k n = some m → r.meaning k n = some m ∨ ∃ e ∈ es, e.Gives k n m
  | [], _, h => .inl h
  | e :: es, r, h => by
    unfold ParseMethods.exposeAll at h
    have hn := expose_new r e k n m
    cases hx : r.expose e.kind e.name e.what with
    | mk r1 res =>
      rw [hx] at h hn
      cases res with
      | error err => exact (hn h).imp id fun hg => ⟨e, List.mem_cons_self, hg⟩
      | ok u =>
        rcases exposeAll_new k n m es r1 h with h1 | ⟨x, hx, hg⟩
        · exact (hn h1).imp id fun hg => ⟨e, List.mem_cons_self, hg⟩
        · exact .inr ⟨x, List.mem_cons_of_mem _ hx, hg⟩

theorem loadOne_fst (r : ParseMethods) (x : Extension) : (r.loadOne x).1 = (r.exposeAll x.exposures).1 := by
  unfold ParseMethods.loadOne
  cases r.exposeAll x.exposures with
  | mk r1 res => cases res <;> rfl

theorem loadEach_cons (s : FrontendSt) (x : Extension) (xs : List Extension) :
    s.loadEach (x :: xs) = FrontendSt.loadEach { s with
      methods := (s.methods.loadOne x).1
      warned := if (s.methods.loadOne x).2 then s.warned ++ [x.name] else s.warned } xs := by
  rw [FrontendSt.loadEach]

theorem loadEach_keeps (k : ExposeKind) (n : String) (m : ParseMethod) : ∀ (xs : List Extension) (s : FrontendSt),
    s.methods.meaning k n = some m → (s.loadEach xs).methods.meaning k n = some m
  | [], _, h => h
  | x :: xs, s, h => by
    rw [loadEach_cons]
    refine loadEach_keeps k n m xs _ ?_
    show ParseMethods.meaning (s.methods.loadOne x).1 k n = some m
    rw [loadOne_fst]
    exact exposeAll_keeps k n m _ _ h

theorem loadEach_new (k : ExposeKind) (n : String) (m : ParseMethod) : ∀ (xs : List Extension) (s : FrontendSt),
    (s.loadEach xs).methods.meaning k n = some m → s.methods.meaning k n = some m ∨ ∃ e ∈ allExposures xs, e.Gives k n m
  | [], _, h => .inl h
  | x :: xs, s, h => by
    rw [loadEach_cons] at h
    rcases loadEach_new k n m xs _ h with h | ⟨e, he, hg⟩
    · replace h : ParseMethods.meaning (s.methods.loadOne x).1 k n = some m := h
      rw [loadOne_fst] at h
      rcases exposeAll_new k n m _ _ h with h | ⟨e, he, hg⟩
      · exact .inl h
      · exact .inr ⟨e, by simp [allExposures, he], hg⟩
    · refine .inr ⟨e, ?_, hg⟩
      unfold allExposures at he ⊢
      simp only [List.map_cons, List.flatten_cons, List.mem_append]
      exact .inr he

theorem loadExtensions_keeps {k : ExposeKind} {n : String} {m : ParseMethod} {xs : List Extension} {s : FrontendSt}
    (h : s.methods.meaning k n = some m) : (s.loadExtensions xs).methods.meaning k n = some m := by
  unfold FrontendSt.loadExtensions
  split
  · exact h
  · exact loadEach_keeps k n m xs s h

theorem loadExtensions_new {k : ExposeKind} {n : String} {m : ParseMethod} {xs : List Extension} {s : FrontendSt}
    (h : (s.loadExtensions xs).methods.meaning k n = some m) :
    s.methods.meaning k n = some m ∨ ∃ e ∈ allExposures xs, e.Gives k n m := by
  unfold FrontendSt.loadExtensions at h
  split at h
  · exact .inl h
  · exact loadEach_new k n m xs s h

/-- The state after a step. -/
theorem step_methods (xs : List Extension) (s : FrontendSt) (op : FrontendOp) :
    (s.step xs op).1 = match op with
      | .expose e => { s with methods := (s.methods.expose e.kind e.name e.what).1 }
      | .parseAction _ => s.loadExtensions xs
      | .parseSubstitution _ => s := by
  cases op with
  | expose e =>
    simp only [FrontendSt.step]
    cases s.methods.expose e.kind e.name e.what with
    | mk r res => cases res <;> rfl
  | parseAction n =>
    simp only [FrontendSt.step]
    cases ((s.loadExtensions xs).methods.actions.get? n) with
    | none => rfl
    | some st => cases st <;> rfl
  | parseSubstitution n =>
    simp only [FrontendSt.step]
    cases (s.methods.substitutions.get? n) with
    | none => rfl
    | some st => cases st <;> rfl

/-! ## C102 -/

/-- C102: a name keeps its meaning for ever, whatever is exposed, parsed or loaded later. -/
theorem C102_stable (xs : List Extension) (ops : List FrontendOp) (s : FrontendSt) (kind : ExposeKind) (name : String)
    (m : ParseMethod) (h : s.methods.meaning kind name = some m) :
    (s.run xs ops).methods.meaning kind name = some m := by
  induction ops generalizing s with
  | nil => exact h
  | cons op ops ih =>
    refine ih _ ?_
    rw [step_methods]
    cases op with
    | expose e => exact expose_keeps _ _ _ _ _ _ _ h
    | parseAction n => exact loadExtensions_keeps h
    | parseSubstitution n => exact h

/-- C102: parsing calls the method the name means, and raises RuntimeError for a name without a meaning.  For an action
the extensions are loaded first. -/
theorem C102_parse (xs : List Extension) (s : FrontendSt) (name : String) :
    (s.step xs (.parseAction name)).2 = (match (s.loadExtensions xs).methods.meaning .action name with
      | some m => .ok (some m)
      | none => .error .runtimeError) ∧
    (s.step xs (.parseSubstitution name)).2 = (match s.methods.meaning .substitution name with
      | some m => .ok (some m)
      | none => .error .runtimeError) := by
  constructor
  · simp only [FrontendSt.step, ParseMethods.meaning, ParseMethods.map]
    cases ((s.loadExtensions xs).methods.actions.get? name) with
    | none => rfl
    | some st => cases st <;> rfl
  · simp only [FrontendSt.step, ParseMethods.meaning, ParseMethods.map]
    cases (s.methods.substitutions.get? name) with
    | none => rfl
    | some st => cases st <;> rfl

/-- C102: no meaning comes from nowhere: it was there, or somebody exposed it or an installed extension does. -/
theorem C102_provenance (xs : List Extension) (ops : List FrontendOp) (s : FrontendSt) (kind : ExposeKind) (name : String)
    (m : ParseMethod) (h : (s.run xs ops).methods.meaning kind name = some m) :
    s.methods.meaning kind name = some m ∨ ∃ e, (.expose e ∈ ops ∨ e ∈ allExposures xs) ∧ e.Gives kind name m := by
  induction ops generalizing s with
  | nil => exact .inl h
  | cons op ops ih =>
    rcases ih _ h with h1 | ⟨e, he, hg⟩
    · rw [step_methods] at h1
      cases op with
      | expose e =>
        rcases expose_new _ e _ _ _ h1 with h2 | hg
        · exact .inl h2
        · exact .inr ⟨e, .inl List.mem_cons_self, hg⟩
      | parseAction n =>
        rcases loadExtensions_new h1 with h2 | ⟨e, he, hg⟩
        · exact .inl h2
        · exact .inr ⟨e, .inr he, hg⟩
      | parseSubstitution n => exact .inl h1
    · exact .inr ⟨e, he.imp (List.mem_cons_of_mem _) id, hg⟩

/-- C102 (partial): exposing a class with a class method `parse` or a function under a new name is accepted and gives
the name this meaning; under a name that means another method it is refused with RuntimeError; what
has no parsing method is always refused; refusing changes nothing.  A substitution may be exposed again.
Missing: the same for an action, see `C102_action_again_violated`. -/
theorem C102_expose_partial (r : ParseMethods) (kind : ExposeKind) (name : String) (x : Exposed) :
    (∀ m, x.method = .ok m → r.meaning kind name = none →
      (r.expose kind name x).2 = .ok () ∧ ∀ k n, (r.expose kind name x).1.meaning k n =
        if kind = k ∧ name = n then some m else r.meaning k n) ∧
    (∀ m m', x.method = .ok m → r.meaning kind name = some m' → m ≠ m' →
      r.expose kind name x = (r, .error .runtimeError)) ∧
    ((∀ m, x.method ≠ .ok m) → r.expose kind name x = (r, .error .runtimeError)) ∧
    (∀ m, x.method = .ok m → kind = .substitution → (r.map kind).get? name = some (.plain m) →
      (r.expose kind name x).2 = .ok () ∧ ∀ k n, (r.expose kind name x).1.meaning k n = r.meaning k n) := by
  refine ⟨fun m hm hn => ?_, fun m m' hm hn hne => ?_, fun hno => ?_, fun m hm _ hg => ?_⟩
  · have hg : (r.map kind).get? name = none := by
      unfold ParseMethods.meaning at hn
      cases h : (r.map kind).get? name with
      | none => rfl
      | some st => rw [h] at hn; simp at hn
    have : r.expose kind name x = (r.put kind name (kind.store m), .ok ()) := by
      simp [ParseMethods.expose, hm, hg]
    rw [this]
    exact ⟨rfl, fun k n => put_meaning r kind k name n m⟩
  · unfold ParseMethods.meaning at hn
    cases h : (r.map kind).get? name with
    | none => rw [h] at hn; simp at hn
    | some st =>
      rw [h] at hn
      simp only [Option.map_some, Option.some.injEq] at hn
      have : StoredMethod.plain m ≠ st := by
        rintro rfl
        exact hne hn
      simp [ParseMethods.expose, hm, h, this]
  · rcases expose_cases r kind name x with ⟨h1, _⟩ | ⟨m', h1, _, _⟩
    · exact h1
    · exact absurd h1 (hno m')
  · have : r.expose kind name x = (r.put kind name (kind.store m), .ok ()) := by
      simp [ParseMethods.expose, hm, hg]
    rw [this]
    refine ⟨rfl, fun k n => ?_⟩
    rw [put_meaning]
    split
    · rename_i h
      obtain ⟨rfl, rfl⟩ := h
      simp [ParseMethods.meaning, hg, StoredMethod.calls]
    · rfl

/-- In every history what is stored for a substitution is its method. -/
theorem C102_substitutions_plain (xs : List Extension) (ops : List FrontendOp) (name : String) (st : StoredMethod)
    (h : ((({} : FrontendSt).run xs ops).methods.substitutions).get? name = some st) : ∃ m, st = .plain m := by
  have key : ∀ (r : ParseMethods), (∀ n st, r.substitutions.get? n = some st → ∃ m, st = .plain m) → ∀ e : Exposure,
      ∀ n st, (r.expose e.kind e.name e.what).1.substitutions.get? n = some st → ∃ m, st = .plain m := by
    intro r hr e n st hst
    rcases expose_cases r e.kind e.name e.what with ⟨h1, _⟩ | ⟨m', _, h1, _⟩
    · rw [h1] at hst; exact hr n st hst
    · rw [h1] at hst
      have := put_get r e.kind .substitution e.name n (e.kind.store m')
      simp only [ParseMethods.map] at this
      rw [this] at hst
      split at hst
      · rename_i hk
        rw [hk.1] at hst
        exact ⟨m', (by simpa [ExposeKind.store] using hst.symm)⟩
      · exact hr n st hst
  have keyAll : ∀ (es : List Exposure) (r : ParseMethods), (∀ n st, r.substitutions.get? n = some st → ∃ m, st = .plain m) →
      ∀ n st, (r.exposeAll es).1.substitutions.get? n = some st → ∃ m, st = .plain m := by
    intro es
    induction es with
    | nil => intro r hr; exact hr
    | cons e es ih =>
      intro r hr
      have h1 := key r hr e
      unfold ParseMethods.exposeAll
      cases hx : r.expose e.kind e.name e.what with
      | mk r1 res =>
        rw [hx] at h1
        cases res with
        | error err => exact h1
        | ok u => exact ih r1 h1
  have keyExt : ∀ (ys : List Extension) (s : FrontendSt), (∀ n st, s.methods.substitutions.get? n = some st → ∃ m, st = .plain m) →
      ∀ n st, (s.loadEach ys).methods.substitutions.get? n = some st → ∃ m, st = .plain m := by
    intro ys
    induction ys with
    | nil => intro s hr; exact hr
    | cons y ys ih =>
      intro s hr
      rw [loadEach_cons]
      refine ih _ ?_
      show ∀ n st, (ParseMethods.substitutions (s.methods.loadOne y).1).get? n = some st → ∃ m, st = .plain m
      rw [loadOne_fst]
      exact keyAll _ _ hr
  have run : ∀ (ops : List FrontendOp) (s : FrontendSt), (∀ n st, s.methods.substitutions.get? n = some st → ∃ m, st = .plain m) →
      ∀ n st, (s.run xs ops).methods.substitutions.get? n = some st → ∃ m, st = .plain m := by
    intro ops
    induction ops with
    | nil => intro s hr; exact hr
    | cons op ops ih =>
      intro s hr
      refine ih _ ?_
      rw [step_methods]
      cases op with
      | expose e => exact key _ hr e
      | parseAction n =>
        simp only [FrontendSt.loadExtensions]
        split
        · exact hr
        · exact keyExt xs s hr
      | parseSubstitution n => exact hr
  exact run ops {} (by simp) name st h

theorem exposeAll_clean : ∀ (es : List Exposure) (r : ParseMethods), (∀ e ∈ es, ∃ m, e.what.method = .ok m) →
    (es.map fun e => (e.kind, e.name)).Nodup → (∀ e ∈ es, r.meaning e.kind e.name = none) →
    (r.exposeAll es).2 = .ok () ∧
      ∀ k n, (r.exposeAll es).1.meaning k n = none ↔ r.meaning k n = none ∧ ∀ e ∈ es, ¬ (e.kind = k ∧ e.name = n)
  | [], r, _, _, _ => ⟨rfl, fun k n => by simp [ParseMethods.exposeAll]⟩
  | e :: es, r, hv, hd, hf => by
    obtain ⟨m, hm⟩ := hv e List.mem_cons_self
    obtain ⟨h1, h2⟩ := (C102_expose_partial r e.kind e.name e.what).1 m hm (hf e List.mem_cons_self)
    simp only [List.map_cons, List.nodup_cons] at hd
    have hrest := exposeAll_clean es (r.expose e.kind e.name e.what).1 (fun x hx => hv x (List.mem_cons_of_mem _ hx)) hd.2 (by
      intro x hx
      rw [h2]
      rw [if_neg]
      · exact hf x (List.mem_cons_of_mem _ hx)
      · rintro ⟨ha, hb⟩
        exact hd.1 (List.mem_map.mpr ⟨x, hx, by rw [ha, hb]⟩))
    unfold ParseMethods.exposeAll
    cases hx : r.expose e.kind e.name e.what with
    | mk r1 res =>
      rw [hx] at h1 h2 hrest
      simp only at h1
      subst h1
      refine ⟨hrest.1, fun k n => ?_⟩
      simp only
      rw [hrest.2 k n, h2 k n]
      simp only [List.mem_cons, forall_eq_or_imp]
      by_cases hk : e.kind = k ∧ e.name = n
      · simp [hk]
      · simp [hk]

theorem allExposures_cons (x : Extension) (xs : List Extension) : allExposures (x :: xs) = x.exposures ++ allExposures xs := by
  simp [allExposures]

theorem loadEach_clean : ∀ (xs : List Extension) (s : FrontendSt), Compatible s.methods xs →
    (s.loadEach xs).warned = s.warned ++ (xs.filter (·.fails)).map (·.name) ∧
      ∀ e ∈ allExposures xs, ∀ m, e.what.method = .ok m → (s.loadEach xs).methods.meaning e.kind e.name = some m
  | [], s, _ => by simp [FrontendSt.loadEach, allExposures]
  | x :: xs, s, hc => by
    have hmem : ∀ e ∈ x.exposures, e ∈ allExposures (x :: xs) := fun e he => by rw [allExposures_cons]; simp [he]
    have hmem' : ∀ e ∈ allExposures xs, e ∈ allExposures (x :: xs) := fun e he => by rw [allExposures_cons]; simp [he]
    have hd := hc.distinct
    rw [allExposures_cons, List.map_append, List.nodup_append] at hd
    obtain ⟨hd1, hd2, hd3⟩ := hd
    have h1 := exposeAll_clean x.exposures s.methods (fun e he => hc.valid e (hmem e he)) hd1 (fun e he => hc.fresh e (hmem e he))
    have hload : s.methods.loadOne x = ((s.methods.exposeAll x.exposures).1, x.fails) := by
      unfold ParseMethods.loadOne
      cases hx : s.methods.exposeAll x.exposures with
      | mk r1 res =>
        rw [hx] at h1
        have := h1.1
        simp only at this
        subst this
        rfl
    have hcomp : Compatible (s.methods.exposeAll x.exposures).1 xs := by
      refine ⟨fun e he => hc.valid e (hmem' e he), hd2, fun e he => ?_⟩
      rw [h1.2]
      refine ⟨hc.fresh e (hmem' e he), fun e' he' heq => ?_⟩
      exact hd3 _ (List.mem_map.mpr ⟨e', he', rfl⟩) _ (List.mem_map.mpr ⟨e, he, rfl⟩) (by rw [heq.1, heq.2])
    have ih := loadEach_clean xs
      { s with methods := (s.methods.exposeAll x.exposures).1, warned := if x.fails then s.warned ++ [x.name] else s.warned } hcomp
    rw [loadEach_cons, hload]
    simp only
    refine ⟨?_, ?_⟩
    · rw [ih.1]
      cases hf : x.fails <;> simp [hf]
    · intro e he m hm
      rw [allExposures_cons] at he
      rcases List.mem_append.mp he with he | he
      · apply loadEach_keeps
        simp only
        cases hx : (s.methods.exposeAll x.exposures).1.meaning e.kind e.name with
        | none => exact absurd ⟨rfl, rfl⟩ (((h1.2 _ _).mp hx).2 e he)
        | some m' =>
          rcases exposeAll_new _ _ _ _ _ hx with h | ⟨e', he', hg⟩
          · rw [hc.fresh e (hmem e he)] at h; cases h
          · have hee : e' = e := by
              have hinj : ∀ (l : List Exposure), (l.map fun e => (e.kind, e.name)).Nodup → ∀ a ∈ l, ∀ b ∈ l,
                  a.kind = b.kind → a.name = b.name → a = b := by
                intro l
                induction l with
                | nil => intro _ a ha; cases ha
                | cons y ys ihl =>
                  intro hn a ha b hb h1 h2
                  simp only [List.map_cons, List.nodup_cons] at hn
                  rcases List.mem_cons.mp ha with rfl | ha'
                  · rcases List.mem_cons.mp hb with rfl | hb
                    · rfl
                    · exact (hn.1 (List.mem_map.mpr ⟨b, hb, by rw [h1, h2]⟩)).elim
                  · rcases List.mem_cons.mp hb with rfl | hb
                    · exact (hn.1 (List.mem_map.mpr ⟨a, ha', by rw [h1, h2]⟩)).elim
                    · exact ihl hn.2 a ha' b hb h1 h2
              exact hinj _ hd1 e' he' e he hg.1 hg.2.1
            subst hee
            have := hg.2.2
            rw [hm] at this
            cases this
            rfl
      · exact ih.2 e he m hm

/-- C102 (partial): with extensions that get along, loading them gives every name they expose its meaning, keeps all
others as they were, and warns exactly about the extensions that raise; one that raises at its end has no
effect on the others.  Missing: extensions that expose the same name, see `C102_conflict_violated`. -/
theorem C102_extensions_partial (xs : List Extension) (s : FrontendSt) (hl : s.loaded = false) (hc : Compatible s.methods xs) :
    (s.loadExtensions xs).warned = s.warned ++ (xs.filter (·.fails)).map (·.name) ∧
    ∀ kind name m, (s.loadExtensions xs).methods.meaning kind name = some m ↔
      s.methods.meaning kind name = some m ∨ ∃ e ∈ allExposures xs, e.Gives kind name m := by
  have h := loadEach_clean xs s hc
  have hs : s.loadExtensions xs = { s.loadEach xs with loaded := true } := by simp [FrontendSt.loadExtensions, hl]
  rw [hs]
  refine ⟨h.1, fun kind name m => ⟨fun hm => loadEach_new _ _ _ _ _ hm, ?_⟩⟩
  rintro (hm | ⟨e, he, rfl, rfl, hm⟩)
  · exact loadEach_keeps _ _ _ _ _ hm
  · exact h.2 e he m hm

theorem allExposures_perm {xs ys : List Extension} (h : xs.Perm ys) : (allExposures xs).Perm (allExposures ys) :=
  (h.map Extension.exposures).flatten

theorem Compatible.perm {r : ParseMethods} {xs ys : List Extension} (h : xs.Perm ys) (hc : Compatible r xs) : Compatible r ys := by
  have hp := allExposures_perm h
  exact ⟨fun e he => hc.valid e (hp.mem_iff.mpr he), (hp.map _).nodup_iff.mp hc.distinct, fun e he => hc.fresh e (hp.mem_iff.mpr he)⟩

/-- C102 (partial): the order in which the extensions are installed does not matter, if they get along. -/
theorem C102_order_partial (xs ys : List Extension) (s : FrontendSt) (hl : s.loaded = false) (hc : Compatible s.methods xs)
    (hp : xs.Perm ys) (kind : ExposeKind) (name : String) :
    (s.loadExtensions xs).methods.meaning kind name = (s.loadExtensions ys).methods.meaning kind name := by
  have h1 := (C102_extensions_partial xs s hl hc).2 kind name
  have h2 := (C102_extensions_partial ys s hl (hc.perm hp)).2 kind name
  have hmem : ∀ e, e ∈ allExposures xs ↔ e ∈ allExposures ys := fun e => (allExposures_perm hp).mem_iff
  apply Option.ext
  intro m
  rw [h1 m, h2 m]
  simp only [hmem]

/-- C102: the extensions are loaded once, when the first action is parsed, also if some of them failed. -/
theorem C102_loaded_once (xs ys : List Extension) (s : FrontendSt) (n : String) :
    (s.step xs (.parseAction n)).1.loadExtensions ys = (s.step xs (.parseAction n)).1 := by
  rw [step_methods]
  simp only [FrontendSt.loadExtensions]
  split
  · simp
  · rfl

/-! ## Parser implementations -/

theorem insert_perm {α : Type} (x : String × α) (l : List (String × α)) : (insertByName x l).Perm (x :: l) := by
  induction l with
  | nil => exact .refl _
  | cons y ys ih =>
    unfold insertByName
    split
    · exact .refl _
    · exact (ih.cons y).trans (.swap x y ys)

theorem sort_perm {α : Type} (l : List (String × α)) : (sortByName l).Perm l := by
  induction l with
  | nil => exact .refl _
  | cons x xs ih => exact (insert_perm x _).trans (ih.cons x)

theorem insert_sorted {α : Type} (x : String × α) (l : List (String × α)) (hl : l.Pairwise fun a b => a.1 < b.1)
    (hx : x.1 ∉ l.map (·.1)) : (insertByName x l).Pairwise fun a b => a.1 < b.1 := by
  induction l with
  | nil => simp [insertByName]
  | cons y ys ih =>
    rw [List.pairwise_cons] at hl
    simp only [List.map_cons, List.mem_cons, not_or] at hx
    unfold insertByName
    split
    · rename_i h
      rw [List.pairwise_cons]
      refine ⟨fun z hz => ?_, List.pairwise_cons.mpr hl⟩
      rcases List.mem_cons.mp hz with rfl | hz
      · exact h
      · exact String.lt_trans h (hl.1 z hz)
    · rename_i h
      rw [List.pairwise_cons]
      refine ⟨fun z hz => ?_, ih hl.2 hx.2⟩
      rcases List.mem_cons.mp ((insert_perm x ys).mem_iff.mp hz) with rfl | hz
      · exact Decidable.byContradiction fun hc => hx.1 (String.le_antisymm (String.not_lt.mp hc) (String.not_lt.mp h))
      · exact hl.1 z hz

theorem sort_sorted {α : Type} (l : List (String × α)) (h : (l.map (·.1)).Nodup) : (sortByName l).Pairwise fun a b => a.1 < b.1 := by
  induction l with
  | nil => exact .nil
  | cons x xs ih =>
    simp only [List.map_cons, List.nodup_cons] at h
    refine insert_sorted x _ (ih h.2) ?_
    intro hm
    exact h.1 (((sort_perm xs).map (·.1)).mem_iff.mp hm)

theorem sorted_unique {α : Type} : ∀ (a b : List (String × α)), a.Pairwise (fun x y => x.1 < y.1) → b.Pairwise (fun x y => x.1 < y.1) →
    a.Perm b → a = b
  | [], b, _, _, h => (List.nil_perm.mp h).symm
  | x :: xs, b, ha, hb, h => by
    cases b with
    | nil => exact absurd h.symm (by simp)
    | cons y ys =>
      rw [List.pairwise_cons] at ha hb
      have hxy : x = y := by
        rcases List.mem_cons.mp (h.mem_iff.mp List.mem_cons_self : x ∈ y :: ys) with h1 | h1
        · exact h1
        · rcases List.mem_cons.mp (h.mem_iff.mpr List.mem_cons_self : y ∈ x :: xs) with h2 | h2
          · exact h2.symm
          · exact absurd (String.lt_trans (ha.1 y h2) (hb.1 x h1)) (String.lt_irrefl _)
      subst hxy
      rw [sorted_unique xs ys ha.2 hb.2 (List.perm_cons x |>.mp h)]

theorem loadFold {α : Type} : ∀ (es : List (String × Option α)) (d : Dict α), (es.map (·.1)).Nodup → (∀ e ∈ es, e.1 ∉ d.keys) →
    es.foldl (fun (d : Dict α) e => match e.2 with | some p => d.set e.1 p | none => d) d =
      d ++ es.filterMap fun e => e.2.map fun p => (e.1, p)
  | [], d, _, _ => by simp
  | e :: es, d, hd, hf => by
    simp only [List.map_cons, List.nodup_cons] at hd
    have hset : ∀ (d : Dict α) (k : String) (v : α), k ∉ d.keys → d.set k v = d ++ [(k, v)] := by
      intro d k v
      induction d with
      | nil => intro _; rfl
      | cons p d ih =>
        intro hk
        simp only [Dict.keys, List.map_cons, List.mem_cons, not_or] at hk
        unfold Dict.set
        rw [if_neg (Ne.symm hk.1), ih hk.2]
        rfl
    rw [List.foldl_cons]
    obtain ⟨n, p⟩ := e
    cases p with
    | none =>
      rw [loadFold es d hd.2 (fun x hx => hf x (List.mem_cons_of_mem _ hx))]
      simp
    | some p =>
      show List.foldl _ (d.set n p) es = _
      have hf0 : n ∉ d.keys := hf _ List.mem_cons_self
      rw [loadFold es _ hd.2]
      · rw [hset _ _ _ hf0]; simp
      · intro x hx hm
        rw [hset _ _ _ hf0] at hm
        simp only [Dict.keys, List.map_append, List.map_cons, List.map_nil, List.mem_append, List.mem_singleton] at hm
        rcases hm with hm | hm
        · exact hf x (List.mem_cons_of_mem _ hx) hm
        · exact hd.1 (List.mem_map.mpr ⟨x, hx, hm⟩)

/-- C102: the parser implementations are those that could be loaded, by name in alphabetical order; in which order they
were installed makes no difference to which parser is tried first. -/
theorem C102_parsers {α : Type} (es fs : List (String × Option α)) (hd : (es.map (·.1)).Nodup) (hp : es.Perm fs) :
    loadParsers es = loadParsers fs ∧ (loadParsers es).Pairwise (fun a b => a.1 < b.1) ∧
    ∀ name p, (name, p) ∈ loadParsers es ↔ (name, some p) ∈ es := by
  have hform : ∀ es : List (String × Option α), (es.map (·.1)).Nodup →
      loadParsers es = sortByName (es.filterMap fun e => e.2.map fun p => (e.1, p)) := by
    intro es hd
    unfold loadParsers
    exact congrArg sortByName ((loadFold es [] hd (by simp [Dict.keys])).trans (List.nil_append _))
  have hnd : ∀ es : List (String × Option α), (es.map (·.1)).Nodup →
      ((es.filterMap fun e => e.2.map fun p => (e.1, p)).map (·.1)).Nodup := by
    intro es hd
    refine List.Sublist.nodup ?_ hd
    clear hd
    induction es with
    | nil => exact .slnil
    | cons e es ih =>
      obtain ⟨n, p⟩ := e
      cases p with
      | none => simp only [List.filterMap_cons, Option.map_none, List.map_cons]; exact ih.cons _
      | some p => simp only [List.filterMap_cons, Option.map_some, List.map_cons]; exact ih.cons_cons _
  have hd' : (fs.map (·.1)).Nodup := (hp.map _).nodup_iff.mp hd
  refine ⟨?_, ?_, ?_⟩
  · rw [hform es hd, hform fs hd']
    exact sorted_unique _ _ (sort_sorted _ (hnd es hd)) (sort_sorted _ (hnd fs hd'))
      ((sort_perm _).trans ((hp.filterMap _).trans (sort_perm _).symm))
  · rw [hform es hd]; exact sort_sorted _ (hnd es hd)
  · intro name p
    rw [hform es hd, (sort_perm _).mem_iff]
    simp only [List.mem_filterMap, Option.map_eq_some_iff, Prod.mk.injEq]
    constructor
    · rintro ⟨⟨n, o⟩, he, q, rfl, rfl, rfl⟩; exact he
    · intro h; exact ⟨_, h, p, rfl, rfl, rfl⟩

/-! ## Examples and negations -/

/-- An extension with an action and a substitution, one that raises at its end, and one that exposes a name of the first. -/
def extA : Extension := { name := "a", exposures := [⟨.action, "node", .cls 1 (some 1)⟩, ⟨.substitution, "pkg", .cls 2 (some 2)⟩] }
def extB : Extension := { name := "b", exposures := [⟨.action, "timer", .function 3⟩], fails := true }
def extC : Extension := { name := "c", exposures := [⟨.action, "node", .cls 4 (some 4)⟩, ⟨.action, "extra", .function 5⟩] }

example : Compatible {} [extA, extB] := by
  refine ⟨?_, by decide, ?_⟩
  · simp [allExposures, extA, extB, Exposed.method]
  · simp [allExposures, extA, extB, ParseMethods.meaning, ParseMethods.map]

example : (({} : FrontendSt).loadExtensions [extA, extB]).methods.meaning .action "timer" = some (.fn 3) ∧
    (({} : FrontendSt).loadExtensions [extA, extB]).warned = ["b"] ∧
    ((({} : FrontendSt).run [extA] [.expose ⟨.action, "node", .function 9⟩, .parseAction "node", .expose ⟨.action, "node", .function 8⟩]).methods.meaning
      .action "node") = some (.fn 9) := by decide +kernel

example : (loadParsers [("yaml", some 1), ("broken", none), ("xml", some 0)]) = [("xml", 0), ("yaml", 1)] := by decide +kernel

/-- C102 is violated: exposing an action again, with the very same class, is refused with RuntimeError, because the
stored wrapper is compared with the method (expose.py:96). -/
theorem C102_action_again_violated (name : String) (c f : Nat) :
    let r := (({} : ParseMethods).expose .action name (.cls c (some f))).1
    r.meaning .action name = some (.bound c f) ∧ (r.expose .action name (.cls c (some f))).2 = .error .runtimeError := by
  have h : (({} : ParseMethods).expose .action name (.cls c (some f))).1 = { actions := [(name, .checked (.bound c f))] } := by
    simp [ParseMethods.expose, Exposed.method, ParseMethods.map, ParseMethods.put, ExposeKind.store, Dict.set]
  simp only [h]
  constructor
  · simp [ParseMethods.meaning, ParseMethods.map, Dict.get?, StoredMethod.calls]
  · simp [ParseMethods.expose, Exposed.method, ParseMethods.map, Dict.get?]

/-- C102 is violated: if two installed extensions expose the same name, its meaning depends on their order, and the
second one loses also names that nobody else exposes. -/
theorem C102_conflict_violated :
    (({} : FrontendSt).loadExtensions [extA, extC]).methods.meaning .action "node" = some (.bound 1 1) ∧
    (({} : FrontendSt).loadExtensions [extC, extA]).methods.meaning .action "node" = some (.bound 4 4) ∧
    (({} : FrontendSt).loadExtensions [extA, extC]).methods.meaning .action "extra" = none ∧
    (({} : FrontendSt).loadExtensions [extC, extA]).methods.meaning .action "extra" = some (.fn 5) := by decide +kernel

/-- C102 is violated: a substitution of an installed extension is unknown until the first action was parsed. -/
theorem C102_substitution_first_violated :
    (({} : FrontendSt).step [extA] (.parseSubstitution "pkg")).2 = .error .runtimeError ∧
    ((({} : FrontendSt).run [extA] [.parseAction "node"]).step [extA] (.parseSubstitution "pkg")).2 = .ok (some (.bound 2 2)) :=
  ⟨rfl, rfl⟩

end Verif
