import Verif.Lemmas.NestedArgs

/-!
# Property C10: required arguments and the includes inside an included launch description
-/

namespace Verif

theorem heap_getD_mem {heap : List (List IncludeArgs)} {i : Nat} {a : IncludeArgs} (h : a ∈ heap.getD i []) : ∃ l ∈ heap, a ∈ l := by
  rw [List.getD_eq_getElem?_getD] at h
  cases hi : heap[i]? with
  | none => rw [hi] at h; simp at h
  | some l => rw [hi] at h; exact ⟨l, List.mem_of_getElem? hi, by simpa using h⟩

theorem heap_mem_getD {heap : List (List IncludeArgs)} {l : List IncludeArgs} {a : IncludeArgs} (hl : l ∈ heap) (h : a ∈ l) :
    ∃ i, a ∈ heap.getD i [] := by
  obtain ⟨i, hi, rfl⟩ := List.mem_iff_getElem.mp hl
  exact ⟨i, by simpa [List.getD_eq_getElem?_getD, List.getElem?_eq_getElem hi] using h⟩

theorem extendNames_grows {O : Oracle} {c : Ctx} : ∀ {as : List IncludeArgs} {names l : List String},
    extendNames O c as names = .ok l → ∀ x, (x ∈ names ∨ ∃ a ∈ as, ∃ m, tryNames O c a = some m ∧ x ∈ m) → x ∈ l
  | [], names, l, h, x, hx => by
    simp only [extendNames, Except.ok.injEq] at h
    subst h
    simpa using hx
  | a :: as, names, l, h, x, hx => by
    unfold extendNames at h
    cases ht : tryNames O c a with
    | none => rw [ht] at h; simp at h
    | some m =>
      rw [ht] at h
      refine extendNames_grows h x ?_
      rcases hx with hx | ⟨a', ha', m', hm', hx⟩
      · exact .inl (List.mem_append_left _ hx)
      · rcases List.mem_cons.mp ha' with rfl | ha'
        · rw [ht] at hm'
          cases hm'
          exact .inl (List.mem_append_right _ hx)
        · exact .inr ⟨a', ha', m', hm', hx⟩

theorem checkRequired_enclosing {O : Oracle} {c : Ctx} {heap : List (List IncludeArgs)}
    (hheap : ∀ l ∈ heap, ∀ a ∈ l, tryNames O c a ≠ none) :
    ∀ (es : List ArgEntry) (names : List String),
      (∀ e ∈ es, e.conditional = false → e.hasDefault = false → e.name ∈ names ∨
        ∃ i, e.nested = some i ∧ ∃ a ∈ heap.getD i [], ∃ m, tryNames O c a = some m ∧ e.name ∈ m) →
      checkRequired O c heap es names = .ok ()
  | [], _, _ => rfl
  | x :: xs, names, hall => by
    unfold checkRequired
    split
    · exact checkRequired_enclosing hheap xs names fun e he => hall e (by simp [he])
    · next hb =>
      simp only [Bool.or_eq_true, not_or, Bool.not_eq_true] at hb
      have hx := hall x (by simp) hb.1 hb.2
      cases hn : x.nested with
      | none =>
        simp only [hn] at hx
        have hx : x.name ∈ names := by simpa using hx
        simp only
        rw [if_pos hx]
        exact checkRequired_enclosing hheap xs names fun e he => hall e (by simp [he])
      | some i =>
        simp only
        obtain ⟨l, h1, h2⟩ := extendNames_all (O := O) (c := c) (as := heap.getD i []) (names := names) (by
          intro a ha
          obtain ⟨l', hl', ha'⟩ := heap_getD_mem ha
          exact hheap l' hl' a ha')
        rw [h1]
        have hxl : x.name ∈ l := by
          refine extendNames_grows h1 _ ?_
          rcases hx with hx | ⟨j, hj, hx⟩
          · exact .inl hx
          · rw [hn] at hj
            cases hj
            exact .inr hx
        simp only
        rw [if_pos hxl]
        refine checkRequired_enclosing hheap xs l fun e he h3 h4 => ?_
        rcases hall e (by simp [he]) h3 h4 with h | h
        · exact .inl (h2 _ h)
        · exact .inr h

/-- A description has one list of declarations. -/
theorem Flat_unique {res : Nat → Option (List Entity)} {d u : Bool} {es : List Entity} {xs ys : List Decl}
    (h1 : Flat res d u es xs) (h2 : Flat res d u es ys) : xs = ys := by
  induction h1 generalizing ys with
  | nil => cases h2; rfl
  | reset =>
    cases h2 with
    | reset => rfl
    | other hr hd _ _ _ => exact absurd rfl (hr _ _ _)
  | decl h ih =>
    cases h2 with
    | decl h' => rw [ih h']
    | other hr hd _ _ _ => exact absurd rfl (hd _ _ _ _ _)
  | other hr hd hb hl h ihb ihl ih =>
    cases h2 with
    | reset => exact absurd rfl (hr _ _ _)
    | decl => exact absurd rfl (hd _ _ _ _ _)
    | other hr' hd' hb' hl' h' => rw [ihb hb', ihl hl', ih h']

/-- What a search gives, in terms of the description alone. -/
theorem search_result {res : Nat → Option (List Entity)} {n : Nat} {es : List Entity} {r : Res ArgState}
    (h : getLaunchArguments res n es false = some r) :
    (r = .error .typeError ∧ MeetsUndescribable res es) ∨
    (∃ st, r = .ok st ∧ Found res es [] {} st) := by
  unfold getLaunchArguments at h
  cases hp : processEntities res n es false none {} with
  | none => rw [hp] at h; simp at h
  | some st =>
    rw [hp] at h
    simp only [Option.map_some, Option.some.injEq] at h
    by_cases hra : st.raised = true
    · rw [if_pos hra] at h
      refine .inl ⟨h.symm, ?_⟩
      rcases (search_raised res n es false none {} st hp).mp hra with h | h
      · simp at h
      · exact h
    · rw [if_neg hra] at h
      exact .inr ⟨st, h.symm, search_found res n es false none [] {} st hp ⟨by simp, by simp⟩⟩

/-- C10: an include is not rejected without reason.  Let `es` be the description that is loaded.  If each argument declared in it that has no
default and is not declared conditionally is passed by this include or by some include that the declaration lies in, the
names that the includes inside pass can be determined without a context, and no handler inside was given a single entity instead of a
list, then `execute` succeeds: it returns the assignments of the passed arguments and the description. -/
theorem C10_enclosing_accepted (P : Prog) (O : Oracle) (n : Nat) (id : ActId) (src : Nat) (args : IncludeArgs) (c c1 c3 c' : Ctx)
    (es : List Entity) (names : List String) (r : Res (List Entity))
    (hload : getDescription P O src c = (c1, .ok es))
    (l2 : Locals)
    (hl2 : l2 = (c1.locals.extendLocals [("current_launch_file_path",
      .str (P.launchFile ((c1.srcLoc.lookup src).getD "")).1)]).extendLocals
        [("current_launch_file_directory", .str (P.launchFile ((c1.srcLoc.lookup src).getD "")).2)])
    (hnames : performNames O args { c1 with locals := l2 } = (c3, .ok names))
    (hpassed : ∀ ds, Flat (tryDescription P O c3) false false es ds → ∀ d ∈ firstOfEach ds, d.direct = false → d.hasDefault = false →
      ∀ path, Under (tryDescription P O c3) es path d.id d.name →
        d.name ∈ names ∨ ∃ a ∈ path, ∃ m, tryNames O c3 a = some m ∧ d.name ∈ m)
    (hknown : ∀ a, IncludesBelow (tryDescription P O c3) es a → tryNames O c3 a ≠ none)
    (hdescr : ¬ MeetsUndescribable (tryDescription P O c3) es)
    (h : execute P O n id (.includeLD src args) c = some (c', r)) :
    c' = c3 ∧ r = .ok (Entity.setActions id 0 args ++ [.desc es]) := by
  subst hl2
  simp only [execute, executeInclude, hload, hnames] at h
  cases hg : getLaunchArguments (tryDescription P O c3) n es false with
  | none => rw [hg] at h; simp at h
  | some g =>
    rcases search_result hg with ⟨rfl, hm⟩ | ⟨st, rfl, hf⟩
    · exact absurd hm hdescr
    · rw [hg] at h
      obtain ⟨ds, hflat, hkeys⟩ := C11_lists_first_declarations _ n es false st hg
      have hok : checkRequired O c3 st.heap st.entries names = .ok () := by
        refine checkRequired_enclosing (fun l hl a ha => ?_) st.entries names (fun e he hc hd => ?_)
        · obtain ⟨i, hi⟩ := heap_mem_getD hl ha
          rcases hf.heap i a hi with h | h
          · simp at h
          · exact hknown a h
        · have : e.key ∈ (firstOfEach ds).map Decl.key := by rw [← hkeys]; exact List.mem_map_of_mem he
          obtain ⟨d, hdm, hkey⟩ := List.mem_map.mp this
          simp only [Decl.key, ArgEntry.key, Prod.mk.injEq] at hkey
          obtain ⟨k1, k2, k3, k4⟩ := hkey
          rcases hf.entries e he with h | ⟨q, hq, hall⟩
          · simp at h
          · rw [← k1, ← k2] at hq
            rcases hpassed ds hflat d hdm (by rw [k4]; exact hc) (by rw [k3]; exact hd) q hq with h | ⟨a, ha, m, hm, hx⟩
            · exact .inl (by rw [← k2]; exact h)
            · obtain ⟨i, hi, hai⟩ := hall a (by simpa using ha)
              exact .inr ⟨i, hi, a, hai, m, hm, by rw [← k2]; exact hx⟩
      simp only [hok, Option.some.injEq, Prod.mk.injEq] at h
      exact ⟨h.1.symm, h.2.symm⟩

/-- C10 (partial): let `es` be the description that is loaded.  If some argument is declared in it without default and not conditionally, and neither
this include nor any include inside passes it, `execute` raises, before any action is returned: RuntimeError, unless a handler
inside was given a single entity, or the names that an include inside passes need a context.  Missing: an include inside that passes an
argument of the same name hides the error (`C10_required_violated`); the exception is not always RuntimeError
(`C10_type_error_violated`, `C10_single_entity_violated`). -/
theorem C10_missing_raises_partial (P : Prog) (O : Oracle) (n : Nat) (id : ActId) (src : Nat) (args : IncludeArgs) (c c1 c3 c' : Ctx)
    (es : List Entity) (names : List String) (ds : List Decl) (d : Decl) (r : Res (List Entity))
    (hload : getDescription P O src c = (c1, .ok es))
    (l2 : Locals)
    (hl2 : l2 = (c1.locals.extendLocals [("current_launch_file_path",
      .str (P.launchFile ((c1.srcLoc.lookup src).getD "")).1)]).extendLocals
        [("current_launch_file_directory", .str (P.launchFile ((c1.srcLoc.lookup src).getD "")).2)])
    (hnames : performNames O args { c1 with locals := l2 } = (c3, .ok names))
    (hflat : Flat (tryDescription P O c3) false false es ds) (hmem : d ∈ firstOfEach ds)
    (hc : d.direct = false) (hd : d.hasDefault = false) (hnot : d.name ∉ names)
    (hothers : ∀ a, IncludesBelow (tryDescription P O c3) es a → ∀ m, tryNames O c3 a = some m → d.name ∉ m)
    (h : execute P O n id (.includeLD src args) c = some (c', r)) :
    r = .error .runtimeError ∨
      (r = .error .typeError ∧ (MeetsUndescribable (tryDescription P O c3) es ∨
        ∃ a, IncludesBelow (tryDescription P O c3) es a ∧ tryNames O c3 a = none)) := by
  have h0 := h
  have hl2' := hl2
  subst hl2
  simp only [execute, executeInclude, hload, hnames] at h
  cases hg : getLaunchArguments (tryDescription P O c3) n es false with
  | none => rw [hg] at h; simp at h
  | some g =>
    rcases search_result hg with ⟨rfl, hm⟩ | ⟨st, rfl, hf⟩
    · rw [hg] at h
      simp only [Option.some.injEq, Prod.mk.injEq] at h
      exact .inr ⟨h.2.symm, .inl hm⟩
    · obtain ⟨ds', hflat', hkeys⟩ := C11_lists_first_declarations _ n es false st hg
      have hds : ds' = ds := Flat_unique hflat' hflat
      subst hds
      have : d.key ∈ st.entries.map ArgEntry.key := by rw [hkeys]; exact List.mem_map_of_mem hmem
      obtain ⟨e, he, hkey⟩ := List.mem_map.mp this
      simp only [Decl.key, ArgEntry.key, Prod.mk.injEq] at hkey
      obtain ⟨k1, k2, k3, k4⟩ := hkey
      have below : ∀ l ∈ st.heap, ∀ a ∈ l, IncludesBelow (tryDescription P O c3) es a := by
        intro l hl a ha
        obtain ⟨i, hi⟩ := heap_mem_getD hl ha
        rcases hf.heap i a hi with h | h
        · simp at h
        · exact h
      rcases C10_required_raises_partial P O n id src args c c1 c3 c' es names st e r hload _ hl2' hnames hg he
        (by rw [k4]; exact hc) (by rw [k3]; exact hd) (by rw [k2]; exact hnot)
        (fun l hl a ha m hm => by rw [k2]; exact hothers a (below l hl a ha) m hm) h0 with h | ⟨h, l, hl, a, ha, hn⟩
      · exact .inl h
      · exact .inr ⟨h, .inr ⟨a, below l hl a ha, hn⟩⟩

theorem IncludesBelow.nil {res : Nat → Option (List Entity)} {a : IncludeArgs} : ¬ IncludesBelow res [] a := by
  intro h
  cases h with
  | here he => simp at he
  | inside he _ => simp at he
  | later he _ => simp at he

/-- A program with three launch files: file 3 requires `z`; file 2 includes file 3 without arguments; file 1 includes file 2 and passes `z`. -/
def includeChain : Prog where
  source s :=
    if s = 3 then ⟨[.text "three"], fun _ => .ok [.act (.user 30) none (.declareArg "z" none none)]⟩
    else if s = 2 then ⟨[.text "two"], fun _ => .ok [.act (.user 20) none (.includeLD 3 [])]⟩
    else ⟨[.text "one"], fun _ => .ok [.act (.user 10) none (.includeLD 2 [([.text "z"], [.text "1"])])]⟩

/-- The case that makes `C10_enclosing_accepted` interesting: the include of file 1 without `z` is accepted, since it passes `z` to file 2,
which includes file 3; an include of file 2 without `z` is not.  (When file 2 is executed its own include of file 3 is
rejected nevertheless, because it does not pass `z` on.) -/
example : (execute includeChain sampleOracle 20 (.user 0) (.includeLD 1 []) {}).succeeds = true ∧
    (visit includeChain sampleOracle 20 (.act (.user 0) none (.includeLD 1 [])) {}).raises .runtimeError = true ∧
    (execute includeChain sampleOracle 20 (.user 0) (.includeLD 2 []) {}).raises .runtimeError = true := by
  decide +kernel

/-- The declaration of `z` lies in two includes, the outer one of which passes it. -/
example : Under (tryDescription includeChain sampleOracle {})
    [.act (.user 10) none (.includeLD 2 [([.text "z"], [.text "1"])])] [[([.text "z"], [.text "1"])], []] (.user 30) "z" :=
  .included (.head _) (.inside (.head _) (by simp) (.included (.head _) (.inside (.head _) (by simp) (.here (.head _)))))

example : tryNames sampleOracle {} [([.text "z"], [.text "1"])] = some ["z"] := by decide +kernel

/-- The hypotheses of `C10_missing_raises_partial` are met by file 2: nobody passes `z`. -/
example : Flat (tryDescription includeChain sampleOracle {}) false false [.act (.user 20) none (.includeLD 3 [])]
      [⟨.user 30, "z", false, false, false⟩] ∧
    (∀ a, IncludesBelow (tryDescription includeChain sampleOracle {}) [.act (.user 20) none (.includeLD 3 [])] a →
      ∀ m, tryNames sampleOracle {} a = some m → "z" ∉ m) := by
  constructor
  · refine .other (below := [⟨.user 30, "z", false, false, false⟩]) (later := []) (ds := []) (by simp) (by simp) ?_ .nil .nil
    refine .other (below := [⟨.user 30, "z", false, false, false⟩]) (later := []) (ds := []) (by simp) (by simp) ?_ .nil .nil
    exact .decl .nil
  · intro a h m hm
    have none_in : ∀ b, ¬ IncludesBelow (tryDescription includeChain sampleOracle {})
        [.act (.user 30) none (.declareArg "z" none none)] b := by
      intro b hb
      cases hb with
      | here he => simp at he
      | inside he h => rw [List.mem_singleton] at he; subst he; exact absurd h IncludesBelow.nil
      | later he h => rw [List.mem_singleton] at he; subst he; exact absurd h IncludesBelow.nil
    cases h with
    | here he =>
      simp only [List.mem_singleton, Entity.act.injEq, ActKind.includeLD.injEq] at he
      obtain ⟨_, _, _, rfl⟩ := he
      have : tryNames sampleOracle {} [] = some [] := rfl
      rw [this] at hm
      cases hm
      simp
    | inside he h =>
      rw [List.mem_singleton] at he
      subst he
      have hp : (Entity.act (.user 20) none (.includeLD 3 [])).parts (tryDescription includeChain sampleOracle {}) =
        [.desc [.act (.user 30) none (.declareArg "z" none none)]] := rfl
      rw [hp] at h
      cases h with
      | here he => simp at he
      | inside he h => rw [List.mem_singleton] at he; subst he; exact absurd h (none_in a)
      | later he h => rw [List.mem_singleton] at he; subst he; exact absurd h IncludesBelow.nil
    | later he h => rw [List.mem_singleton] at he; subst he; exact absurd h IncludesBelow.nil

/-! ## What is known of an include before it is visited -/

/-- C10: what an include that was not visited yet is taken to contain does not depend on the launch configurations (or anything else but the environment): its location is
determined in an empty context. -/
theorem C10_unvisited (P : Prog) (O : Oracle) (c c' : Ctx) (src : Nat) (henv : c'.env = c.env) (h : src ∉ c.srcLoaded) (h' : src ∉ c'.srcLoaded) :
    tryDescription P O c' src = tryDescription P O c src := by
  unfold tryDescription
  rw [if_neg h, if_neg h', henv]

/-- C10: so an include whose location refers to a launch configuration without default is taken to contain nothing before it is visited. -/
theorem C10_unvisited_unknown (P : Prog) (O : Oracle) (c : Ctx) (src : Nat) (h : src ∉ c.srcLoaded) (n : String)
    (hl : (P.source src).location = [.launchConfig [.text n] none]) : tryDescription P O c src = none := by
  unfold tryDescription
  rw [if_neg h, hl]
  simp [performSubs, performAll, perform, performOpt, M.bind, M.pure, M.raise, Dict.get?]

/-- C10: when it was visited, it is what is at the location it had then. -/
theorem C10_visited (P : Prog) (O : Oracle) (c c1 c' : Ctx) (src : Nat) (es : List Entity) (hv : getDescription P O src c = (c1, .ok es))
    (h1 : c'.srcLoaded = c1.srcLoaded) (h2 : c'.srcLoc = c1.srcLoc) : tryDescription P O c' src = some es := by
  unfold getDescription at hv
  unfold tryDescription
  rw [h1, h2]
  split at hv
  · simp at hv
  · rename_i c2 loc hloc
    split at hv
    · simp at hv
    · rename_i es' hes
      simp only [Prod.mk.injEq, Except.ok.injEq] at hv
      obtain ⟨rfl, rfl⟩ := hv
      have : c2.srcLoc.lookup src = some loc := by
        split at hloc
        · rename_i l hlk
          simp only [Prod.mk.injEq, Except.ok.injEq] at hloc
          obtain ⟨rfl, rfl⟩ := hloc
          exact hlk
        · split at hloc
          · simp at hloc
          · simp only [Prod.mk.injEq, Except.ok.injEq] at hloc
            obtain ⟨rfl, rfl⟩ := hloc
            simp
      simp only [List.mem_cons, true_or, if_true, this, hes]

/-- The location is that of a launch configuration which is set in the launch. -/
def locProg : Prog := { includeProg with source := fun _ => { location := [.launchConfig [.text "where"] none], load := fun _ => .ok [.desc []] } }

example : tryDescription locProg sampleOracle { lc := [("where", "f")] } 0 = none ∧
    (getDescription locProg sampleOracle 0 { lc := [("where", "f")] }).2.toOption.isSome = true := ⟨by rfl, by rfl⟩

end Verif
