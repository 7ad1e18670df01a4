import Verif.Props.Executable
import Verif.Model.Source
import Verif.Lemmas.Subst

/-!
# C48: a launch description source is loaded once.  C67: files of any format.
-/

namespace Verif

/-- A source as it is constructed: with a description or without, not expanded, nothing loaded. -/
def newSource {D : Type} (desc : Option D) (loc : List Sub) : SrcSt D := { desc := desc, loc := loc }

/-- The value of the location in the first `get` call in which it could be evaluated. -/
def firstLocation {D : Type} (loc : List Sub) : List (SrcOp D) → Option String
  | [] => none
  | .get O _ c :: ops =>
    match (performSubs O loc c).2 with
    | .ok path => some path
    | .error _ => firstLocation loc ops
  | _ :: ops => firstLocation loc ops

theorem SrcSt.load_expanded {D : Type} (w : World D) (s : SrcSt D) (path : String) :
    (s.load w path).1.expanded = s.expanded ∧ (s.load w path).1.loc = s.loc := by
  unfold SrcSt.load
  split
  · exact ⟨rfl, rfl⟩
  · split <;> exact ⟨rfl, rfl⟩

theorem SrcSt.step_expanded {D : Type} (s : SrcSt D) (op : SrcOp D) :
    (s.step op).loc = s.loc ∧ (s.step op).expanded = (s.expanded <|> firstLocation s.loc [op]) := by
  cases op with
  | tryGet => simp [SrcSt.step, firstLocation]
  | location => simp [SrcSt.step, firstLocation]
  | get O w c =>
    simp only [SrcSt.step, SrcSt.get, firstLocation]
    cases hx : s.expanded with
    | some path =>
      have h := s.load_expanded w path
      simp [h.1, h.2, hx]
    | none =>
      cases hp : performSubs O s.loc c with
      | mk c1 r =>
        cases r with
        | error e => simp [hx]
        | ok path =>
          have h := SrcSt.load_expanded w { s with expanded := some path } path
          simp [h.1, h.2]

theorem firstLocation_cons {D : Type} (loc : List Sub) (op : SrcOp D) (ops : List (SrcOp D)) :
    firstLocation loc (op :: ops) = (firstLocation loc [op] <|> firstLocation loc ops) := by
  cases op with
  | tryGet => simp [firstLocation]
  | location => simp [firstLocation]
  | get O w c =>
    simp only [firstLocation]
    cases (performSubs O loc c).2 <;> simp

theorem SrcSt.run_expanded {D : Type} : ∀ (ops : List (SrcOp D)) (s : SrcSt D),
    (s.run ops).loc = s.loc ∧ (s.run ops).expanded = (s.expanded <|> firstLocation s.loc ops)
  | [], s => by simp [SrcSt.run, firstLocation]
  | op :: ops, s => by
    have h1 := s.step_expanded op
    have h2 := SrcSt.run_expanded ops (s.step op)
    rw [h1.1] at h2
    refine ⟨h2.1, ?_⟩
    have : (s.run (op :: ops)) = (s.step op).run ops := rfl
    rw [this, h2.2, h1.2, firstLocation_cons s.loc op ops]
    cases s.expanded <;> simp

/-- What holds of the loads of a source without a given description. -/
structure SrcSt.Inv {D : Type} (s : SrcSt D) : Prop where
  path : ∀ x ∈ s.loads, s.expanded = some x.1
  last : ∀ a p d b, s.loads = a ++ (p, .ok (some d)) :: b → b = [] ∧ s.desc = some d
  unloaded : s.desc = none → ∀ x ∈ s.loads, x.2 = .ok none ∨ ∃ e, x.2 = .error e

theorem SrcSt.Inv.addLoad {D : Type} {s : SrcSt D} (hi : s.Inv) (hd : s.desc = none) (path : String) (hx : s.expanded = some path)
    (r : Res (Option D)) (d' : Option D) (hr : (d' = none ∧ (r = .ok none ∨ ∃ e, r = .error e)) ∨ ∃ d, d' = some d ∧ r = .ok (some d)) :
    SrcSt.Inv { s with desc := d', loads := s.loads ++ [(path, r)] } := by
  constructor
  · intro x hm
    simp only [List.mem_append, List.mem_singleton] at hm
    rcases hm with hm | rfl
    · exact hi.path x hm
    · exact hx
  · intro a p d b hab
    simp only at hab ⊢
    rcases List.append_eq_append_iff.1 hab with ⟨c, h1, h2⟩ | ⟨c, h1, h2⟩
    · cases c with
      | nil =>
        simp only [List.nil_append, List.cons.injEq] at h2
        obtain ⟨h3, h4⟩ := h2
        refine ⟨h4.symm, ?_⟩
        have h5 : r = .ok (some d) := congrArg Prod.snd h3
        rcases hr with ⟨_, h6 | ⟨e, h6⟩⟩ | ⟨d0, h6, h7⟩
        · rw [h5] at h6; cases h6
        · rw [h5] at h6; cases h6
        · rw [h5] at h7; cases h7; exact h6
      | cons y c =>
        simp at h2
    · cases c with
      | nil =>
        simp only [List.nil_append, List.cons.injEq] at h2
        obtain ⟨h3, h4⟩ := h2
        refine ⟨h4, ?_⟩
        have h5 : r = .ok (some d) := (congrArg Prod.snd h3).symm
        rcases hr with ⟨_, h6 | ⟨e, h6⟩⟩ | ⟨d0, h6, h7⟩
        · rw [h5] at h6; cases h6
        · rw [h5] at h6; cases h6
        · rw [h5] at h7; cases h7; exact h6
      | cons y c =>
        simp only [List.cons_append, List.cons.injEq] at h2
        obtain ⟨rfl, h2⟩ := h2
        have := (hi.last a p d c h1).2
        rw [hd] at this; cases this
  · intro h0 x hm
    simp only at h0
    simp only [List.mem_append, List.mem_singleton] at hm
    rcases hm with hm | rfl
    · exact hi.unloaded hd x hm
    · rcases hr with ⟨_, h6⟩ | ⟨d0, h6, _⟩
      · exact h6
      · rw [h0] at h6; cases h6

theorem SrcSt.Inv.load {D : Type} {s : SrcSt D} (hi : s.Inv) (w : World D) (path : String) (hx : s.expanded = some path) :
    (s.load w path).1.Inv := by
  unfold SrcSt.load
  cases hd : s.desc with
  | some d => exact hi
  | none =>
    cases hw : w path with
    | error e =>
      have h := hi.addLoad hd path hx (.error e) none (Or.inl ⟨rfl, Or.inr ⟨e, rfl⟩⟩)
      simpa [hd] using h
    | ok d =>
      apply hi.addLoad hd path hx (.ok d) d
      cases d with
      | none => exact Or.inl ⟨rfl, Or.inl rfl⟩
      | some d => exact Or.inr ⟨d, rfl, rfl⟩

theorem SrcSt.Inv.step {D : Type} {s : SrcSt D} (hi : s.Inv) (op : SrcOp D) : (s.step op).Inv := by
  cases op with
  | tryGet => exact hi
  | location => exact hi
  | get O w c =>
    simp only [SrcSt.step, SrcSt.get]
    cases hx : s.expanded with
    | some path => exact hi.load w path hx
    | none =>
      cases hp : performSubs O s.loc c with
      | mk c1 r =>
        cases r with
        | error e => exact hi
        | ok path =>
          have hno : ∀ x ∈ s.loads, False := fun x hm => by
            have := hi.path x hm
            rw [hx] at this; cases this
          have h1 : SrcSt.Inv { s with expanded := some path } :=
            ⟨fun x hm => (hno x hm).elim, hi.last, hi.unloaded⟩
          exact h1.load w path rfl

theorem SrcSt.Inv.run {D : Type} : ∀ (ops : List (SrcOp D)) {s : SrcSt D}, s.Inv → (s.run ops).Inv
  | [], _, hi => hi
  | op :: ops, _, hi => SrcSt.Inv.run ops (hi.step op)

theorem SrcSt.step_known {D : Type} {s : SrcSt D} {d : D} (hd : s.desc = some d) (op : SrcOp D) :
    (s.step op).desc = some d ∧ (s.step op).loads = s.loads := by
  cases op with
  | tryGet => exact ⟨hd, rfl⟩
  | location => exact ⟨hd, rfl⟩
  | get O w c =>
    simp only [SrcSt.step, SrcSt.get]
    cases hx : s.expanded with
    | some path => simp [SrcSt.load, hd]
    | none =>
      cases hp : performSubs O s.loc c with
      | mk c1 r =>
        cases r with
        | error e => exact ⟨hd, rfl⟩
        | ok path => simp [SrcSt.load, hd]

theorem SrcSt.run_known {D : Type} {d : D} : ∀ (ops : List (SrcOp D)) {s : SrcSt D}, s.desc = some d →
    (s.run ops).desc = some d ∧ (s.run ops).loads = s.loads
  | [], _, hd => ⟨hd, rfl⟩
  | op :: ops, s, hd => by
    have h1 := SrcSt.step_known hd op
    have h2 := SrcSt.run_known ops h1.1
    exact ⟨h2.1, h2.2.trans h1.2⟩

/-- C48: after any history of calls the location is the value the substitutions had in the first call of
`get_launch_description` in which they could be evaluated, and until then their description. -/
theorem C48_location {D : Type} (desc : Option D) (loc : List Sub) (describe : List Sub → String) (ops : List (SrcOp D)) :
    ((newSource desc loc).run ops).location describe =
      match firstLocation loc ops with
      | some path => path
      | none => describe loc := by
  have h := SrcSt.run_expanded ops (newSource desc loc)
  simp only [newSource] at h
  simp only [newSource, SrcSt.location, h.1, h.2]
  cases firstLocation loc ops <;> rfl

/-- C48: after any history of calls, everything was loaded from the same path, namely the location, and at most the last load
was successful; a source that was given a description never loads anything. -/
theorem C48_loaded_once {D : Type} (desc : Option D) (loc : List Sub) (ops : List (SrcOp D)) :
    let s := (newSource desc loc).run ops
    (∀ x ∈ s.loads, firstLocation loc ops = some x.1) ∧
    (∀ a path d b, s.loads = a ++ (path, .ok (some d)) :: b → b = []) ∧
    (desc.isSome → s.loads = []) := by
  intro s
  have h := SrcSt.run_expanded ops (newSource desc loc)
  have hi : s.Inv := SrcSt.Inv.run ops
    ⟨by intro x hm; simp [newSource] at hm, by intro a p d b hab; simp [newSource] at hab, by intro _ x hm; simp [newSource] at hm⟩
  refine ⟨?_, fun a p d b hab => (hi.last a p d b hab).1, ?_⟩
  · intro x hm
    have h1 := hi.path x hm
    have h2 : s.expanded = firstLocation loc ops := by
      rw [show s.expanded = _ from h.2]
      simp [newSource]
    rw [← h2, h1]
  · intro hd
    obtain ⟨d, rfl⟩ := Option.isSome_iff_exists.1 hd
    exact (SrcSt.run_known ops (s := newSource (some d) loc) rfl).2

/-- C48: once a call has returned a description, every later call returns the same one, whatever happened in between and whatever the
context and the files are by then, does not change the context and loads nothing. -/
theorem C48_same_description {D : Type} (s : SrcSt D) (O : Oracle) (w : World D) (c : Ctx) (d : D)
    (h : (s.get O w c).2.2 = .ok (some d)) (ops : List (SrcOp D)) (O' : Oracle) (w' : World D) (c' : Ctx) :
    let s' := (s.get O w c).1.run ops
    s'.get O' w' c' = (s', c', .ok (some d)) ∧ s'.tryGet O' w' c' = some d ∧ s'.loads = (s.get O w c).1.loads := by
  intro s'
  have hload : ∀ (t : SrcSt D) (path : String), (t.load w path).2 = .ok (some d) → (t.load w path).1.desc = some d := by
    intro t path h1
    unfold SrcSt.load at h1 ⊢
    cases hd : t.desc with
    | some d0 => rw [hd] at h1; simp at h1; subst h1; exact hd
    | none =>
      rw [hd] at h1
      cases hw : w path with
      | error e => rw [hw] at h1; simp at h1
      | ok d0 => rw [hw] at h1; simp at h1; subst h1; rfl
  have key : (s.get O w c).1.desc = some d ∧ ∃ path, (s.get O w c).1.expanded = some path := by
    unfold SrcSt.get at h ⊢
    cases hx : s.expanded with
    | some path =>
      rw [hx] at h
      exact ⟨hload s path h, path, by rw [(s.load_expanded w path).1, hx]⟩
    | none =>
      rw [hx] at h
      simp only at h ⊢
      cases hp : performSubs O s.loc c with
      | mk c1 r =>
        cases r with
        | error e => rw [hp] at h; simp at h
        | ok path =>
          rw [hp] at h
          exact ⟨hload _ path h, path, by rw [(SrcSt.load_expanded w _ path).1]⟩
  obtain ⟨hd, path, hx⟩ := key
  have h1 := SrcSt.run_known ops hd
  have h2 := (SrcSt.run_expanded ops (s.get O w c).1).2
  rw [hx] at h2
  have h3 : s'.expanded = some path := by simpa using h2
  have h4 : s'.desc = some d := h1.1
  exact ⟨by simp [SrcSt.get, h3, SrcSt.load, h4], by simp [SrcSt.tryGet, h4], h1.2⟩

/-- C48: a failing load is not remembered: the next call loads the same path again and returns what that yields, although the
location would be different by then. -/
theorem C48_failure_retried {D : Type} (loc : List Sub) (O O' : Oracle) (w w' : World D) (c c1 c' : Ctx) (path : String) (e : Err)
    (hp : performSubs O loc c = (c1, .ok path)) (hw : w path = .error e) :
    let s := newSource (none : Option D) loc
    (s.get O w c).2.2 = .error e ∧ ((s.get O w c).1.get O' w' c').2.2 = w' path := by
  simp only [newSource, SrcSt.get, hp, SrcSt.load, hw, true_and]
  cases hw' : w' path with
  | error e' => simp
  | ok d => simp

/-- C48: without a context the description is found before the first load exactly if the location can be evaluated in a new context and what is there can be loaded. -/
theorem C48_without_context {D : Type} (loc : List Sub) (O : Oracle) (w : World D) (c0 : Ctx) (d : D) :
    (newSource (none : Option D) loc).tryGet O w c0 = some d ↔ ∃ path, (performSubs O loc c0).2 = .ok path ∧ w path = .ok (some d) := by
  simp only [newSource, SrcSt.tryGet]
  cases h : performSubs O loc c0 with
  | mk c1 r =>
    cases r with
    | error e => simp
    | ok path =>
      simp only [Except.ok.injEq, exists_eq_left']
      cases w path with
      | error e => simp
      | ok x => simp

/-- C48 is violated by a launch file that yields None: it is loaded again and again, and later calls may return something else. -/
theorem C48_none_violated {D : Type} (O : Oracle) (c : Ctx) (d : D) :
    let s := newSource (none : Option D) [.text "x.launch.py"]
    let s1 := (s.get O (fun _ => .ok none) c).1
    (s.get O (fun _ => .ok none) c).2.2 = .ok none ∧ (s1.get O (fun _ => .ok (some d)) c).2.2 = .ok (some d) ∧
    (s1.get O (fun _ => .ok (some d)) c).1.loads = [("x.launch.py", .ok none), ("x.launch.py", .ok (some d))] := by
  simp [newSource, SrcSt.get, SrcSt.load, performSubs, performAll, perform, M.bind, M.pure, joinStrs]

/-! ## C67 -/

/-- C67: a file is loaded as what it looks like: Python first exactly for the extension py.  The first loader that succeeds
determines the result. -/
theorem C67_first_loader {D : Type} (frontend python : World D) (valid : String → Bool) (path name : String) (hn : LastComponent path name) :
    (extensionOf name = "py" →
      (∀ d, python path = .ok d → loadAny frontend python valid path = .ok d) ∧
      (∀ e d, python path = .error e → frontend path = .ok d → loadAny frontend python valid path = .ok d)) ∧
    (extensionOf name ≠ "py" →
      (∀ d, frontend path = .ok d → loadAny frontend python valid path = .ok d) ∧
      (∀ e d, frontend path = .error e → python path = .ok d → loadAny frontend python valid path = .ok d)) := by
  rw [← (basename_iff _ _).1 hn]
  refine ⟨fun h => ⟨?_, ?_⟩, fun h => ⟨?_, ?_⟩⟩
  · intro d hd; simp [loadAny, h, firstLoad, hd]
  · intro e d he hd; simp [loadAny, h, firstLoad, he, hd]
  · intro d hd; simp [loadAny, h, firstLoad, hd]
  · intro e d he hd; simp [loadAny, h, firstLoad, he, hd]

/-- C67: InvalidLaunchFileError is raised exactly if both loaders fail; it carries both errors, the likelier one first (which becomes its
cause), and names the extension only if that is one of a known format. -/
theorem C67_error {D : Type} (frontend python : World D) (valid : String → Bool) (path name ext : String) (hn : LastComponent path name)
    (errs : List Err) :
    loadAny frontend python valid path = .invalid ext errs ↔
      ∃ ef ep, frontend path = .error ef ∧ python path = .error ep ∧
        errs = (if extensionOf name = "py" then [ep, ef] else [ef, ep]) ∧
        ext = (if extensionOf name = "py" ∨ valid name = true then extensionOf name else "") := by
  rw [← (basename_iff _ _).1 hn]
  by_cases h : extensionOf (basename path) = "py"
  · cases hf : frontend path with
    | ok d => cases hp : python path <;> simp [loadAny, h, firstLoad, hf, hp]
    | error ef =>
      cases hp : python path with
      | ok d => simp [loadAny, h, firstLoad, hf, hp]
      | error ep =>
        simp only [loadAny, h, firstLoad, hf, hp, if_true, true_or, AnyLoad.invalid.injEq, Except.error.injEq, List.nil_append,
          List.cons_append]
        constructor
        · rintro ⟨rfl, rfl⟩; exact ⟨ef, ep, rfl, rfl, rfl, rfl⟩
        · rintro ⟨a, b, rfl, rfl, rfl, rfl⟩; exact ⟨rfl, rfl⟩
  · cases hf : frontend path with
    | ok d => cases hp : python path <;> simp [loadAny, h, firstLoad, hf, hp]
    | error ef =>
      cases hp : python path with
      | ok d => simp [loadAny, h, firstLoad, hf, hp]
      | error ep =>
        simp only [loadAny, h, firstLoad, hf, hp, if_false, false_or, AnyLoad.invalid.injEq, Except.error.injEq, List.nil_append,
          List.cons_append]
        constructor
        · rintro ⟨rfl, rfl⟩; exact ⟨ef, ep, rfl, rfl, rfl, rfl⟩
        · rintro ⟨a, b, rfl, rfl, rfl, rfl⟩; exact ⟨rfl, rfl⟩

/-- C67 is violated by sources for one format: XMLLaunchDescriptionSource accepts a file the XML parser rejects, because the
parser it names is not used. -/
theorem C67_specific_parser_violated : ∃ (generic xml : World Nat) (path : String) (e : Err),
    xml path = .error e ∧ frontendSourceLoad generic xml path = .ok (some 1) :=
  ⟨fun _ => .ok (some 1), fun _ => .error .valueError, "a.launch.yaml", .valueError, rfl, rfl⟩

/-! ## Examples -/

/-- The location depends on a launch configuration, which changes; the first load fails. -/
def sampleSource (O : Oracle) (c c' : Ctx) : List (SrcOp Nat) :=
  [.location, .get O (fun _ => .error .fileNotFound) c, .tryGet O (fun _ => .ok (some 3)) c',
   .get O (fun p => .ok (some p.length)) c', .get O (fun _ => .ok (some 8)) c]

/-- A location that is a launch configuration. -/
def sampleLoc : List Sub := [.launchConfig [.text "file"] none]

example (O : Oracle) (c c' : Ctx) (h : c.lc.get? "file" = some "a.py") (h' : c'.lc.get? "file" = some "b.launch.xml") :
    ((newSource none sampleLoc).run (sampleSource O c c')).desc = some 4 ∧
    firstLocation sampleLoc (sampleSource O c c') = some "a.py" := by
  have hp : performSubs O sampleLoc c = (c, .ok "a.py") := by
    simp [sampleLoc, performSubs, performAll, perform, M.bind, M.pure, joinStrs, h]
  constructor
  · simp [sampleSource, SrcSt.run, SrcSt.step, newSource, SrcSt.get, hp, SrcSt.load]
    rfl
  · simp [sampleSource, firstLocation, hp]

example : LastComponent "/a.py/b.launch" "b.launch" ∧ extensionOf "b.launch" = "launch" ∧ extensionOf "b.launch.py" = "py" :=
  ⟨⟨by decide, .inr ⟨"/a.py", rfl⟩⟩, by decide +kernel, by decide +kernel⟩

end Verif
