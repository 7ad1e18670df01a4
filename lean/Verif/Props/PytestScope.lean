import Verif.Spec.PytestScope

/-!
# Property C103: scopes of the fixtures of launch_pytest
-/

namespace Verif

theorem FixScope.width_rank (s : FixScope) : s.width = s.rank := by cases s <;> decide

theorem FixScope.rank_inj {a b : FixScope} (h : a.rank = b.rank) : a = b := by
  cases a <;> cases b <;> simp_all [FixScope.rank]

theorem widen_other (s : FixScope) (m : ModVars) (n k : LpName) (h : k ≠ n) : m.widen s n k = m k := by
  unfold ModVars.widen
  cases m n with
  | none => simp [ModVars.bind, h]
  | some f =>
    simp only
    split
    · simp [ModVars.bind, h]
    · rfl

/-- What a decoration does to one name. -/
def oneWiden (s : FixScope) (f : Option ModFixture) : Option ModFixture :=
  match f with
  | some f => if f.overridable && scopeGt s f.scope then some ⟨s, true⟩ else some f
  | none => some ⟨s, true⟩

theorem widen_same (s : FixScope) (m : ModVars) (n : LpName) : m.widen s n n = oneWiden s (m n) := by
  unfold ModVars.widen oneWiden
  cases h : m n with
  | none => simp [ModVars.bind]
  | some f =>
    simp only
    split
    · simp [ModVars.bind]
    · exact h

theorem decorate_eq (m : ModVars) (s : FixScope) (n : LpName) :
    m.decorate s n = if s = .function then m n else oneWiden s (m n) := by
  unfold ModVars.decorate
  split
  · rfl
  · simp only [List.foldl_cons, List.foldl_nil]
    cases n
    · rw [widen_other _ _ _ _ (by decide), widen_other _ _ _ _ (by decide), widen_same]
    · rw [widen_other _ _ _ _ (by decide), widen_same, widen_other _ _ _ _ (by decide)]
    · rw [widen_same, widen_other _ _ _ _ (by decide), widen_other _ _ _ _ (by decide)]

/-- The rank of the scope pytest finds after a decoration, for a name that is not the module's own. -/
theorem decorate_rank (m : ModVars) (s : FixScope) (n : LpName) (h : ∀ f, m n = some f → f.overridable = true) :
    ((m.decorate s).scopeOf n).rank = max (m.scopeOf n).rank s.rank := by
  unfold ModVars.scopeOf
  rw [decorate_eq]
  split
  · rename_i hs; subst hs; simp [FixScope.rank]
  · cases hm : m n with
    | none => simp [oneWiden, FixScope.rank]
    | some f =>
      simp only [oneWiden, h f hm, Bool.true_and]
      split
      · rename_i hg
        simp only [scopeGt, decide_eq_true_eq] at hg
        simp; omega
      · rename_i hg
        simp only [scopeGt, decide_eq_true_eq] at hg
        simp; omega

theorem decorate_overridable (m : ModVars) (s : FixScope) (n : LpName) (h : ∀ f, m n = some f → f.overridable = true) :
    ∀ f, m.decorate s n = some f → f.overridable = true := by
  intro f hf
  rw [decorate_eq] at hf
  split at hf
  · exact h f hf
  · cases hm : m n with
    | none => rw [hm] at hf; simp [oneWiden] at hf; rw [← hf]
    | some g =>
      rw [hm] at hf
      simp only [oneWiden] at hf
      split at hf
      · simp at hf; rw [← hf]
      · simp at hf; rw [← hf]; exact h g hm

theorem run_rank (l : List ModStmt) (n : LpName) (hb : n ∉ bound l) : ∀ (m : ModVars), (∀ f, m n = some f → f.overridable = true) →
    ((m.run l).scopeOf n).rank = max (m.scopeOf n).rank (widest (decorated l)) := by
  induction l with
  | nil => intro m _; simp [ModVars.run, decorated, widest]
  | cons st l ih =>
    intro m hm
    have hb' : n ∉ bound l := by
      intro h
      apply hb
      cases st <;> simp [bound] at h ⊢
      · exact h
      · exact .inr h
    cases st with
    | decorate s =>
      have := ih hb' (m.decorate s) (decorate_overridable m s n hm)
      simp only [ModVars.run, List.foldl_cons, ModVars.exec] at this ⊢
      rw [this, decorate_rank m s n hm]
      simp only [decorated, List.filterMap_cons, widest, List.foldr_cons, FixScope.width_rank]
      omega
    | bind k f =>
      have hk : n ≠ k := by
        intro h; apply hb; simp [bound, h]
      have h1 : (m.bind k f) n = m n := by simp [ModVars.bind, hk]
      have := ih hb' (m.bind k f) (by rw [h1]; exact hm)
      simp only [ModVars.run, List.foldl_cons, ModVars.exec] at this ⊢
      rw [this]
      simp [ModVars.scopeOf, h1, decorated]

theorem widest_le (l : List FixScope) (s : FixScope) (h : s ∈ l) : s.rank ≤ widest l := by
  induction l with
  | nil => cases h
  | cons a l ih =>
    simp only [widest, List.foldr_cons, FixScope.width_rank]
    rcases List.mem_cons.mp h with rfl | h
    · omega
    · have := ih h
      simp only [widest, FixScope.width_rank] at this
      omega

theorem widest_perm {l l' : List FixScope} (h : l.Perm l') : widest l = widest l' := by
  induction h with
  | nil => rfl
  | cons a _ ih => simp only [widest, List.foldr_cons] at ih ⊢; rw [ih]
  | swap a b l => simp only [widest, List.foldr_cons]; omega
  | trans _ _ h1 h2 => rw [h1, h2]

/-! ## C103 -/

/-- C103: a fixture that the module does not bind itself has the widest scope of the module's launch fixtures (that of the plugin, function, if there
are none with a wider one). -/
theorem C103_scope (l : List ModStmt) (n : LpName) (hb : n ∉ bound l) :
    ((ModVars.run (fun _ => none) l).scopeOf n).width = widest (decorated l) := by
  rw [FixScope.width_rank]
  rw [run_rank l n hb _ (by simp)]
  simp [ModVars.scopeOf, FixScope.rank]

/-- C103: a launch fixture can be set up exactly if none of the fixtures needed requests one of a narrower scope. -/
theorem C103_mismatch (m : ModVars) (s : FixScope) :
    (m.setsUp s = true ↔ NoMismatch m.scopeOf s) ∧ (m.contextSetsUp = true ↔ NoContextMismatch m.scopeOf) := by
  simp only [ModVars.setsUp, ModVars.contextSetsUp, mayRequest, ← FixScope.width_rank, Bool.and_eq_true, decide_eq_true_eq]
  exact ⟨⟨fun h => ⟨h.1.1, h.1.2, h.2⟩, fun h => ⟨⟨h.service, h.loop⟩, h.serviceLoop⟩⟩,
    fun h => ⟨h.1, h.2⟩, fun h => ⟨h.service, h.serviceLoop⟩⟩

/-- C103: so every launch fixture of a module that binds none of the names can be set up, and so can `launch_context`, whatever the order. -/
theorem C103_sets_up_partial (l : List ModStmt) (hb : bound l = []) :
    (∀ s ∈ decorated l, (ModVars.run (fun _ => none) l).setsUp s = true) ∧ (ModVars.run (fun _ => none) l).contextSetsUp = true := by
  have h : ∀ n, ((ModVars.run (fun _ => none) l).scopeOf n).rank = widest (decorated l) := fun n => by
    rw [← FixScope.width_rank]; exact C103_scope l n (by rw [hb]; simp)
  refine ⟨fun s hs => ?_, ?_⟩
  · have := widest_le _ s hs
    simp only [ModVars.setsUp, mayRequest, h, Bool.and_eq_true, decide_eq_true_eq]
    omega
  · simp [ModVars.contextSetsUp, mayRequest, h]

/-- C103: the order of the decorations makes no difference. -/
theorem C103_order (l l' : List ModStmt) (hb : bound l = []) (hp : l.Perm l') (n : LpName) :
    (ModVars.run (fun _ => none) l).scopeOf n = (ModVars.run (fun _ => none) l').scopeOf n := by
  apply FixScope.rank_inj
  rw [← FixScope.width_rank, ← FixScope.width_rank]
  have hb' : bound l' = [] := by
    have := hp.filterMap (fun | ModStmt.bind n _ => some n | _ => none)
    exact List.nil_perm.mp (hb ▸ this)
  rw [C103_scope l n (by rw [hb]; simp), C103_scope l' n (by rw [hb']; simp)]
  exact widest_perm (hp.filterMap _)

/-- C103: what the module has bound itself, and does not allow to override, is kept by all decorations. -/
theorem C103_own_kept (m : ModVars) (n : LpName) (f : ModFixture) (h : m n = some f) (ho : f.overridable = false) (l : List ModStmt)
    (hb : n ∉ bound l) : (m.run l) n = some f := by
  induction l generalizing m with
  | nil => exact h
  | cons st l ih =>
    have hb' : n ∉ bound l := by
      intro hn
      apply hb
      cases st <;> simp [bound] at hn ⊢
      · exact hn
      · exact .inr hn
    refine ih _ ?_ hb'
    cases st with
    | decorate s =>
      simp only [ModVars.exec]
      rw [decorate_eq, h]
      simp [oneWiden, ho]
    | bind k g =>
      have hk : n ≠ k := by
        intro hn; apply hb; simp [bound, hn]
      simp [ModVars.exec, ModVars.bind, hk, h]

/-- C103: a module that defines the event loop itself, as wide as its widest launch fixture, works too, wherever the definition is. -/
theorem C103_own_loop (l1 l2 : List ModStmt) (f : ModFixture) (ho : f.overridable = false)
    (hb : bound (l1 ++ l2) = []) (hw : widest (decorated (l1 ++ l2)) ≤ f.scope.width) :
    ∀ s ∈ decorated (l1 ++ l2), (ModVars.run (fun _ => none) (l1 ++ .bind .eventLoop f :: l2)).setsUp s = true := by
  intro s hs
  have hb2 : bound l2 = [] := by
    unfold bound at hb
    rw [List.filterMap_append, List.append_eq_nil_iff] at hb
    exact hb.2
  have hd : decorated (l1 ++ .bind .eventLoop f :: l2) = decorated (l1 ++ l2) := by simp [decorated]
  have hbs : bound (l1 ++ .bind .eventLoop f :: l2) = [.eventLoop] := by
    unfold bound at hb ⊢
    rw [List.filterMap_append, List.append_eq_nil_iff] at hb
    rw [List.filterMap_append, List.filterMap_cons, hb.1, hb.2]
    rfl
  have h1 := C103_scope (l1 ++ .bind .eventLoop f :: l2) .launchService (by rw [hbs]; decide)
  have h2 : (ModVars.run (fun _ => none) (l1 ++ .bind .eventLoop f :: l2)) .eventLoop = some f := by
    simp only [ModVars.run, List.foldl_append, List.foldl_cons]
    exact C103_own_kept _ _ f (by simp [ModVars.exec, ModVars.bind]) ho l2 (by rw [hb2]; simp)
  have h3 : (ModVars.run (fun _ => none) (l1 ++ .bind .eventLoop f :: l2)).scopeOf .eventLoop = f.scope := by
    simp [ModVars.scopeOf, h2]
  have := widest_le _ s hs
  rw [hd, FixScope.width_rank] at h1
  rw [FixScope.width_rank] at hw
  simp only [ModVars.setsUp, mayRequest, h1, h3, Bool.and_eq_true, decide_eq_true_eq]
  omega

example : (decorated [.decorate .cls, .decorate .session, .decorate .function]) = [.cls, .session, .function] ∧
    bound [.decorate .cls, .decorate .session, .decorate .function] = [] ∧
    (ModVars.run (fun _ => none) [.decorate .cls, .decorate .session, .decorate .function]).scopeOf .launchContext = .session := by decide

example : widest (decorated ([.decorate .cls] ++ [.decorate .module])) ≤ FixScope.session.width ∧ bound ([.decorate .cls] ++ [.decorate .module]) = [] ∧
    (ModVars.run (fun _ => none) [.decorate .cls, .bind .eventLoop ⟨.session, false⟩, .decorate .module]).setsUp .module = true := by decide

/-- C103 is violated: a launch fixture of scope function in a module with a launch fixture of scope module is run with the launch service and the
event loop of the whole module, which its own tests do not get anew. -/
theorem C103_narrow_violated :
    (ModVars.run (fun _ => none) [.decorate .function]).scopeOf .launchService = .function ∧
    (ModVars.run (fun _ => none) [.decorate .function, .decorate .module]).scopeOf .launchService = .module := by decide

/-- C103 is violated: a module that binds the event loop itself, even to the plugin's, gets a ScopeMismatch error for its wider launch fixtures; before or after
makes no difference. -/
theorem C103_own_narrow_violated :
    (ModVars.run (fun _ => none) [.bind .eventLoop ⟨.function, false⟩, .decorate .module]).setsUp .module = false ∧
    (ModVars.run (fun _ => none) [.decorate .module, .bind .eventLoop ⟨.function, false⟩]).setsUp .module = false ∧
    (ModVars.run (fun _ => none) [.bind .eventLoop ⟨.function, true⟩, .decorate .module]).setsUp .module = true ∧
    (ModVars.run (fun _ => none) [.decorate .module, .bind .eventLoop ⟨.function, true⟩]).setsUp .module = false := by decide

end Verif
