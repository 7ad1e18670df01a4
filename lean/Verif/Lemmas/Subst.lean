import Verif.Model.Subst

/-! Helper lemmas about substitutions. -/

namespace Verif

/-- `c'` differs from `c` at most by memo entries for anonymous names. -/
structure AnonExt (c c' : Ctx) : Prop where
  keep : ∀ k v, c.lc.get? k = some v → c'.lc.get? k = some v
  new : ∀ k, c.lc.get? k = none → c'.lc.get? k ≠ none → ∃ n : String, k = "anon" ++ n
  wf : c.lc.Wf → c'.lc.Wf
  rest : c' = { c with lc := c'.lc, rng := c'.rng }

theorem AnonExt.refl (c : Ctx) : AnonExt c c :=
  ⟨fun _ _ h => h, fun _ h h' => absurd h h', id, rfl⟩

theorem AnonExt.trans {a b c : Ctx} (h1 : AnonExt a b) (h2 : AnonExt b c) : AnonExt a c := by
  refine ⟨fun k v h => h2.keep k v (h1.keep k v h), ?_, fun h => h2.wf (h1.wf h), ?_⟩
  · intro k ha hc
    cases hb : b.lc.get? k with
    | none => exact h2.new k hb hc
    | some v => exact h1.new k ha (by simp [hb])
  · rw [h2.rest, h1.rest]

/-- `m` only adds memo entries. -/
def Frames {α : Type} (m : M α) : Prop := ∀ c, AnonExt c (m c).1

theorem Frames.pure {α : Type} (a : α) : Frames (M.pure a) := fun c => AnonExt.refl c
theorem Frames.raise {α : Type} (e : Err) : Frames (M.raise e : M α) := fun c => AnonExt.refl c
theorem Frames.lift {α : Type} (r : Res α) : Frames (M.lift r) := fun c => AnonExt.refl c

theorem Frames.bind {α β : Type} {m : M α} {f : α → M β} (hm : Frames m) (hf : ∀ a, Frames (f a)) :
    Frames (M.bind m f) := by
  intro c
  have h := hm c
  unfold M.bind
  split
  · rename_i e heq; rw [heq] at h; exact h
  · rename_i e heq; rw [heq] at h; exact h.trans (hf _ _)

theorem Frames.wrap {α : Type} {m : M α} (hm : Frames m) : Frames (wrapTypeValue m) := by
  intro c
  have h := hm c
  unfold wrapTypeValue
  split <;> first | exact h | (rename_i heq; rw [heq] at h; exact h)

theorem Frames.typedBool {O : Oracle} {b : Bool} {m : M String} (hm : Frames m) :
    Frames (typedBool O b m) := by
  unfold Verif.typedBool
  split
  · exact Frames.raise _
  · refine Frames.bind hm fun s => ?_
    split <;> first | exact Frames.raise _ | exact Frames.pure _

theorem Frames.joined {m : M (List String)} (hm : Frames m) :
    Frames (M.bind m fun l => M.pure (joinStrs l)) :=
  Frames.bind hm fun _ => Frames.pure _

theorem Frames.readLocalStr (n : String) : Frames (readLocalStr n) := by
  intro c
  unfold Verif.readLocalStr
  split <;> exact AnonExt.refl c

mutual
theorem perform_frames (O : Oracle) : ∀ s : Sub, Frames (perform O s)
  | .text s => Frames.pure s
  | .launchConfig name default => by
    unfold perform
    refine Frames.bind (performAll_frames O name) fun ns => ?_
    intro c
    dsimp only
    split
    · exact AnonExt.refl c
    · refine Frames.bind (performOpt_frames O default) (fun d => ?_) c
      split
      · exact Frames.pure _
      · exact Frames.raise _
  | .envVar name default => by
    unfold perform
    refine Frames.bind (performOpt_frames O default) fun d => ?_
    refine Frames.bind (performAll_frames O name) fun ns => ?_
    intro c
    dsimp only
    split
    · exact AnonExt.refl c
    · split <;> exact AnonExt.refl c
  | .anonName name => by
    unfold perform
    refine Frames.bind (performAll_frames O name) fun ns => ?_
    intro c
    dsimp only
    split
    · exact AnonExt.refl c
    · rename_i hnone
      refine ⟨?_, ?_, fun h => h.set _ _, rfl⟩
      · intro k v h
        by_cases hk : "anon" ++ joinStrs ns = k
        · subst hk; rw [hnone] at h; cases h
        · simp only; rw [Dict.get?_set_ne _ _ hk]; exact h
      · intro k h h'
        by_cases hk : "anon" ++ joinStrs ns = k
        · exact ⟨_, hk.symm⟩
        · simp only at h'; rw [Dict.get?_set_ne _ _ hk] at h'; exact absurd h h'
  | .notS value => by
    unfold perform
    exact Frames.bind (Frames.wrap (Frames.typedBool (Frames.joined (performAll_frames O value))))
      fun _ => Frames.pure _
  | .andS left right => by
    unfold perform
    exact Frames.bind (Frames.wrap (Frames.typedBool (Frames.joined (performAll_frames O left))))
      fun _ => Frames.bind (Frames.wrap (Frames.typedBool (Frames.joined (performAll_frames O right))))
      fun _ => Frames.pure _
  | .orS left right => by
    unfold perform
    exact Frames.bind (Frames.wrap (Frames.typedBool (Frames.joined (performAll_frames O left))))
      fun _ => Frames.bind (Frames.wrap (Frames.typedBool (Frames.joined (performAll_frames O right))))
      fun _ => Frames.pure _
  | .anyS args => by
    unfold perform
    exact Frames.bind (performBools_frames O args) fun _ => Frames.pure _
  | .allS args => by
    unfold perform
    exact Frames.bind (performBools_frames O args) fun _ => Frames.pure _
  | .equals left right => by
    unfold perform
    exact Frames.bind (performAll_frames O left) fun _ =>
      Frames.bind (performAll_frames O right) fun _ => Frames.pure _
  | .notEquals left right => by
    unfold perform
    exact Frames.bind (performAll_frames O left) fun _ =>
      Frames.bind (performAll_frames O right) fun _ => Frames.pure _
  | .ifElse cond ifValue elseValue => by
    unfold perform
    refine Frames.bind (Frames.wrap (Frames.typedBool (Frames.joined (performAll_frames O cond))))
      fun b => ?_
    split
    · exact Frames.joined (performAll_frames O ifValue)
    · exact Frames.joined (performAll_frames O elseValue)
  | .pathJoin parts => by
    unfold perform
    exact Frames.bind (performAll_frames O parts) fun _ => Frames.lift _
  | .localVar expression => by unfold perform; exact fun c => AnonExt.refl c
  | .pyExpr expression modules => by
    unfold perform
    exact Frames.bind (performAll_frames O modules) fun _ =>
      Frames.bind (performAll_frames O expression) fun _ => Frames.lift _
  | .command cmd onStderr => by
    unfold perform
    exact Frames.bind (performAll_frames O cmd) fun _ => Frames.bind (Frames.lift _) fun _ =>
      Frames.bind (performAll_frames O onStderr) fun _ => Frames.lift _
  | .findExec name => by
    unfold perform
    refine Frames.bind (performAll_frames O name) fun l => ?_
    intro c
    dsimp only
    split <;> exact AnonExt.refl c
  | .fileContent path => by
    unfold perform
    refine Frames.bind (performAll_frames O path) fun l => ?_
    split
    · exact Frames.raise _
    · exact Frames.lift _
  | .thisLaunchFile => by unfold perform; exact Frames.readLocalStr _
  | .thisLaunchFileDir => by unfold perform; exact Frames.readLocalStr _
  | .launchLogDir => by unfold perform; exact Frames.pure _

theorem performAll_frames (O : Oracle) : ∀ ss : List Sub, Frames (performAll O ss)
  | [] => by unfold performAll; exact Frames.pure _
  | s :: ss => by
    unfold performAll
    exact Frames.bind (perform_frames O s) fun _ =>
      Frames.bind (performAll_frames O ss) fun _ => Frames.pure _

theorem performOpt_frames (O : Oracle) : ∀ o : Option (List Sub), Frames (performOpt O o)
  | none => by unfold performOpt; exact Frames.pure _
  | some ss => by unfold performOpt; exact Frames.bind (performAll_frames O ss) fun _ => Frames.pure _

theorem performBools_frames (O : Oracle) : ∀ l : List (List Sub), Frames (performBools O l)
  | [] => by unfold performBools; exact Frames.pure _
  | a :: as => by
    unfold performBools
    exact Frames.bind (Frames.wrap (Frames.typedBool (Frames.joined (performAll_frames O a))))
      fun _ => Frames.bind (performBools_frames O as) fun _ => Frames.pure _
end

theorem performSubs_frames (O : Oracle) (ss : List Sub) : Frames (performSubs O ss) :=
  Frames.joined (performAll_frames O ss)

theorem joinStrs_append (a b : List String) : joinStrs (a ++ b) = joinStrs a ++ joinStrs b := by
  induction a with
  | nil => simp [joinStrs]
  | cons x xs ih => simp [joinStrs, ih, String.append_assoc]

end Verif
