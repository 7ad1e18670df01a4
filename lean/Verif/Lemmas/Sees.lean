import Verif.Lemmas.Visit
import Verif.Lemmas.Scope

/-! Performing substitutions depends only on the visible part of a context. -/

namespace Verif

/-- The visible part of a context. -/
def Ctx.visible (c : Ctx) : Ctx := { lc := c.lc, env := c.env, envReset := c.envReset, locals := c.locals, rng := c.rng }

/-- `m` sees only the visible part of the context, and changes only configurations and the source of names. -/
def Sees {α : Type} (m : M α) : Prop := ∀ c : Ctx, m c = ({ c with lc := (m c.visible).1.lc, rng := (m c.visible).1.rng }, (m c.visible).2)

theorem Sees.pure {α : Type} (a : α) : Sees (M.pure a) := fun _ => rfl
theorem Sees.raise {α : Type} (e : Err) : Sees (M.raise e : M α) := fun _ => rfl
theorem Sees.lift {α : Type} (r : Res α) : Sees (M.lift r) := fun _ => rfl

theorem Sees.fst {α : Type} {m : M α} (h : Sees m) (c : Ctx) : (m c.visible).1 = (m c).1.visible := by
  rw [h c, h c.visible]
  rfl

theorem Sees.bind {α β : Type} {m : M α} {f : α → M β} (hm : Sees m) (hf : ∀ a, Sees (f a)) : Sees (M.bind m f) := by
  intro c
  have h := hm c
  have hv := hm c.visible
  unfold M.bind
  cases hx : m c.visible with
  | mk v r =>
    rw [hx] at h
    have hv' : v = { c.visible with lc := v.lc, rng := v.rng } := by
      rw [show c.visible.visible = c.visible from rfl, hx] at hv
      exact congrArg Prod.fst hv
    rw [h]
    cases r with
    | error e => rfl
    | ok a =>
      have h2 := hf a { c with lc := v.lc, rng := v.rng }
      have e1 : Ctx.visible { c with lc := v.lc, rng := v.rng } = v := by rw [hv']; rfl
      rw [e1] at h2
      exact h2

theorem Sees.wrap {α : Type} {m : M α} (hm : Sees m) : Sees (wrapTypeValue m) := by
  intro c
  have h := hm c
  unfold wrapTypeValue
  cases hx : m c.visible with
  | mk v r =>
    rw [hx] at h
    rw [h]
    cases r with
    | ok a => rfl
    | error e => cases e <;> rfl

theorem Sees.typedBool {O : Oracle} {b : Bool} {m : M String} (hm : Sees m) : Sees (typedBool O b m) := by
  unfold Verif.typedBool
  split
  · exact Sees.raise _
  · refine Sees.bind hm fun s => ?_
    split <;> first | exact Sees.raise _ | exact Sees.pure _

theorem Sees.joined {m : M (List String)} (hm : Sees m) : Sees (M.bind m fun l => M.pure (joinStrs l)) :=
  Sees.bind hm fun _ => Sees.pure _

theorem Sees.readLocalStr (n : String) : Sees (readLocalStr n) := by
  intro c
  unfold Verif.readLocalStr
  have e : c.visible.locals = c.locals := rfl
  rw [e]
  split <;> rfl

mutual
theorem perform_sees (O : Oracle) : ∀ s : Sub, Sees (perform O s)
  | .text s => by unfold perform; exact Sees.pure s
  | .launchConfig name default => by
    unfold perform
    refine Sees.bind (performAll_sees O name) fun ns => ?_
    intro c
    dsimp only
    have e : c.visible.lc = c.lc := rfl
    rw [e]
    split
    · rfl
    · refine Sees.bind (performOpt_sees O default) (fun d => ?_) c
      split
      · exact Sees.pure _
      · exact Sees.raise _
  | .envVar name default => by
    unfold perform
    refine Sees.bind (performOpt_sees O default) fun d => ?_
    refine Sees.bind (performAll_sees O name) fun ns => ?_
    intro c
    dsimp only
    have e : c.visible.env = c.env := rfl
    rw [e]
    split
    · rfl
    · split <;> rfl
  | .anonName name => by
    unfold perform
    refine Sees.bind (performAll_sees O name) fun ns => ?_
    intro c
    dsimp only
    have e : c.visible.lc = c.lc := rfl
    have e' : c.visible.rng = c.rng := rfl
    rw [e, e']
    split <;> rfl
  | .notS value => by
    unfold perform
    exact Sees.bind (Sees.wrap (Sees.typedBool (Sees.joined (performAll_sees O value)))) fun _ => Sees.pure _
  | .andS left right => by
    unfold perform
    exact Sees.bind (Sees.wrap (Sees.typedBool (Sees.joined (performAll_sees O left))))
      fun _ => Sees.bind (Sees.wrap (Sees.typedBool (Sees.joined (performAll_sees O right)))) fun _ => Sees.pure _
  | .orS left right => by
    unfold perform
    exact Sees.bind (Sees.wrap (Sees.typedBool (Sees.joined (performAll_sees O left))))
      fun _ => Sees.bind (Sees.wrap (Sees.typedBool (Sees.joined (performAll_sees O right)))) fun _ => Sees.pure _
  | .anyS args => by unfold perform; exact Sees.bind (performBools_sees O args) fun _ => Sees.pure _
  | .allS args => by unfold perform; exact Sees.bind (performBools_sees O args) fun _ => Sees.pure _
  | .equals left right => by
    unfold perform
    exact Sees.bind (performAll_sees O left) fun _ => Sees.bind (performAll_sees O right) fun _ => Sees.pure _
  | .notEquals left right => by
    unfold perform
    exact Sees.bind (performAll_sees O left) fun _ => Sees.bind (performAll_sees O right) fun _ => Sees.pure _
  | .ifElse cond ifValue elseValue => by
    unfold perform
    refine Sees.bind (Sees.wrap (Sees.typedBool (Sees.joined (performAll_sees O cond)))) fun b => ?_
    split
    · exact Sees.joined (performAll_sees O ifValue)
    · exact Sees.joined (performAll_sees O elseValue)
  | .pathJoin parts => by unfold perform; exact Sees.bind (performAll_sees O parts) fun _ => Sees.lift _
  | .localVar expression => by unfold perform; exact fun c => rfl
  | .pyExpr expression modules => by
    unfold perform
    exact Sees.bind (performAll_sees O modules) fun _ => Sees.bind (performAll_sees O expression) fun _ => Sees.lift _
  | .command cmd onStderr => by
    unfold perform
    exact Sees.bind (performAll_sees O cmd) fun _ => Sees.bind (Sees.lift _) fun _ =>
      Sees.bind (performAll_sees O onStderr) fun _ => Sees.lift _
  | .findExec name => by
    unfold perform
    refine Sees.bind (performAll_sees O name) fun l => ?_
    intro c
    dsimp only
    have e : c.visible.env = c.env := rfl
    rw [e]
    split <;> rfl
  | .fileContent path => by
    unfold perform
    refine Sees.bind (performAll_sees O path) fun l => ?_
    split
    · exact Sees.raise _
    · exact Sees.lift _
  | .thisLaunchFile => by unfold perform; exact Sees.readLocalStr _
  | .thisLaunchFileDir => by unfold perform; exact Sees.readLocalStr _
  | .launchLogDir => by unfold perform; exact Sees.pure _

theorem performAll_sees (O : Oracle) : ∀ ss : List Sub, Sees (performAll O ss)
  | [] => by unfold performAll; exact Sees.pure _
  | s :: ss => by
    unfold performAll
    exact Sees.bind (perform_sees O s) fun _ => Sees.bind (performAll_sees O ss) fun _ => Sees.pure _

theorem performOpt_sees (O : Oracle) : ∀ o : Option (List Sub), Sees (performOpt O o)
  | none => by unfold performOpt; exact Sees.pure _
  | some ss => by unfold performOpt; exact Sees.bind (performAll_sees O ss) fun _ => Sees.pure _

theorem performBools_sees (O : Oracle) : ∀ l : List (List Sub), Sees (performBools O l)
  | [] => by unfold performBools; exact Sees.pure _
  | a :: as => by
    unfold performBools
    exact Sees.bind (Sees.wrap (Sees.typedBool (Sees.joined (performAll_sees O a))))
      fun _ => Sees.bind (performBools_sees O as) fun _ => Sees.pure _
end

theorem performSubs_sees (O : Oracle) (ss : List Sub) : Sees (performSubs O ss) := Sees.joined (performAll_sees O ss)

end Verif
