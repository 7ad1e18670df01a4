import Verif.Lemmas.Subst
import Verif.Spec.Subst

/-! # Lemmas about performing substitutions -/

namespace Verif

theorem performAll_append (O : Oracle) (xs ys : List Sub) (c : Ctx) :
    performAll O (xs ++ ys) c =
      M.bind (performAll O xs) (fun a => M.bind (performAll O ys) fun b => M.pure (a ++ b)) c := by
  induction xs generalizing c with
  | nil =>
    simp only [List.nil_append, performAll, M.bind, M.pure]
    cases h : performAll O ys c with
    | mk c' r => cases r <;> rfl
  | cons x xs ih =>
    simp only [List.cons_append, performAll, M.bind, M.pure] at ih ⊢
    cases h : perform O x c with
    | mk c1 r =>
      cases r with
      | error e => simp
      | ok v =>
        simp only [ih]
        cases h2 : performAll O xs c1 with
        | mk c2 r2 =>
          cases r2 with
          | error e => simp
          | ok vs =>
            simp only
            cases h3 : performAll O ys c2 with
            | mk c3 r3 => cases r3 <;> simp

def Quiet {α : Type} (m : M α) : Prop := ∀ c, (m c).1 = c

theorem Quiet.bind {α β : Type} {m : M α} {f : α → M β} (hm : Quiet m) (hf : ∀ a, Quiet (f a)) :
    Quiet (M.bind m f) := by
  intro c
  have h := hm c
  unfold M.bind
  split
  · rename_i e heq; rw [heq] at h; exact h
  · rename_i e heq; rw [heq] at h; rw [hf]; exact h

theorem Quiet.pure {α : Type} (a : α) : Quiet (M.pure a) := fun _ => rfl
theorem Quiet.raise {α : Type} (e : Err) : Quiet (M.raise e : M α) := fun _ => rfl
theorem Quiet.lift {α : Type} (r : Res α) : Quiet (M.lift r) := fun _ => rfl

theorem Quiet.wrap {α : Type} {m : M α} (hm : Quiet m) : Quiet (wrapTypeValue m) := by
  intro c
  have h := hm c
  unfold wrapTypeValue
  split <;> first | exact h | (rename_i heq; rw [heq] at h; exact h)

theorem Quiet.typedBool {O : Oracle} {b : Bool} {m : M String} (hm : Quiet m) :
    Quiet (typedBool O b m) := by
  unfold Verif.typedBool
  split
  · exact Quiet.raise _
  · refine Quiet.bind hm fun s => ?_
    split <;> first | exact Quiet.raise _ | exact Quiet.pure _

theorem Quiet.joined {m : M (List String)} (hm : Quiet m) :
    Quiet (M.bind m fun l => M.pure (joinStrs l)) :=
  Quiet.bind hm fun _ => Quiet.pure _

mutual
theorem perform_quiet (O : Oracle) : ∀ s : Sub, s.anonFree = true → Quiet (perform O s)
  | .text s, _ => by unfold perform; exact Quiet.pure s
  | .launchConfig name default, h => by
    simp only [Sub.anonFree, Bool.and_eq_true] at h
    unfold perform
    refine Quiet.bind (performAll_quiet O name h.1) fun ns => ?_
    intro c
    dsimp only
    split
    · rfl
    · refine Quiet.bind (performOpt_quiet O default h.2) (fun d => ?_) c
      split
      · exact Quiet.pure _
      · exact Quiet.raise _
  | .envVar name default, h => by
    simp only [Sub.anonFree, Bool.and_eq_true] at h
    unfold perform
    refine Quiet.bind (performOpt_quiet O default h.2) fun d => ?_
    refine Quiet.bind (performAll_quiet O name h.1) fun ns => ?_
    intro c
    dsimp only
    split
    · rfl
    · split <;> rfl
  | .anonName name, h => by simp [Sub.anonFree] at h
  | .notS value, h => by
    simp only [Sub.anonFree] at h
    unfold perform
    exact Quiet.bind (Quiet.wrap (Quiet.typedBool (Quiet.joined (performAll_quiet O value h))))
      fun _ => Quiet.pure _
  | .andS left right, h => by
    simp only [Sub.anonFree, Bool.and_eq_true] at h
    unfold perform
    exact Quiet.bind (Quiet.wrap (Quiet.typedBool (Quiet.joined (performAll_quiet O left h.1))))
      fun _ => Quiet.bind (Quiet.wrap (Quiet.typedBool (Quiet.joined (performAll_quiet O right h.2))))
      fun _ => Quiet.pure _
  | .orS left right, h => by
    simp only [Sub.anonFree, Bool.and_eq_true] at h
    unfold perform
    exact Quiet.bind (Quiet.wrap (Quiet.typedBool (Quiet.joined (performAll_quiet O left h.1))))
      fun _ => Quiet.bind (Quiet.wrap (Quiet.typedBool (Quiet.joined (performAll_quiet O right h.2))))
      fun _ => Quiet.pure _
  | .anyS args, h => by
    simp only [Sub.anonFree] at h
    unfold perform
    exact Quiet.bind (performBools_quiet O args h) fun _ => Quiet.pure _
  | .allS args, h => by
    simp only [Sub.anonFree] at h
    unfold perform
    exact Quiet.bind (performBools_quiet O args h) fun _ => Quiet.pure _
  | .equals left right, h => by
    simp only [Sub.anonFree, Bool.and_eq_true] at h
    unfold perform
    exact Quiet.bind (performAll_quiet O left h.1) fun _ =>
      Quiet.bind (performAll_quiet O right h.2) fun _ => Quiet.pure _
  | .notEquals left right, h => by
    simp only [Sub.anonFree, Bool.and_eq_true] at h
    unfold perform
    exact Quiet.bind (performAll_quiet O left h.1) fun _ =>
      Quiet.bind (performAll_quiet O right h.2) fun _ => Quiet.pure _
  | .ifElse cond ifValue elseValue, h => by
    simp only [Sub.anonFree, Bool.and_eq_true] at h
    unfold perform
    refine Quiet.bind (Quiet.wrap (Quiet.typedBool (Quiet.joined (performAll_quiet O cond h.1.1))))
      fun b => ?_
    split
    · exact Quiet.joined (performAll_quiet O ifValue h.1.2)
    · exact Quiet.joined (performAll_quiet O elseValue h.2)
  | .pathJoin parts, h => by
    simp only [Sub.anonFree] at h
    unfold perform
    exact Quiet.bind (performAll_quiet O parts h) fun _ => Quiet.lift _
  | .localVar expression, _ => by unfold perform; exact fun c => rfl
  | .pyExpr expression modules, h => by
    simp only [Sub.anonFree, Bool.and_eq_true] at h
    unfold perform
    exact Quiet.bind (performAll_quiet O modules h.2) fun _ =>
      Quiet.bind (performAll_quiet O expression h.1) fun _ => Quiet.lift _
  | .command cmd onStderr, h => by
    simp only [Sub.anonFree, Bool.and_eq_true] at h
    unfold perform
    exact Quiet.bind (performAll_quiet O cmd h.1) fun _ => Quiet.bind (Quiet.lift _) fun _ =>
      Quiet.bind (performAll_quiet O onStderr h.2) fun _ => Quiet.lift _
  | .findExec name, h => by
    simp only [Sub.anonFree] at h
    unfold perform
    refine Quiet.bind (performAll_quiet O name h) fun l => ?_
    intro c
    dsimp only
    split <;> rfl
  | .fileContent path, h => by
    simp only [Sub.anonFree] at h
    unfold perform
    refine Quiet.bind (performAll_quiet O path h) fun l => ?_
    split
    · exact Quiet.raise _
    · exact Quiet.lift _
  | .thisLaunchFile, _ => by
    intro c; unfold perform readLocalStr; split <;> rfl
  | .thisLaunchFileDir, _ => by
    intro c; unfold perform readLocalStr; split <;> rfl
  | .launchLogDir, _ => by unfold perform; exact Quiet.pure _

theorem performAll_quiet (O : Oracle) : ∀ ss : List Sub, anonFreeAll ss = true → Quiet (performAll O ss)
  | [], _ => by unfold performAll; exact Quiet.pure _
  | s :: ss, h => by
    simp only [anonFreeAll, Bool.and_eq_true] at h
    unfold performAll
    exact Quiet.bind (perform_quiet O s h.1) fun _ =>
      Quiet.bind (performAll_quiet O ss h.2) fun _ => Quiet.pure _

theorem performOpt_quiet (O : Oracle) :
    ∀ o : Option (List Sub), anonFreeOpt o = true → Quiet (performOpt O o)
  | none, _ => by unfold performOpt; exact Quiet.pure _
  | some ss, h => by
    simp only [anonFreeOpt] at h
    unfold performOpt; exact Quiet.bind (performAll_quiet O ss h) fun _ => Quiet.pure _

theorem performBools_quiet (O : Oracle) :
    ∀ l : List (List Sub), anonFreeLists l = true → Quiet (performBools O l)
  | [], _ => by unfold performBools; exact Quiet.pure _
  | a :: as, h => by
    simp only [anonFreeLists, Bool.and_eq_true] at h
    unfold performBools
    exact Quiet.bind (Quiet.wrap (Quiet.typedBool (Quiet.joined (performAll_quiet O a h.1))))
      fun _ => Quiet.bind (performBools_quiet O as h.2) fun _ => Quiet.pure _
end

theorem coerce_bool_text (O : Oracle) (s : String) :
    (match coerceToType O s (some (.scalar .bool)) with
      | .ok (.bool b) => some b
      | _ => none) = textAsBool O s := by
  simp only [coerceToType, textAsBool, convertAsYaml]
  generalize (if s = "1" then "true" else if s = "0" then "false" else s) = s'
  by_cases h : s' = ""
  · simp [h, isInstOrStr, PyVal.isInst, PyVal.isStr]
  · simp only [h, if_false]
    cases O.yaml s' with
    | none => rfl
    | some v =>
      cases v with
      | bool b => simp [isInstanceOfValidType, PyVal.isScalar, isInstOrStr, PyVal.isInst]
      | list l =>
        by_cases hv : isInstanceOfValidType (.list l) false = true <;>
          simp [hv, isInstOrStr, PyVal.isInst, PyVal.isStr]
      | int i => simp [isInstanceOfValidType, PyVal.isScalar, isInstOrStr, PyVal.isInst]
      | float f => simp [isInstanceOfValidType, PyVal.isScalar, isInstOrStr, PyVal.isInst]
      | str f => simp [isInstanceOfValidType, PyVal.isScalar, isInstOrStr, PyVal.isInst]
      | other f => simp [isInstanceOfValidType, PyVal.isScalar, isInstOrStr, PyVal.isInst]

theorem coerce_bool_err (O : Oracle) (s : String) (e : Err)
    (h : coerceToType O s (some (.scalar .bool)) = .error e) : e = .valueError := by
  simp only [coerceToType, convertAsYaml] at h
  revert h
  generalize (if s = "1" then "true" else if s = "0" then "false" else s) = s'
  intro h
  repeat' split at h
  all_goals first | (simp_all; done) | skip
  all_goals (rename_i heq; repeat' split at heq) <;> simp_all

theorem operand_eq (O : Oracle) (subs : List Sub) (c : Ctx) :
    wrapTypeValue (typedBool O subs.isEmpty
      (M.bind (performAll O subs) fun l => M.pure (joinStrs l))) c = boolOperand O subs c := by
  cases subs with
  | nil => simp [boolOperand, wrapTypeValue, typedBool, M.raise]
  | cons s ss =>
    have hne : (s :: ss) ≠ [] := by simp
    generalize hl : s :: ss = l at hne ⊢
    have he : l.isEmpty = false := by rw [← hl]; rfl
    unfold boolOperand
    rw [if_neg hne]
    show wrapTypeValue (typedBool O l.isEmpty (performSubs O l)) c = _
    simp only [he, wrapTypeValue, typedBool, M.bind, if_neg (by decide : ¬ (false = true))]
    cases h : performSubs O l c with
    | mk c' r =>
      cases r with
      | error e => cases e <;> rfl
      | ok t =>
        simp only
        have h1 := coerce_bool_text O t
        cases hc : coerceToType O t (some (.scalar .bool)) with
        | error e =>
          have := coerce_bool_err O t e hc
          subst this
          rw [hc] at h1
          simp only at h1
          simp [← h1, M.raise]
        | ok v =>
          rw [hc] at h1
          cases v <;> simp only at h1 <;> simp [← h1, M.raise, M.pure]

theorem performBools_eq (O : Oracle) (as : List (List Sub)) (c : Ctx) :
    performBools O as c = boolOperands O as c := by
  induction as generalizing c with
  | nil => simp [performBools, boolOperands]
  | cons a as ih =>
    simp only [performBools, boolOperands, M.bind, operand_eq, ih]

theorem performSubs_single (O : Oracle) (s : Sub) (c : Ctx) :
    performSubs O [s] c = perform O s c ∧ performSubs O [] c = (c, .ok "") ∧
    (∀ t, performSubs O [.text t] c = (c, .ok t)) := by
  refine ⟨?_, ?_, ?_⟩
  · simp only [performSubs, performAll, M.bind, M.pure]
    cases h : perform O s c with
    | mk c1 r => cases r <;> simp [joinStrs]
  · simp [performSubs, performAll, M.bind, M.pure, joinStrs]
  · intro t; simp [performSubs, performAll, perform, M.bind, M.pure, joinStrs]

theorem perform_notS (O : Oracle) (v : List Sub) (c : Ctx) :
    perform O (.notS v) c = M.bind (boolOperand O v) (fun b => M.pure (boolText (!b))) c := by
  simp only [perform, M.bind, operand_eq]

theorem textAsBool_boolText {O : Oracle} (hy : YamlBools O) (b : Bool) :
    textAsBool O (boolText b) = some b := by
  cases b
  · simp [textAsBool, boolText, hy.f]
  · simp [textAsBool, boolText, hy.t]

/-- The computation never raises TypeError or ValueError. -/
def Clean {α : Type} (m : M α) : Prop :=
  ∀ c, (m c).2 ≠ .error .typeError ∧ (m c).2 ≠ .error .valueError

theorem boolOperand_clean (O : Oracle) (v : List Sub) : Clean (boolOperand O v) := by
  intro c
  unfold boolOperand
  constructor <;> (repeat' split) <;> simp_all

theorem Clean.bind {α β : Type} {m : M α} {f : α → M β} (hm : Clean m) (hf : ∀ a, Clean (f a)) :
    Clean (M.bind m f) := by
  intro c
  have h := hm c
  unfold M.bind
  split
  · rename_i heq; rw [heq] at h; simpa using h
  · exact hf _ _

theorem Clean.pure {α : Type} (a : α) : Clean (M.pure a) := fun _ => by simp [M.pure]

theorem boolOperands_clean (O : Oracle) (as : List (List Sub)) : Clean (boolOperands O as) := by
  induction as with
  | nil => exact Clean.pure _
  | cons a as ih => exact (boolOperand_clean O a).bind fun _ => ih.bind fun _ => Clean.pure _

/-- A substitution that performs to the text of a boolean is that boolean as an operand. -/
theorem operand_of_bool {O : Oracle} (hy : YamlBools O) {s : Sub} {m : M Bool} (hc : Clean m) (c : Ctx)
    (h : perform O s c = M.bind m (fun b => M.pure (boolText b)) c) :
    boolOperand O [s] c = m c := by
  unfold boolOperand
  rw [if_neg (by simp), (performSubs_single O s c).1, h]
  have hcl := hc c
  simp only [M.bind, M.pure]
  cases hm : m c with
  | mk c' r =>
    rw [hm] at hcl
    cases r with
    | ok b => simp [textAsBool_boolText hy]
    | error e => cases e <;> simp_all

theorem M.bind_assoc {α β γ : Type} (m : M α) (f : α → M β) (g : β → M γ) (c : Ctx) :
    M.bind (M.bind m f) g c = M.bind m (fun a => M.bind (f a) g) c := by
  unfold M.bind
  cases m c with
  | mk c' r => cases r <;> rfl

theorem M.bind_congr {α β : Type} {m m' : M α} {f f' : α → M β} {c : Ctx} (hm : m c = m' c)
    (hf : ∀ a c, f a c = f' a c) : M.bind m f c = M.bind m' f' c := by
  unfold M.bind
  rw [hm]
  cases m' c with
  | mk c' r => cases r <;> simp [hf]

theorem M.pure_bind {α β : Type} (a : α) (f : α → M β) (c : Ctx) :
    M.bind (M.pure a) f c = f a c := rfl

theorem operand_not {O : Oracle} (hy : YamlBools O) (v : List Sub) (c : Ctx) :
    boolOperand O [.notS v] c = M.bind (boolOperand O v) (fun b => M.pure (!b)) c :=
  operand_of_bool hy ((boolOperand_clean O v).bind fun _ => Clean.pure _) c <| by
    rw [perform_notS, M.bind_assoc]; rfl

theorem operands_not {O : Oracle} (hy : YamlBools O) (as : List (List Sub)) (c : Ctx) :
    boolOperands O (as.map fun a => [.notS a]) c =
      M.bind (boolOperands O as) (fun bs => M.pure (bs.map not)) c := by
  induction as generalizing c with
  | nil => rfl
  | cons a as ih =>
    simp only [List.map_cons, boolOperands]
    rw [M.bind_assoc, M.bind_congr (operand_not hy a c) (fun _ _ => rfl), M.bind_assoc]
    refine M.bind_congr rfl fun b c' => ?_
    rw [M.pure_bind, M.bind_congr (ih c') (fun _ _ => rfl), M.bind_assoc, M.bind_assoc]
    rfl

end Verif
