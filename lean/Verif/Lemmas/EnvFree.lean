import Verif.Lemmas.SubstOps
import Verif.Spec.EnvFree
import Verif.Spec.Scope

/-! # Performing substitutions that do not depend on the environment -/

namespace Verif

/-- The two contexts have the same configurations, locals and state of the random source. -/
def Alike (c d : Ctx) : Prop := c.lc = d.lc ∧ c.locals = d.locals ∧ c.rng = d.rng

def Blind {α : Type} (m : M α) : Prop := ∀ c d, Alike c d → Alike (m c).1 (m d).1 ∧ (m c).2 = (m d).2

theorem Blind.bind {α β : Type} {m : M α} {f : α → M β} (hm : Blind m) (hf : ∀ a, Blind (f a)) : Blind (M.bind m f) := by
  intro c d hcd
  obtain ⟨h1, h2⟩ := hm c d hcd
  unfold M.bind
  cases hc : m c with
  | mk c1 r =>
    cases hd : m d with
    | mk d1 s =>
      rw [hc, hd] at h1 h2
      simp only at h1 h2
      subst h2
      cases r with
      | error e => exact ⟨h1, rfl⟩
      | ok a => exact hf a c1 d1 h1

theorem Blind.pure {α : Type} (a : α) : Blind (M.pure a) := fun _ _ h => ⟨h, rfl⟩
theorem Blind.raise {α : Type} (e : Err) : Blind (M.raise e : M α) := fun _ _ h => ⟨h, rfl⟩
theorem Blind.lift {α : Type} (r : Res α) : Blind (M.lift r) := fun _ _ h => ⟨h, rfl⟩

theorem Blind.wrap {α : Type} {m : M α} (hm : Blind m) : Blind (wrapTypeValue m) := by
  intro c d hcd
  obtain ⟨h1, h2⟩ := hm c d hcd
  unfold wrapTypeValue
  cases hc : m c with
  | mk c1 r =>
    cases hd : m d with
    | mk d1 s =>
      rw [hc, hd] at h1 h2
      simp only at h1 h2
      subst h2
      rcases r with (_ | _ | _ | _ | _ | _ | _ | _ | _ | _ | _ | _ | _ | _) | _ <;> exact ⟨h1, rfl⟩

theorem Blind.typedBool {O : Oracle} {b : Bool} {m : M String} (hm : Blind m) : Blind (typedBool O b m) := by
  unfold Verif.typedBool
  split
  · exact Blind.raise _
  · refine Blind.bind hm fun s => ?_
    split <;> first | exact Blind.raise _ | exact Blind.pure _

theorem Blind.joined {m : M (List String)} (hm : Blind m) : Blind (M.bind m fun l => M.pure (joinStrs l)) :=
  Blind.bind hm fun _ => Blind.pure _

theorem Blind.local (name : String) : Blind (readLocalStr name) := by
  intro c d hcd
  unfold readLocalStr
  rw [← hcd.2.1]
  split <;> exact ⟨hcd, rfl⟩

mutual
theorem perform_blind (O : Oracle) : ∀ s : Sub, s.envFree = true → Blind (perform O s)
  | .text s, _ => by unfold perform; exact Blind.pure s
  | .launchConfig name default, h => by
    simp only [Sub.envFree, Bool.and_eq_true] at h
    unfold perform
    refine Blind.bind (performAll_blind O name h.1) fun ns => ?_
    intro c d hcd
    dsimp only
    rw [← hcd.1]
    split
    · exact ⟨hcd, rfl⟩
    · refine Blind.bind (performOpt_blind O default h.2) (fun d => ?_) c d hcd
      split
      · exact Blind.pure _
      · exact Blind.raise _
  | .envVar name default, h => by simp [Sub.envFree] at h
  | .anonName name, h => by
    simp only [Sub.envFree] at h
    unfold perform
    refine Blind.bind (performAll_blind O name h) fun ns => ?_
    intro c d hcd
    obtain ⟨h1, h2, h3⟩ := hcd
    dsimp only
    rw [← h1, ← h3]
    split
    · exact ⟨⟨h1, h2, h3⟩, rfl⟩
    · exact ⟨⟨rfl, h2, rfl⟩, rfl⟩
  | .notS value, h => by
    simp only [Sub.envFree] at h
    unfold perform
    exact Blind.bind (Blind.wrap (Blind.typedBool (Blind.joined (performAll_blind O value h))))
      fun _ => Blind.pure _
  | .andS left right, h => by
    simp only [Sub.envFree, Bool.and_eq_true] at h
    unfold perform
    exact Blind.bind (Blind.wrap (Blind.typedBool (Blind.joined (performAll_blind O left h.1))))
      fun _ => Blind.bind (Blind.wrap (Blind.typedBool (Blind.joined (performAll_blind O right h.2))))
      fun _ => Blind.pure _
  | .orS left right, h => by
    simp only [Sub.envFree, Bool.and_eq_true] at h
    unfold perform
    exact Blind.bind (Blind.wrap (Blind.typedBool (Blind.joined (performAll_blind O left h.1))))
      fun _ => Blind.bind (Blind.wrap (Blind.typedBool (Blind.joined (performAll_blind O right h.2))))
      fun _ => Blind.pure _
  | .anyS args, h => by
    simp only [Sub.envFree] at h
    unfold perform
    exact Blind.bind (performBools_blind O args h) fun _ => Blind.pure _
  | .allS args, h => by
    simp only [Sub.envFree] at h
    unfold perform
    exact Blind.bind (performBools_blind O args h) fun _ => Blind.pure _
  | .equals left right, h => by
    simp only [Sub.envFree, Bool.and_eq_true] at h
    unfold perform
    exact Blind.bind (performAll_blind O left h.1) fun _ =>
      Blind.bind (performAll_blind O right h.2) fun _ => Blind.pure _
  | .notEquals left right, h => by
    simp only [Sub.envFree, Bool.and_eq_true] at h
    unfold perform
    exact Blind.bind (performAll_blind O left h.1) fun _ =>
      Blind.bind (performAll_blind O right h.2) fun _ => Blind.pure _
  | .ifElse cond ifValue elseValue, h => by
    simp only [Sub.envFree, Bool.and_eq_true] at h
    unfold perform
    refine Blind.bind (Blind.wrap (Blind.typedBool (Blind.joined (performAll_blind O cond h.1.1))))
      fun b => ?_
    split
    · exact Blind.joined (performAll_blind O ifValue h.1.2)
    · exact Blind.joined (performAll_blind O elseValue h.2)
  | .pathJoin parts, h => by
    simp only [Sub.envFree] at h
    unfold perform
    exact Blind.bind (performAll_blind O parts h) fun _ => Blind.lift _
  | .localVar expression, _ => by
    intro c d hcd
    unfold perform
    exact ⟨hcd, by rw [hcd.2.1]⟩
  | .pyExpr expression modules, h => by simp [Sub.envFree] at h
  | .command cmd onStderr, h => by simp [Sub.envFree] at h
  | .findExec name, h => by simp [Sub.envFree] at h
  | .fileContent path, h => by
    simp only [Sub.envFree] at h
    unfold perform
    refine Blind.bind (performAll_blind O path h) fun l => ?_
    split
    · exact Blind.raise _
    · exact Blind.lift _
  | .thisLaunchFile, _ => by unfold perform; exact Blind.local _
  | .thisLaunchFileDir, _ => by unfold perform; exact Blind.local _
  | .launchLogDir, _ => by unfold perform; exact Blind.pure _

theorem performAll_blind (O : Oracle) : ∀ ss : List Sub, envFreeAll ss = true → Blind (performAll O ss)
  | [], _ => by unfold performAll; exact Blind.pure _
  | s :: ss, h => by
    simp only [envFreeAll, Bool.and_eq_true] at h
    unfold performAll
    exact Blind.bind (perform_blind O s h.1) fun _ =>
      Blind.bind (performAll_blind O ss h.2) fun _ => Blind.pure _

theorem performOpt_blind (O : Oracle) :
    ∀ o : Option (List Sub), envFreeOpt o = true → Blind (performOpt O o)
  | none, _ => by unfold performOpt; exact Blind.pure _
  | some ss, h => by
    simp only [envFreeOpt] at h
    unfold performOpt; exact Blind.bind (performAll_blind O ss h) fun _ => Blind.pure _

theorem performBools_blind (O : Oracle) :
    ∀ l : List (List Sub), envFreeLists l = true → Blind (performBools O l)
  | [], _ => by unfold performBools; exact Blind.pure _
  | a :: as, h => by
    simp only [envFreeLists, Bool.and_eq_true] at h
    unfold performBools
    exact Blind.bind (Blind.wrap (Blind.typedBool (Blind.joined (performAll_blind O a h.1))))
      fun _ => Blind.bind (performBools_blind O as h.2) fun _ => Blind.pure _
end

theorem performPairs_blind (O : Oracle) : ∀ cfg : List (List Sub × List Sub), (∀ p ∈ cfg, envFreeAll p.1 = true ∧ envFreeAll p.2 = true) → Blind (performPairs O cfg)
  | [], _ => Blind.pure _
  | (k, v) :: rest, h => by
    obtain ⟨hk, hv⟩ := h _ List.mem_cons_self
    unfold performPairs
    exact Blind.bind (Blind.joined (performAll_blind O k hk)) fun _ => Blind.bind (Blind.joined (performAll_blind O v hv)) fun _ =>
      Blind.bind (performPairs_blind O rest fun p hp => h p (List.mem_cons_of_mem _ hp)) fun _ => Blind.pure _

end Verif
