import Verif.Model.ConfigDefault
import Verif.Props.Subst

/-! # C14: defaults given in Python -/

namespace Verif

theorem performSubs_chars (O : Oracle) (l : List Char) (c : Ctx) : performSubs O (l.map fun x => .text (String.ofList [x])) c = (c, .ok (String.ofList l)) := by
  induction l with
  | nil => exact (C13_single O (.text "") c).2.1
  | cons x l ih =>
    rw [List.map_cons, ← List.singleton_append, C13_concat, (C13_single O (.text "") c).2.2]
    dsimp only
    rw [ih]
    dsimp only
    rw [← String.ofList_append]
    rfl

/-- C14.  A LaunchConfiguration whose name is unset gives the default: a text as it is, another object as its `str`, a substitution performed; without
default it fails. -/
theorem C14_default_values (O : Oracle) (name : List Sub) (c c1 : Ctx) (n : String) (hname : performSubs O name c = (c1, .ok n)) (hu : c1.lc.get? n = none) :
    (∀ s, perform O (.launchConfig name (DefaultArg.text s).normalize) c = (c1, .ok s)) ∧
    (∀ s, perform O (.launchConfig name (DefaultArg.other s).normalize) c = (c1, .ok s)) ∧
    (∀ s, perform O (.launchConfig name (DefaultArg.sub s).normalize) c = perform O s c1) ∧
    perform O (.launchConfig name DefaultArg.none.normalize) c = (c1, .error .substitutionFailure) := by
  refine ⟨fun s => ?_, fun s => ?_, fun s => ?_, ?_⟩ <;> rw [C14_launch_configuration O name _ c c1 n hname, hu]
  · show performSubs O ((s.toList.map fun c => DefaultItem.text (String.ofList [c])).map DefaultItem.toSub) c1 = _
    rw [List.map_map]
    have := performSubs_chars O s.toList c1
    rw [String.ofList_toList] at this
    exact this
  · exact (C13_single O (.text s) c1).2.2 s
  · exact (C13_single O s c1).1
  · rfl

/-- C14.  A default given by several items gives the concatenation of what the items give, from left to right. -/
theorem C14_default_items (O : Oracle) (name : List Sub) (c c1 : Ctx) (n : String) (hname : performSubs O name c = (c1, .ok n)) (hu : c1.lc.get? n = none)
    (items : List DefaultItem) :
    perform O (.launchConfig name (DefaultArg.iterable items).normalize) c = performSubs O (items.map fun
      | .text s => .text s
      | .sub s => s
      | .other t => .text t) c1 := by
  rw [C14_launch_configuration O name _ c c1 n hname, hu]
  show performSubs O (items.map DefaultItem.toSub) c1 = _
  congr 2

/-- C14.  A default does not matter if the name is set. -/
theorem C14_default_unused (O : Oracle) (name : List Sub) (c c1 : Ctx) (n v : String) (hname : performSubs O name c = (c1, .ok n)) (hs : c1.lc.get? n = some v)
    (d : DefaultArg) : perform O (.launchConfig name d.normalize) c = (c1, .ok v) := by
  rw [C14_launch_configuration O name _ c c1 n hname, hs]

example : performSubs sampleOracle [.text "a"] {} = ({}, .ok "a") ∧ ({} : Ctx).lc.get? "a" = none := ⟨rfl, rfl⟩

/-- A text is stored character by character. -/
example : (DefaultArg.text "ab").normalize = some [.text "a", .text "b"] := rfl

end Verif
