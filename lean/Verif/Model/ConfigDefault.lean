import Verif.Model.Subst

/-!
# The default of a LaunchConfiguration

launch/launch/substitutions/launch_configuration.py:44-65.
-/

namespace Verif

/-- An item of an iterable default: a text, a substitution, or another object, given by its `str`. -/
inductive DefaultItem where
  | text (s : String)
  | sub (s : Sub)
  | other (str : String)

/-- The argument `default` of the constructor: an object that is not iterable is a substitution or is given by its `str`. -/
inductive DefaultArg where
  | none
  | text (s : String)
  | sub (s : Sub)
  | other (str : String)
  | iterable (items : List DefaultItem)

/-- `definitely_iterable_default`, launch_configuration.py:52-57.  A `str` is an iterable of its characters. -/
def DefaultArg.items : DefaultArg → List DefaultItem
  | .none => []
  | .text s => s.toList.map fun c => .text (String.ofList [c])
  | .sub s => [.sub s]
  | .other t => [.other t]
  | .iterable l => l

/-- One item, launch_configuration.py:58-62, and `normalize_to_list_of_substitutions` for it, line 64. -/
def DefaultItem.toSub : DefaultItem → Sub
  | .text s => .text s
  | .sub s => s
  | .other t => .text t

/-- The default as the constructor stores it, launch_configuration.py:46-65. -/
def DefaultArg.normalize : DefaultArg → Option (List Sub)
  | .none => Option.none
  | d => some (d.items.map DefaultItem.toSub)

end Verif
