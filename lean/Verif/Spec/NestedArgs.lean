import Verif.Spec.Args

/-!
# Specification vocabulary for includes inside an included launch description
-/

namespace Verif

/-- The launch arguments of an include: names and values. -/
abbrev IncludeArgs := List (List Sub × List Sub)

/-- `Under res es path id name`: the declaration `id` of the argument `name` lies somewhere below `es`, inside exactly the includes that
pass the arguments `path`, the outermost include first. -/
inductive Under (res : Nat → Option (List Entity)) : List Entity → List IncludeArgs → ActId → String → Prop
  | here {id c name d ch es} (he : .act id c (.declareArg name d ch) ∈ es) : Under res es [] id name
  | inside {e es p id name} (he : e ∈ es) (hi : ∀ i c src args, e ≠ .act i c (.includeLD src args))
      (h : Under res (e.parts res) p id name) : Under res es p id name
  | later {e es p id name} (he : e ∈ es) (h : Under res e.later p id name) : Under res es p id name
  | included {i c src args es p id name} (he : .act i c (.includeLD src args) ∈ es)
      (h : Under res ((Entity.act i c (.includeLD src args)).parts res) p id name) : Under res es (args :: p) id name

/-- `IncludesBelow res es args`: somewhere below `es` there is an include that passes `args`. -/
inductive IncludesBelow (res : Nat → Option (List Entity)) : List Entity → IncludeArgs → Prop
  | here {i c src args es} (he : .act i c (.includeLD src args) ∈ es) : IncludesBelow res es args
  | inside {e es args} (he : e ∈ es) (h : IncludesBelow res (e.parts res) args) : IncludesBelow res es args
  | later {e es args} (he : e ∈ es) (h : IncludesBelow res e.later args) : IncludesBelow res es args

end Verif
