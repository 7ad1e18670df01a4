import Verif.Model.LaunchArgs

/-!
# Specification vocabulary for launch arguments
-/

namespace Verif

/-- A declaration met in a launch description.  `direct`: it has a condition itself or is listed directly below
something conditional; `under`: it has a condition itself or there is something conditional anywhere
above it. -/
structure Decl where
  id : ActId
  name : String
  hasDefault : Bool
  direct : Bool
  under : Bool
  deriving DecidableEq, Repr

/-- What lies below an entity whatever its condition: the entities of a description, the contents of a group with
its helper actions, the description an include refers to (when it can be loaded), the actions a process is
followed by (`on_exit`). -/
def Entity.parts (res : Nat → Option (List Entity)) : Entity → List Entity
  | .desc es => es
  | .act id _ (.group s f cfg as) => Entity.groupSubEntities id s f cfg as
  | .act _ _ (.includeLD src _) => match res src with
    | some es => [.desc es]
    | none => []
  | .act _ _ (.custom _ s _) => s
  | .act _ _ _ => []

/-- What an entity says it may bring in later: the entities of a handler, the actions of a timer. -/
def Entity.later : Entity → List Entity
  | .act _ _ (.registerHandler _ (some d)) => d
  | .act _ _ (.custom _ _ d) => d
  | _ => []

/-- Whether the entity has a condition. -/
def Entity.hasCondition : Entity → Bool
  | .desc _ => false
  | .act _ c _ => c.isSome

/-- Whether what lies below the entity depends on something: the entity has a condition, or what is below is done
later only (when a process exits). -/
def Entity.isConditional : Entity → Bool
  | .act _ _ (.custom _ _ _) => true
  | e => e.hasCondition

/-- `Flat res direct under es ds`: `ds` are all declarations below `es` in depth-first order, where a list is
read up to the first ResetLaunchConfigurations in it. -/
inductive Flat (res : Nat → Option (List Entity)) : Bool → Bool → List Entity → List Decl → Prop
  | nil {d u} : Flat res d u [] []
  | reset {d u id c k rest} : Flat res d u (.act id c (.resetLC k) :: rest) []
  | decl {d u id c name dflt ch rest ds} (h : Flat res d u rest ds) :
      Flat res d u (.act id c (.declareArg name dflt ch) :: rest)
        (⟨id, name, dflt.isSome, d || c.isSome, u || c.isSome⟩ :: ds)
  | other {d u e rest below later ds}
      (hr : ∀ id c k, e ≠ .act id c (.resetLC k)) (hd : ∀ id c n df ch, e ≠ .act id c (.declareArg n df ch))
      (hb : Flat res e.hasCondition (u || e.isConditional) (e.parts res) below)
      (hl : Flat res true true e.later later)
      (h : Flat res d u rest ds) : Flat res d u (e :: rest) (below ++ (later ++ ds))

/-- A handler that cannot be described is met in `es`, reading each list up to the first
ResetLaunchConfigurations in it. -/
inductive MeetsUndescribable (res : Nat → Option (List Entity)) : List Entity → Prop
  | here {id c h rest} : MeetsUndescribable res (.act id c (.registerHandler h none) :: rest)
  | inside {e rest} (hb : MeetsUndescribable res (e.parts res)) : MeetsUndescribable res (e :: rest)
  | later {e rest} (hl : MeetsUndescribable res e.later) : MeetsUndescribable res (e :: rest)
  | rest {e rest} (hr : ∀ id c k, e ≠ .act id c (.resetLC k)) (h : MeetsUndescribable res rest) :
      MeetsUndescribable res (e :: rest)

/-- Keep the first declaration of each name. -/
def firstOfEach : List Decl → List Decl
  | [] => []
  | d :: ds => d :: (firstOfEach ds).filter (fun x => x.name != d.name)

end Verif
