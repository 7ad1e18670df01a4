import Verif.Model.Entity

/-!
# Discovering launch arguments

`LaunchDescription.get_launch_arguments*`, launch/launch/launch_description.py:81-163.
-/

namespace Verif

/-- One entry of the result: a DeclareLaunchArgument action (identity, name, whether it has a default),
the flag `_conditionally_included` stored into it, and the list object of include actions
associated with it (an index into the heap of list objects; `none` is Python's None). -/
structure ArgEntry where
  id : ActId
  name : String
  hasDefault : Bool
  conditional : Bool
  nested : Option Nat
  deriving DecidableEq, Repr

/-- State of the search: entries found so far, and the heap of (mutable, shared) lists of include actions, each
include action given by its launch arguments.  launch_description.py:127-128, 148-151.  `raised`: describing some
handler has raised TypeError, so that the result is that exception and nothing else; the search goes on in the
model, which is a simplification that nobody can see. -/
structure ArgState where
  entries : List ArgEntry := []
  raised : Bool := false
  heap : List (List (List (List Sub × List Sub))) := []

/-- `next_nested_ild_actions` for an IncludeLaunchDescription: a new list when there was none, else the
*same* list object extended in place, launch_description.py:147-151. -/
def ArgState.enterInclude (s : ArgState) (nested : Option Nat) (args : List (List Sub × List Sub)) :
    ArgState × Option Nat :=
  match nested with
  | none => ({ s with heap := s.heap ++ [[args]] }, some s.heap.length)
  | some i => ({ s with heap := s.heap.modify i (fun l => l ++ [args]) }, some i)

/-- `describe_sub_entities` (launch_description.py:77-79, action.py:92-94), where `res` resolves the source of an
include without a context (include_launch_description.py:126-129). -/
def Entity.describeSub (res : Nat → Option (List Entity)) : Entity → List Entity
  | .desc es => es
  | .act id none (.group s f cfg as) => Entity.groupSubEntities id s f cfg as
  | .act _ none (.includeLD src _) =>
    match res src with
    | some es => [.desc es]
    | none => []
  | .act _ none (.custom _ subs _) => subs
  | .act _ _ _ => []

/-- `describe_conditional_sub_entities` (action.py:96-103, register_event_handler.py:46-55, timer_action.py), as
the list of its lists of entities. -/
def Entity.describeConditional (res : Nat → Option (List Entity)) : Entity → List (List Entity)
  | .desc _ => []
  | .act id (some _) (.group s f cfg as) => [Entity.groupSubEntities id s f cfg as]
  | .act _ (some _) (.includeLD src _) =>
    match res src with
    | some es => [[.desc es]]
    | none => [[]]
  | .act _ _ (.registerHandler _ (some described)) => [described]
  | .act _ none (.custom _ _ described) => [described]
  | .act _ (some _) (.custom _ subs described) => [subs, described]
  | .act _ _ _ => []

/-- The part of the loop body that handles one DeclareLaunchArgument, launch_description.py:132-141. -/
def ArgState.addDecl (s : ArgState) (id : ActId) (name : String) (hasDefault : Bool)
    (conditional : Bool) (nested : Option Nat) : ArgState :=
  if s.entries.any (fun e => e.name == name) then s
  else { s with entries := s.entries ++ [⟨id, name, hasDefault, conditional, nested⟩] }

/-- Run a search over a list of lists of entities, threading the state. -/
def searchAll (search : List Entity → ArgState → Option ArgState) :
    List (List Entity) → ArgState → Option ArgState
  | [], s => some s
  | l :: ls, s =>
    match search l s with
    | none => none
    | some s' => searchAll search ls s'

/-- `process_entities`, launch_description.py:130-160.  `none`: out of fuel (in Python: recursion
without end). -/
def processEntities (res : Nat → Option (List Entity)) :
    Nat → List Entity → Bool → Option Nat → ArgState → Option ArgState
  | 0, _, _, _, _ => none
  | _ + 1, [], _, _, s => some s
  | n + 1, e :: rest, cond, nested, s =>
    match e with
    -- 143-145: arguments after this cannot be set from the top level
    | .act _ _ (.resetLC _) => some s
    | .act id c (.declareArg name default _) =>
      -- 132-141 (a DeclareLaunchArgument has no sub-entities)
      processEntities res n rest cond nested
        (s.addDecl id name default.isSome (cond || c.isSome) nested)
    | e =>
      let (s1, next) := match e with
        | .act _ _ (.includeLD _ args) => s.enterInclude nested args
        -- 156 and register_event_handler.py:51: TypeError
        | .act _ _ (.registerHandler _ none) => ({ s with raised := true }, nested)
        | _ => (s, nested)
      -- 152-155
      match processEntities res n (e.describeSub res) false next s1 with
      | none => none
      | some s2 =>
        -- 156-160
        match searchAll (fun l => processEntities res n l true next) (e.describeConditional res) s2 with
        | none => none
        | some s3 => processEntities res n rest cond nested s3

/-- `get_launch_arguments_with_include_launch_description_actions`,
launch_description.py:93-163.  `none`: it does not return. -/
def getLaunchArguments (res : Nat → Option (List Entity)) (fuel : Nat) (es : List Entity)
    (conditional : Bool) : Option (Res ArgState) :=
  (processEntities res fuel es conditional none {}).map fun st =>
    if st.raised then .error .typeError else .ok st

end Verif
