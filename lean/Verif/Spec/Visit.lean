import Verif.Model.Visit

/-!
# Specification vocabulary for visiting entities
-/

namespace Verif

/-- The tree of entities visited: for each the identity if it was executed (none for descriptions and for actions
whose condition does not hold), the asynchronous result collected from it, and the visits of its
sub-entities. -/
inductive VTree where
  | node (executed : Option ActId) (futures : List Fut) (kids : List VTree)

mutual
/-- Executed actions, each parent before its children, children in list order. -/
def VTree.preorder : VTree → List ActId
  | .node a _ ks => a.toList ++ preorderAll ks
def preorderAll : List VTree → List ActId
  | [] => []
  | t :: ts => t.preorder ++ preorderAll ts
end

mutual
/-- Collected asynchronous results in the same order. -/
def VTree.results : VTree → List Fut
  | .node _ fs ks => fs ++ resultsAll ks
def resultsAll : List VTree → List Fut
  | [] => []
  | t :: ts => t.results ++ resultsAll ts
end

/-- The identity of the action, if it is executed in this context. -/
def executedId (P : Prog) (O : Oracle) (e : Entity) (c : Ctx) : Option ActId :=
  match e with
  | .desc _ => none
  | .act id cond _ =>
    match (condEval O P.preds cond c).2 with
    | .ok true => some id
    | _ => none

mutual
/-- Depth-first visiting, as a relation: visiting `e` from `c` ends in `c'` with result `r`, and `t` is the tree
of what was visited.  First the entity itself, then, unless it raised, all of its sub-entities. -/
inductive Visits (P : Prog) (O : Oracle) : Entity → Ctx → Ctx → Res (List Fut) → VTree → Prop
  | raises {e c c1 err} (n : Nat) (h : enter P O n e c = some (c1, .error err)) :
      Visits P O e c c1 (.error err) (.node (executedId P O e c) [] [])
  | descends {e c c1 subs c2 r ts} (n : Nat) (h : enter P O n e c = some (c1, .ok subs))
      (hs : VisitsAll P O subs c1 c2 r ts) :
      Visits P O e c c2 (r.map (ownFuture e c1 ++ ·)) (.node (executedId P O e c) (ownFuture e c1) ts)
/-- One entity after the other, each completely, until one raises. -/
inductive VisitsAll (P : Prog) (O : Oracle) : List Entity → Ctx → Ctx → Res (List Fut) → List VTree → Prop
  | nil {c} : VisitsAll P O [] c c (.ok []) []
  | stop {e es c c1 err t} (h : Visits P O e c c1 (.error err) t) :
      VisitsAll P O (e :: es) c c1 (.error err) [t]
  | next {e es c c1 fs c2 r t ts} (h : Visits P O e c c1 (.ok fs) t) (hs : VisitsAll P O es c1 c2 r ts) :
      VisitsAll P O (e :: es) c c2 (r.map (fs ++ ·)) (t :: ts)
end

mutual
/-- Made of unconditional actions, groups and descriptions only, so that what is executed is fixed by the
text. -/
def Entity.static : Entity → Bool
  | .desc es => staticAll es
  | .act _ cond kind => cond.isNone && kind.static
def ActKind.static : ActKind → Bool
  | .group _ _ _ as => staticAll as
  | .includeLD _ _ | .custom _ _ _ => false
  | _ => true
def staticAll : List Entity → Bool
  | [] => true
  | e :: es => e.static && staticAll es
end

mutual
/-- The actions of a static tree in textual depth-first order.  A group contributes itself, the helper actions
that open its scope and set its configurations, its contents, and the helper actions that close its scope. -/
def Entity.order : Entity → List ActId
  | .desc es => orderAll es
  | .act id _ kind => id :: kind.order id
def ActKind.order (id : ActId) : ActKind → List ActId
  | .group s f cfg as =>
    (if s then
      [.derived id 0, .derived id 1] ++
        (if f then (List.range cfg.length).map (fun i => .derived id (4 + i))
         else [.derived id 4, .derived id 5])
     else (List.range cfg.length).map (fun i => .derived id (4 + i)))
    ++ orderAll as ++
    (if s then [.derived id 2, .derived id 3] else [])
  | _ => []
def orderAll : List Entity → List ActId
  | [] => []
  | e :: es => e.order ++ orderAll es
end

/-- A text that reads as `w` once surrounding whitespace is removed and letters are lowered. -/
def ReadsAs (s : String) (w : String) : Prop :=
  ∃ a core b : List Char, s.toList = a ++ core ++ b ∧ (∀ x ∈ a, isSpace x = true) ∧
    (∀ x ∈ b, isSpace x = true) ∧ core.map lowerChar = w.toList

end Verif
