import Verif.Model.Introspect

/-!
# The outline of a launch description
-/

namespace Verif

mutual

/-- What there is to tell about an entity: the texts, each with its depth, in the order of the description. -/
def IEnt.outline : IEnt → List (Nat × List Char)
  | .logInfo msg => [(0, "LogInfo(".toList ++ " + ".toList.intercalate msg ++ [')'])]
  | .emitEvent n => [(0, "EmitEvent(event='".toList ++ n ++ "')".toList)]
  | .execute cmd cwd env shell => [(0, formatExecute cmd cwd env shell)]
  | .register r h => (0, "RegisterEventHandler('".toList ++ r ++ "'):".toList) :: h.outline.map fun p => (p.1 + 1, p.2)
  | .action r => [(0, "Action('".toList ++ r ++ "')".toList)]
  | .entity r => [(0, "Unknown entity('".toList ++ r ++ "')".toList)]

/-- Of a list of entities. -/
def IEnt.outlines : List IEnt → List (Nat × List Char)
  | [] => []
  | e :: es => e.outline ++ IEnt.outlines es

/-- Of a handler: its text, and below it the entities it describes. -/
def IHandler.outline : IHandler → List (Nat × List Char)
  | .plain a => [(0, "EventHandler('".toList ++ a ++ "')".toList)]
  | .many t es => (0, t) :: (IEnt.outlines es).map fun p => (p.1 + 1, p.2)
  | .one t e => (0, t) :: e.outline.map fun p => (p.1 + 1, p.2)
  | .fails _ => []

end

mutual

/-- Every handler can describe itself, with a text that is not empty and does not begin with white space. -/
def IEnt.Describable : IEnt → Prop
  | .register _ h => h.Describable
  | _ => True

/-- Of a list of entities. -/
def IEnt.AllDescribable : List IEnt → Prop
  | [] => True
  | e :: es => e.Describable ∧ IEnt.AllDescribable es

/-- Of a handler. -/
def IHandler.Describable : IHandler → Prop
  | .plain _ => True
  | .many t es => t.head?.any (fun c => !isSpace c) = true ∧ IEnt.AllDescribable es
  | .one t e => t.head?.any (fun c => !isSpace c) = true ∧ e.Describable
  | .fails _ => False

end

/-- The branch drawn in front of a text: `└── ` if the text below it is less deep or there is none, else `├── `. -/
def branch (depth : Nat) (next : Option Nat) : List Char :=
  match next with
  | some d => if depth ≤ d then "├── ".toList else "└── ".toList
  | none => "└── ".toList

/-- The lines show an outline: each line is an indentation to the depth, the branch, and the text. -/
inductive Shows : List (List Char) → List (Nat × List Char) → Prop where
  | nil : Shows [] []
  | cons {pad text : List Char} {d : Nat} {ls : List (List Char)} {o : List (Nat × List Char)} :
      pad.length = 4 * d → (∀ c ∈ pad, c = ' ' ∨ c = '│') → Shows ls o →
      Shows ((pad ++ branch d (o.head?.map (·.1)) ++ text) :: ls) ((d, text) :: o)

end Verif
