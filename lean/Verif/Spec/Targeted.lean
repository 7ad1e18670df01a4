import Verif.Model.Targeted

/-! # What is said about events targeted at processes -/

namespace Verif

/-- In this history of an action (latest step last), process `p` was started, its start was noticed, and nothing was noticed of its end. -/
def RunsProcess (l : List TgtStep) (p : Nat) : Prop := ∃ pre, l = pre ++ [.connect p, .attach false]

/-- In this history of an action, some process was started and its start was noticed. -/
def HasStarted (l : List TgtStep) : Prop := ∃ b, .attach b ∈ l

/-- The actions of a launch that were executed, the latest first: identity, name, command, what happened to them. -/
structure Executed where
  id : Nat
  name : String
  cmd : List String
  history : List TgtStep
  deriving DecidableEq, Repr

/-- The state of this action. -/
def Executed.state (x : Executed) : Option Tgt := (Tgt.executed x.name x.cmd).steps x.history

/-- The launch has executed these actions, and they are in these states. -/
def States : List Executed → List (Nat × Tgt) → Prop
  | [], [] => True
  | x :: xs, (i, t) :: ts => x.id = i ∧ x.state = some t ∧ States xs ts
  | _, _ => False

end Verif
