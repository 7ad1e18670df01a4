import Verif.Model.Handlers

/-!
# What handlers and matchers are to do
-/

namespace Verif

/-- The event says that a process of the action exited. -/
def ActEvent.ExitOf (a : ActObj) (e : ActEvent) : Prop := ∃ b code, e = .exited b code ∧ b.id = a.id

/-- The event says that a process of the action was started. -/
def ActEvent.StartOf (a : ActObj) (e : ActEvent) : Prop := ∃ b, e = .started b ∧ b.id = a.id

/-- The event says that the action completed. -/
def ActEvent.CompletionOf (a : ActObj) (e : ActEvent) : Prop := ∃ b, e = .complete b ∧ b.id = a.id

/-- The event is output of, or input to, a process of the action. -/
def ActEvent.IoOf (a : ActObj) (e : ActEvent) : Prop := ∃ b fd text, e = .io b fd text ∧ b.id = a.id

/-- The last process id of a history, if a process was started. -/
def lastPid (l : List DetailsStep) : Option Nat :=
  (l.filterMap fun | .connect p => some p | _ => none).getLast?

/-- The history of an action that is executed once: it is prepared, and then processes are started for it. -/
def ExecutedOnce (l : List DetailsStep) (name : String) (cmd : List String) : Prop :=
  ∃ r, l = .prepare name cmd :: .begin :: r ∧ ∀ n c, .prepare n c ∉ r

/-- How often the action was executed in a history. -/
def CoAct.executions (l : List CoLabel) : Nat := l.countP (· == .execute)

end Verif
