import Verif.Model.Interrupts

/-! # What is said about KeyboardInterrupt in a run -/

namespace Verif

/-- The same history, had nobody pressed Ctrl-C: no KeyboardInterrupt is raised in any task, in the coroutine or in the event loop. -/
def withoutInterrupts (h : List MainLabel) : List MainLabel :=
  h.filterMap fun l =>
    match l with
    | .interrupted => none
    | .inner (.raise .interrupt) => none
    | .inner (.completed ts) => some (.inner (.completed (ts.filter (· ≠ .interrupt))))
    | l => some l

/-- No KeyboardInterrupt is raised at the same time as another task fails, or while a failure is dealt with. -/
def Undisturbed (h : List MainLabel) : Prop :=
  ∀ l ∈ h, match l with
    | .inner (.completed ts) => .interrupt ∈ ts → ∀ m, .failed m ∉ ts
    | .inner (.completedThenInterrupt _) => False
    | _ => True

/-- A task has failed or was cancelled, the run was cancelled, an exception was raised in the loop or came to the exception handler of the event loop. -/
def AsyncLabel.IsFailure : AsyncLabel → Prop
  | .completed ts => .cancelled ∈ ts ∨ ∃ m, .failed m ∈ ts
  | .completedThenInterrupt ts => .cancelled ∈ ts ∨ ∃ m, .failed m ∈ ts
  | .raise .interrupt => False
  | .raise _ => True
  | .loopError => True
  | _ => False

/-- The label shows the failure with this message. -/
def AsyncLabel.Shows (m : String) : AsyncLabel → Prop
  | .completed ts => .failed m ∈ ts
  | .completedThenInterrupt ts => .failed m ∈ ts
  | .raise e => e = .failed m
  | _ => False

end Verif
