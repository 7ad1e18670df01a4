import Verif.Model.TestWorker

/-! # What happened in a run of a launch with its tests -/

namespace Verif

/-- The tests of the active processes that were run. -/
def preTests : List WorkerStep → List (List ResultCall)
  | [] => []
  | .preTest cs :: as => cs :: preTests as
  | _ :: as => preTests as

/-- The tests after shutdown that were run. -/
def postTests : List WorkerStep → List (List ResultCall)
  | [] => []
  | .postTest cs :: as => cs :: postTests as
  | _ :: as => postTests as

/-- A test did not succeed, or a fixture of a class or module did not. -/
def ResultCall.IsBad : ResultCall → Prop
  | .failure _ _ => True
  | .error _ _ => True
  | .unexpectedSuccess _ => True
  | _ => False

/-- The launch has ended for whatever reason. -/
def Stopped (steps : List WorkerStep) : Prop := ∃ why, WorkerStep.stop why ∈ steps

/-- The last thing that is known about a process: `none` if it was never started, `some none` if it was started, `some (some rc)` if it exited. -/
def lastEvent (p : String) (steps : List WorkerStep) : Option (Option Int) :=
  steps.foldl (fun l a =>
    match a with
    | .procStart q => if q = p then some none else l
    | .procExit q rc => if q = p then some (some rc) else l
    | _ => l) none

/-- A process was started, and nobody has heard of its exit. -/
def Unexited (steps : List WorkerStep) : Prop := ∃ p, lastEvent p steps = some none

/-- A process that exited with an error, or was killed, has written something that is not ASCII. -/
def Unprintable (steps : List WorkerStep) : Prop :=
  ∃ p rc, lastEvent p steps = some (some rc) ∧ rc ≠ 0 ∧ ∃ text, WorkerStep.procOutput p text ∈ steps ∧ ∃ b ∈ text, 128 ≤ b

end Verif
