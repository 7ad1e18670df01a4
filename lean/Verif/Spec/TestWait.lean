import Verif.Spec.Trans
import Verif.Model.TestWait

/-! # Specification of waiting calls -/

namespace Verif

/-- This happened, in this order, and led to this state. -/
def CvReaches (C : Nat → WaitCall) (L : List CvLabel) (s : CvState) : Prop := runSteps (CvState.step C) {} L = some s

/-- The starts and exits reported. -/
def reportsIn (L : List CvLabel) : List ProcReport :=
  L.filterMap fun l => match l with | .put (.report e) => some e | _ => none

/-- What was recorded of the output. -/
def outputIn (L : List CvLabel) : List IoOp :=
  L.filterMap fun l => match l with | .put (.io op) => some op | _ => none

/-- The call was made and has not ended. -/
def CvState.Waits (s : CvState) (i : Nat) : Prop := ∃ d w t, s.call i = .blocked d w t

/-- A call is made only when no other one waits for the same kind of event. -/
def OneAtATime (C : Nat → WaitCall) (L : List CvLabel) : Prop :=
  ∀ L1 i s1, L1 ++ [.call i] <+: L → CvReaches C L1 s1 → ∀ j, (C j).cv = (C i).cv → ¬ s1.Waits j

/-- What is recorded in one handler is the same. -/
def Seen.SameFor (v : Cv) (a b : Seen) : Prop :=
  match v with
  | .procEvent => a.info = b.info
  | .ioEvent => a.io = b.io

/-- The condition is about what the handler records that the call waits for. -/
def WaitCall.Own (C : WaitCall) : Prop := ∀ a b, a.SameFor C.cv b → C.pred a = C.pred b

/-- Once the condition holds it goes on to hold. -/
def WaitCall.Stable (C : WaitCall) : Prop := ∀ s op, C.pred s = .ok true → C.pred (s.put op) = .ok true

end Verif
