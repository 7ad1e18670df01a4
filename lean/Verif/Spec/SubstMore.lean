import Verif.Spec.Subst

/-! # Specification of further substitutions -/

namespace Verif

/-- An absolute path. -/
def isAbs (p : String) : Prop := p.toList.head? = some '/'

instance (p : String) : Decidable (isAbs p) := inferInstanceAs (Decidable (_ = _))

/-- Components put together with single separators. -/
def slashed : List String → String
  | [] => ""
  | [p] => p
  | p :: q :: ps => p ++ "/" ++ slashed (q :: ps)

/-- What running a command gives, by the documentation of `Command`: the text written to standard output (including standard error if it
is captured), a failure if the program cannot be found, it fails, or it writes to standard error in mode 'fail'. -/
inductive CommandResult (O : Oracle) (cmd : List String) : String → Res String → Prop
  | notFound {mode : String} : O.run cmd (mode = "capture") = .ok .fileNotFound → CommandResult O cmd mode (.error .substitutionFailure)
  | failed {mode : String} {rc : Int} {out err : String} : O.run cmd (mode = "capture") = .ok (.done rc out err) → rc ≠ 0 →
    CommandResult O cmd mode (.error .substitutionFailure)
  | complained {out err : String} : O.run cmd false = .ok (.done 0 out err) → err ≠ "" → CommandResult O cmd "fail" (.error .substitutionFailure)
  | output {mode : String} {out err : String} : O.run cmd (mode = "capture") = .ok (.done 0 out err) → (mode = "fail" → err = "") →
    CommandResult O cmd mode (.ok out)

/-- The modes of `Command`. -/
def isStderrMode (m : String) : Prop := m = "fail" ∨ m = "ignore" ∨ m = "warn" ∨ m = "capture"

end Verif
