import Verif.Model.Legacy

/-! # What users of the legacy test service rely on -/

namespace Verif

variable {O P T : Type}

/-- This event reports that a process failed: a test process exits with a code other than 0, or a fixture process exits with a code that is not allowed
while the launch is not shutting down.  With the name of the process and the code. -/
inductive LgFailure (adds : List (LgAdd O P T)) : LgEvent T → String → Int → Prop where
  | test {a : Nat} {name : String} {rc : Int} {isShutdown : Bool} : LgAdd.processTest a ∈ adds → rc ≠ 0 → LgFailure adds (.exit a name rc isShutdown) name rc
  | fixture {a : Nat} {allowed : LgAllowed} {name : String} {rc : Int} :
    LgAdd.fixture a allowed ∈ adds → (match allowed with | .codes l => rc ∉ l | .flag b => b = false) →
      LgFailure adds (.exit a name rc false) name (if rc = 0 then 1 else rc)

/-- No action completes twice. -/
def LgOnce (es : List (LgEvent T)) : Prop :=
  ∀ a, (es.filter fun e => match e with | .complete b _ => a == b | _ => false).length ≤ 1

/-- The processes with output tests were executed before the launch is shut down. -/
def LgExecuted (adds : List (LgAdd O P T)) (es : List (LgEvent T)) : Prop :=
  ∀ p, LgEvent.shutdown p ∈ es → ∀ t o ps, LgAdd.output t o ps ∈ adds → p t.action = true

/-- The output collected by an output test after these events, if it begins with `out`. -/
def outputAfter (t : LgOutput O P T) (out : O) (es : List (LgEvent T)) : O :=
  es.foldl (fun o e => match e with | .stdout b x => if t.action = b then t.collate o (t.filter x) else o | _ => o) out

/-- An output that the test looked at: the one collected after one of the pieces of output of its action. -/
def LookedAt (t : LgOutput O P T) (out : O) (es : List (LgEvent T)) (o : O) : Prop :=
  ∃ es' x, es' ++ [.stdout t.action x] <+: es ∧ o = outputAfter t out (es' ++ [.stdout t.action x])

end Verif
