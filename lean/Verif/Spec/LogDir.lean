import Verif.Model.LogDir
import Verif.Spec.Trans

/-!
# Log directories: notions for the statements
-/

namespace Verif

/-- Others only make directories, or do something to a path called `latest`. -/
def LdLabel.Tame : LdLabel → Prop
  | .other p n => n = some .dir ∨ p.2 = "latest".toList
  | _ => True

/-- Nobody else touches the file system. -/
def LdLabel.Alone : LdLabel → Prop
  | .other _ _ => False
  | _ => True

/-- A system call of the worker. -/
def LdLabel.Of (w : Nat) : LdLabel → Prop
  | .look v _ | .make v | .lexists v | .islink v | .unlink v | .symlink v => w = v
  | .kill _ | .other _ _ => False

/-- Two workers of the same process (threads, or processes that cannot be told apart). -/
def LdWho.Same (who : LdWho) (v w : Nat) : Prop := who.base v = who.base w ∧ who.host v = who.host w ∧ who.pid v = who.pid w

/-- No two workers of the same process are between looking for a directory and making it. -/
def Serial (who : LdWho) (s0 : LdState) (ls : List LdLabel) : Prop :=
  ∀ pre post s, ls = pre ++ post → runSteps (LdState.step who) s0 pre = some s →
    ∀ v w, v ≠ w → who.Same v w → ¬ ((∃ d, s.phase v = .checked d) ∧ ∃ d, s.phase w = .checked d)

/-- The state before any of the workers has begun. -/
def LdState.Begins (s : LdState) : Prop := (∀ w, s.phase w = .start) ∧ s.made = []

/-- There is something at `latest` that is not a link. -/
def LdState.Blocked (s : LdState) (base : List Char) : Prop := s.fs (base, "latest".toList) = some .dir ∨ s.fs (base, "latest".toList) = some .other

/-- A component of a path that names something. -/
def CleanComp (p : List Char) : Prop := p ≠ [] ∧ '/' ∉ p ∧ p ≠ ['.'] ∧ p ≠ ['.', '.']

/-- The absolute path with these components. -/
def absPath (cs : List (List Char)) : String := String.ofList ('/' :: slashJoin cs)

/-- A variable counts as set if it is not empty. -/
def isSetTo (env : Dict String) (k v : String) : Prop := env.get? k = some v ∧ v ≠ ""

def isUnset (env : Dict String) (k : String) : Prop := env.get? k = none ∨ env.get? k = some ""

/-- The operation neither sets the directory nor resets logging. -/
def LogConf.Op.Keeps : LogConf.Op → Prop
  | .set _ _ => False
  | .reset => False
  | _ => True

end Verif
