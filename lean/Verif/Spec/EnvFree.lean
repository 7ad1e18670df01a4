import Verif.Spec.Scope

/-! # Specification: substitutions that do not depend on the environment, and configurations that are kept -/

namespace Verif

mutual
/-- The substitution contains nothing that reads environment variables: no EnvironmentVariable, no search for an executable in `PATH`, and no program or Python
code, which might read them. -/
def Sub.envFree : Sub → Bool
  | .envVar _ _ | .findExec _ | .command _ _ | .pyExpr _ _ => false
  | .text _ | .localVar _ | .thisLaunchFile | .thisLaunchFileDir | .launchLogDir => true
  | .launchConfig n d => envFreeAll n && envFreeOpt d
  | .anonName v | .notS v | .fileContent v | .pathJoin v => envFreeAll v
  | .andS a b | .orS a b | .equals a b | .notEquals a b => envFreeAll a && envFreeAll b
  | .anyS as | .allS as => envFreeLists as
  | .ifElse a b c => envFreeAll a && envFreeAll b && envFreeAll c

def envFreeAll : List Sub → Bool
  | [] => true
  | s :: ss => s.envFree && envFreeAll ss

def envFreeOpt : Option (List Sub) → Bool
  | none => true
  | some ss => envFreeAll ss

def envFreeLists : List (List Sub) → Bool
  | [] => true
  | s :: ss => envFreeAll s && envFreeLists ss
end

/-- Starting with `d` scopes that are still open, every pop of configurations matches a push of the list, none is left open, and what is done outside of these scopes keeps
the value that is set for `k`.  What is done inside of them does not matter. -/
def KeepsEntry (k : String) : Nat → List ScopeOp → Prop
  | d, [] => d = 0
  | d, .pushLC :: os => KeepsEntry k (d + 1) os
  | d + 1, .popLC :: os => KeepsEntry k d os
  | 0, .popLC :: _ => False
  | 0, .modify f _ :: os => (∀ m v, Dict.get? m k = some v → (f m).get? k = some v) ∧ KeepsEntry k 0 os
  | d + 1, .modify _ _ :: os => KeepsEntry k (d + 1) os
  | d, .pushEnv :: os => KeepsEntry k d os
  | d, .popEnv :: os => KeepsEntry k d os

end Verif
