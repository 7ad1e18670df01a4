import Verif.Model.PytestScope

/-!
# Specification vocabulary for scopes of fixtures
-/

namespace Verif

/-- The scopes of pytest, the narrowest first (its documentation). -/
def pytestScopes : List FixScope := [.function, .cls, .module, .package, .session]

/-- How wide a scope is: its place among them. -/
def FixScope.width (s : FixScope) : Nat := pytestScopes.idxOf s

/-- The widest of some scopes. -/
def widest (l : List FixScope) : Nat := l.foldr (fun s n => max s.width n) 0

/-- The scopes a module decorates with. -/
def decorated (l : List ModStmt) : List FixScope := l.filterMap fun
  | .decorate s => some s
  | _ => none

/-- The names a module binds itself. -/
def bound (l : List ModStmt) : List LpName := l.filterMap fun
  | .bind n _ => some n
  | _ => none

/-- pytest's rule: a fixture may request only fixtures of its own scope or of a wider one.  A launch fixture requests the launch service and the event
loop, and the launch service requests the event loop. -/
structure NoMismatch (scopeOf : LpName → FixScope) (s : FixScope) : Prop where
  service : s.width ≤ (scopeOf .launchService).width
  loop : s.width ≤ (scopeOf .eventLoop).width
  serviceLoop : (scopeOf .launchService).width ≤ (scopeOf .eventLoop).width

/-- Likewise for the fixture `launch_context`, which requests the launch service. -/
structure NoContextMismatch (scopeOf : LpName → FixScope) : Prop where
  service : (scopeOf .launchContext).width ≤ (scopeOf .launchService).width
  serviceLoop : (scopeOf .launchService).width ≤ (scopeOf .eventLoop).width

end Verif
