import Verif.Py.Value
import Verif.Py.Dict

/-!
# The scopes of the fixtures of launch_pytest

launch_pytest/launch_pytest/fixture.py:21-27, 39-91, 94-147 and plugin.py:508-514.

Simplifications: fixtures are found in the module or else in the plugin (not in classes or conftest.py); scopes are given by name.
-/

namespace Verif

/-- The scopes of pytest (`_pytest.scope.Scope`). -/
inductive FixScope where
  | function | cls | module | package | session
  deriving DecidableEq, Repr

/-- The order of the scopes, from the narrowest. -/
def FixScope.rank : FixScope → Nat
  | .function => 0
  | .cls => 1
  | .module => 2
  | .package => 3
  | .session => 4

/-- `scope_gt`, fixture.py:21-27. -/
def scopeGt (a b : FixScope) : Bool := decide (b.rank < a.rank)

/-- A fixture, with the attributes of fixture.py:47-49, 59-61, 88-90 (`overridable`) and its scope. -/
structure ModFixture where
  scope : FixScope
  overridable : Bool
  deriving DecidableEq, Repr

/-- The fixtures that are overridden, fixture.py:123-127. -/
inductive LpName where
  | launchService | eventLoop | launchContext
  deriving DecidableEq, Repr

/-- What the variables of a module are bound to, `vars(mod)`: only these three matter. -/
abbrev ModVars := LpName → Option ModFixture

/-- A variable is bound. -/
def ModVars.bind (m : ModVars) (n : LpName) (f : ModFixture) : ModVars := fun k => if k = n then some f else m k

/-- The body of the loop, fixture.py:128-136. -/
def ModVars.widen (scope : FixScope) (m : ModVars) (n : LpName) : ModVars :=
  match m n with
  | some f => if f.overridable && scopeGt scope f.scope then m.bind n ⟨scope, true⟩ else m
  | none => m.bind n ⟨scope, true⟩

/-- `fixture(scope=…)`, fixture.py:94-136: what it does to the module. -/
def ModVars.decorate (m : ModVars) (scope : FixScope) : ModVars :=
  if scope = .function then m else [LpName.launchService, .eventLoop, .launchContext].foldl (ModVars.widen scope) m

/-- What a module does: it decorates a launch fixture, or binds one of the names itself (by a definition or an import). -/
inductive ModStmt where
  | decorate (scope : FixScope)
  | bind (n : LpName) (f : ModFixture)
  deriving DecidableEq, Repr

/-- A statement of the module. -/
def ModVars.exec (m : ModVars) : ModStmt → ModVars
  | .decorate s => m.decorate s
  | .bind n f => m.bind n f

/-- The module after its statements. -/
def ModVars.run (m : ModVars) (l : List ModStmt) : ModVars := l.foldl ModVars.exec m

/-- The scope of the fixture that pytest finds: the module's, or else the plugin's, plugin.py:508-514. -/
def ModVars.scopeOf (m : ModVars) (n : LpName) : FixScope := ((m n).map (·.scope)).getD .function

/-- What pytest requires of a fixture that requests another one: the other one's scope is at least as wide. -/
def mayRequest (a b : FixScope) : Bool := decide (a.rank ≤ b.rank)

/-- Whether a launch fixture of this scope can be set up without a ScopeMismatch error: it requests the launch service and the event
loop (plugin.py:103-104), and the launch service requests the event loop (fixture.py:42). -/
def ModVars.setsUp (m : ModVars) (scope : FixScope) : Bool :=
  mayRequest scope (m.scopeOf .launchService) && mayRequest scope (m.scopeOf .eventLoop) &&
    mayRequest (m.scopeOf .launchService) (m.scopeOf .eventLoop)

/-- Whether the fixture `launch_context` can be set up, which requests the launch service (fixture.py:56). -/
def ModVars.contextSetsUp (m : ModVars) : Bool :=
  mayRequest (m.scopeOf .launchContext) (m.scopeOf .launchService) && mayRequest (m.scopeOf .launchService) (m.scopeOf .eventLoop)

end Verif
