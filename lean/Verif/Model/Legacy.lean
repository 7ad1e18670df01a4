import Verif.Py.Dict
import Verif.Py.Value

/-!
# The legacy test service

launch_testing/launch_testing/legacy/__init__.py: `LaunchTestService`.
-/

namespace Verif

/-- The status of a test, `__tests`, legacy/__init__.py:32-86. -/
inductive LgStatus where
  | armed
  | finished
  | dropped
  | failed
  | succeeded
  deriving DecidableEq, Repr

/-- The name of a test: 'test_{id}' (line 130) or 'test_{id}_{suffix}' (line 191). -/
structure LgKey where
  action : Nat
  suffix : Option String := none
  deriving DecidableEq, Repr

/-- What is given as `exit_allowed`, lines 92, 103-105: a list, or an object of which only its truth value matters. -/
inductive LgAllowed where
  | codes (l : List Int)
  | flag (b : Bool)
  deriving DecidableEq, Repr

/-- `allowed_to_exit`, lines 103-105. -/
def LgAllowed.allows : LgAllowed → Int → Bool
  | codes l, rc => l.contains rc
  | flag b, _ => b

/-- An output test as returned by `launch_testing.legacy.output.create_*`, without what changes: lines 168-195.  `truthy` tells which patterns are true;
the filter is the identity unless given. -/
structure LgOutput (O P T : Type) where
  action : Nat
  suffix : String
  collate : O → T → O
  found : O → P → Bool
  truthy : P → Bool
  filter : T → T
  /-- `side_effect == 'shutdown'` -/
  shutdownAfter : Bool

/-- Line 191. -/
def LgOutput.key {O P T : Type} (t : LgOutput O P T) : LgKey := ⟨t.action, some t.suffix⟩

/-- What is added to a launch description. -/
inductive LgAdd (O P T : Type) where
  /-- `add_fixture_action` of an ExecuteProcess, lines 88-117 -/
  | fixture (a : Nat) (allowed : LgAllowed)
  /-- `add_test_action` of an ExecuteProcess, lines 119-147, 164-166 -/
  | processTest (a : Nat)
  /-- `add_test_action` of another action, lines 148-166 -/
  | otherTest (a : Nat)
  /-- `add_output_test`, lines 168-242, with the initial output and the patterns -/
  | output (t : LgOutput O P T) (out : O) (patterns : List P)

/-- An event handler registered by one of these methods. -/
inductive LgHandler (O P T : Type) where
  | fixtureExit (a : Nat) (allowed : LgAllowed)
  | testExit (a : Nat)
  | testCompletion (a : Nat)
  | outputExit (t : LgOutput O P T)
  | outputShutdown (t : LgOutput O P T)
  | outputStdout (t : LgOutput O P T)

/-- The service and the variables that the functions of output tests close over. -/
structure LgState (O P : Type) where
  tests : List (LgKey × LgStatus) := []
  /-- `__processes_rc` -/
  rcs : Dict Int := []
  out : List (LgKey × O × List P) := []
  /-- the number of Shutdown events emitted -/
  emitted : Nat := 0

namespace LgState
variable {O P T : Type}

/-- `test_name in self.__tests` -/
def known (s : LgState O P) (k : LgKey) : Bool := s.tests.any fun p => p.1 = k

/-- `self.__tests[test_name] = …` for a test that is there. -/
def mark (s : LgState O P) (k : LgKey) (x : LgStatus) : LgState O P :=
  { s with tests := s.tests.map fun p => if p.1 = k then (k, x) else p }

/-- `all(status != 'armed' for status in self.__tests.values())` -/
def noneArmed (s : LgState O P) : Bool := s.tests.all fun p => p.2 ≠ .armed

/-- The returned EmitEvent action is visited. -/
def emit (s : LgState O P) : LgState O P := { s with emitted := s.emitted + 1 }

/-- `_arm`, lines 35-41. -/
def arm (s : LgState O P) (k : LgKey) : Res (LgState O P) :=
  if s.known k then .error .assertionError else .ok { s with tests := s.tests ++ [(k, .armed)] }

/-- `_finish`, lines 43-51. -/
def finish (s : LgState O P) (k : LgKey) : Res (LgState O P) :=
  if s.known k then
    let s := s.mark k .finished
    .ok (if s.noneArmed then s.emit else s)
  else .error .assertionError

/-- `_drop`, lines 53-59. -/
def drop (s : LgState O P) (k : LgKey) : Res (LgState O P) := if s.known k then .ok (s.mark k .dropped) else .error .assertionError

/-- `_fail`, lines 61-72, without what is done with the returned action. -/
def failTest (s : LgState O P) (k : LgKey) : Res (LgState O P) :=
  if s.known k then
    let s := s.mark k .failed
    .ok { s with tests := s.tests.map fun p => if p.2 = .armed then (p.1, .dropped) else p }
  else .error .assertionError

/-- `_succeed`, lines 74-86; `visit`: the returned action is visited. -/
def succeed (s : LgState O P) (k : LgKey) (shutdownAfter visit : Bool) : Res (LgState O P) :=
  if s.known k then
    let s := s.mark k .succeeded
    .ok (if visit && (s.noneArmed || shutdownAfter) then s.emit else s)
  else .error .assertionError

end LgState

/-- The future of an action whose execution is complete (lines 150-157): there is none, it is cancelled, it has an exception, or a result. -/
inductive LgDone where
  | noFuture
  | cancelled
  | raised
  | result
  deriving DecidableEq, Repr

/-- Events that the handlers react to. -/
inductive LgEvent (T : Type) where
  /-- ProcessExited: the action, its name in `process_details`, the return code, and `context.is_shutdown` at that time -/
  | exit (a : Nat) (name : String) (rc : Int) (isShutdown : Bool)
  /-- ExecutionComplete -/
  | complete (a : Nat) (fut : LgDone)
  /-- ProcessStdout -/
  | stdout (a : Nat) (text : T)
  /-- Shutdown; `prepared` tells which actions have been executed and thus have `process_details` -/
  | shutdown (prepared : Nat → Bool)

namespace LgState
variable {O P T : Type}

/-- The variables `out` and `match_patterns` of an output test. -/
def outputOf (s : LgState O P) (k : LgKey) : Option (O × List P) := (s.out.find? fun p => p.1 = k).map (·.2)

/-- Are there patterns left?  `any(match_patterns)` -/
def patternsLeft (s : LgState O P) (t : LgOutput O P T) : Bool :=
  match s.outputOf t.key with
  | some x => x.2.any t.truthy
  | none => false

/-- Lines 226-230. -/
def collate (s : LgState O P) (t : LgOutput O P T) (text : T) : LgState O P :=
  { s with out := s.out.map fun p =>
      if p.1 = t.key then
        let out := t.collate p.2.1 (t.filter text)
        (p.1, out, p.2.2.filter fun x => !t.found out x)
      else p }

/-- What a handler does on an event, if it matches it (`none`: it does not). -/
def react (s : LgState O P) : LgHandler O P T → LgEvent T → Option (Res (LgState O P))
  -- lines 101-110
  | .fixtureExit a allowed, .exit b name rc isShutdown =>
    if a = b then
      some (.ok (if !isShutdown && !allowed.allows rc then { s with rcs := s.rcs.set name (if rc = 0 then 1 else rc) }.emit else s))
    else none
  -- lines 132-141
  | .testExit a, .exit b name rc _ =>
    if a = b then
      some (if rc ≠ 0 then (({ s with rcs := s.rcs.set name rc } : LgState O P).failTest ⟨a, none⟩).map emit else s.succeed ⟨a, none⟩ false true)
    else none
  -- lines 149-157
  | .testCompletion a, .complete b fut =>
    if a = b then
      some (match fut with
        | .cancelled => s.drop ⟨a, none⟩
        | .raised => (s.failTest ⟨a, none⟩).map emit
        | _ => s.succeed ⟨a, none⟩ false true)
    else none
  -- lines 197-202
  | .outputExit t, .exit b _ _ _ => if t.action = b then some (if s.patternsLeft t then s.finish t.key else .ok s) else none
  -- lines 210-216; nothing is returned
  | .outputShutdown t, .shutdown prepared =>
    some (if s.patternsLeft t then
        if prepared t.action then
          match s.failTest t.key with
          | .ok s => s.succeed t.key t.shutdownAfter false
          | .error e => .error e
        else .error .typeError
      else s.succeed t.key t.shutdownAfter false)
  -- lines 222-233
  | .outputStdout t, .stdout b text =>
    if t.action = b then
      let s := s.collate t text
      some (if s.patternsLeft t then .ok s else s.succeed t.key t.shutdownAfter true)
    else none
  | _, _ => none

/-- The handlers one after the other, launch_service.py:232-251; an exception skips the remaining ones. -/
def reactAll (s : LgState O P) (e : LgEvent T) : List (LgHandler O P T) → LgState O P × Bool
  | [] => (s, false)
  | h :: hs =>
    match s.react h e with
    | none => reactAll s e hs
    | some (.ok s') => reactAll s' e hs
    | some (.error _) => (s, true)

/-- A history of events: the state and whether a handler raised. -/
def history (hs : List (LgHandler O P T)) (s : LgState O P) : List (LgEvent T) → LgState O P × Bool
  | [] => (s, false)
  | e :: es =>
    let r := s.reactAll e hs
    let r' := history hs r.1 es
    (r'.1, r.2 || r'.2)

/-- `run`, lines 244-261: `rc` is what the launch service returns. -/
def returnCode (s : LgState O P) (rc : Int) : Int :=
  if rc = 0 then
    match s.rcs.find? fun p => p.2 ≠ 0 with
    | some p => p.2
    | none => if s.tests.any fun p => p.2 = .failed then 1 else 0
  else rc

end LgState

/-- What one of the methods `add_…` does to the service. -/
def LgAdd.apply {O P T : Type} (s : LgState O P) : LgAdd O P T → Res (LgState O P)
  | fixture _ _ => .ok s
  | processTest a => s.arm ⟨a, none⟩
  | otherTest a => s.arm ⟨a, none⟩
  | output t out patterns =>
    if patterns.any t.truthy then
      match s.arm t.key with
      | .ok s => .ok { s with out := s.out ++ [(t.key, out, patterns)] }
      | .error e => .error e
    else .error .assertionError

/-- The handlers it has registered, in this order. -/
def LgAdd.handlers {O P T : Type} : LgAdd O P T → List (LgHandler O P T)
  | fixture a allowed => [.fixtureExit a allowed]
  | processTest a => [.testExit a]
  | otherTest a => [.testCompletion a]
  | output t _ _ => [.outputExit t, .outputShutdown t, .outputStdout t]

/-- All of them. -/
def lgSetUp {O P T : Type} (s : LgState O P) : List (LgAdd O P T) → Res (LgState O P)
  | [] => .ok s
  | x :: xs =>
    match x.apply s with
    | .ok s => lgSetUp s xs
    | .error e => .error e

/-- A complete run: what is added, the events, and what the launch service would return by itself.  The handlers are registered when the launch description
is visited; the one registered last comes first (launch_context.py:213-223).  If a handler raises, the launch service returns 1 (launch_service.py:351-361). -/
def lgRun {O P T : Type} (adds : List (LgAdd O P T)) (es : List (LgEvent T)) (rc : Int) : Res Int :=
  match lgSetUp {} adds with
  | .error e => .error e
  | .ok s =>
    let r := s.history (adds.flatMap LgAdd.handlers).reverse es
    .ok (r.1.returnCode (if r.2 then 1 else rc))

/-- The service after these events. -/
def lgAfter {O P T : Type} (adds : List (LgAdd O P T)) (es : List (LgEvent T)) : Res (LgState O P) :=
  match lgSetUp {} adds with
  | .error e => .error e
  | .ok s => .ok (s.history (adds.flatMap LgAdd.handlers).reverse es).1

end Verif
