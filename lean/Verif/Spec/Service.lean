import Verif.Model.Service

/-! # Specification of the service -/

namespace Verif

/-- `s'` is reached from `s` by these steps. -/
def Svc.Reaches (P : Prog) (O : Oracle) (s : Svc) (ls : List Label) (s' : Svc) : Prop :=
  s.steps P O ls = some s'

/-- Nothing is left to do: no event is queued and every future that was collected, and every completion
future, is done. -/
structure Svc.Idle (s : Svc) : Prop where
  queue : s.ctx.queue = []
  pairs : ∀ p ∈ s.pairs, s.isDone p.2 = true
  completion : ∀ f ∈ s.ctx.completion, s.isDone f = true

/-- Registering handlers one after another (`true`: with `append=True`). -/
def Ctx.registerAll (c : Ctx) (hs : List (Nat × Bool)) : Ctx :=
  hs.foldl (fun c h => c.registerHandler h.1 h.2) c

/-- The event the handlers and the visited entities see as `context.locals.event`. -/
def Ctx.localEvent (c : Ctx) : Option LVal := c.locals.getCombined.1.get? "event"

/-- Data that does not contain the name `event`. -/
def NoEvent (d : Dict LVal) : Prop := "event" ∉ d.keys

/-- An effect that does not replace the local `event`. -/
def Effect.keepsEvent : Effect → Prop
  | .extendLocals d => NoEvent d
  | _ => True

/-- The program never replaces the local `event`. -/
structure Prog.KeepsEvent (P : Prog) : Prop where
  fn : ∀ n c, ∀ e ∈ (P.fn n c).effects, e.keepsEvent
  callback : ∀ h ev c, ∀ e ∈ (P.callback h ev c).effects, e.keepsEvent

/-- `Q` differs from `P` only in what its user code does in contexts where the local `event` is not
`v`. -/
structure SameWhile (v : LVal) (P Q : Prog) : Prop where
  rest : Q = { P with preds := Q.preds, fn := Q.fn, callback := Q.callback }
  preds : ∀ n c, c.localEvent = some v → Q.preds n c = P.preds n c
  fn : ∀ n c, c.localEvent = some v → Q.fn n c = P.fn n c
  callback : ∀ h ev c, c.localEvent = some v → Q.callback h ev c = P.callback h ev c

/-- Operations on the locals. -/
inductive LocalsOp where
  | push
  | pop
  | extendGlobals (d : Dict LVal)
  | extendLocals (d : Dict LVal)
  | read

/-- Running them in the model; a failing pop changes nothing (it raises). -/
def LocalsOp.run (l : Locals) : LocalsOp → Locals
  | .push => l.push
  | .pop => match l.pop with | .ok l' => l' | .error _ => l
  | .extendGlobals d => l.extendGlobals d
  | .extendLocals d => l.extendLocals d
  | .read => l.getCombined.2

/-- A scope as a function from names. -/
abbrev Scope := String → Option LVal

/-- `a` overridden by `b`. -/
def Scope.over (a b : Scope) : Scope := fun k => (b k).or (a k)

/-- A dictionary as a function; later entries win, as in `dict.update`. -/
def Scope.ofDict : Dict LVal → Scope
  | [] => fun _ => none
  | (k, v) :: d => fun x => (Scope.ofDict d x).or (if x = k then some v else none)

/-- The intended meaning: global names, current names and saved current names, no cache. -/
structure Scopes where
  globals : Scope := fun _ => none
  cur : Scope := fun _ => none
  saved : List Scope := []

def Scopes.run (s : Scopes) : LocalsOp → Scopes
  | .push => { s with saved := s.cur :: s.saved }
  | .pop => match s.saved with | [] => s | f :: fs => { s with cur := f, saved := fs }
  | .extendGlobals d => { s with globals := s.globals.over (.ofDict d) }
  | .extendLocals d => { s with cur := s.cur.over (.ofDict d) }
  | .read => s

end Verif
