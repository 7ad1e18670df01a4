import Verif.Model.Service
import Verif.Model.ExecuteLocal

/-!
# The service together with the process actions of the launch

launch/launch/launch_service.py and launch/launch/actions/execute_local.py: the model of the service (Model/Service.lean) and one model of a
process action (Model/ExecuteLocal.lean) for each of some actions of the program, joined at the futures.

In the model of the service an ExecuteLocal is an action that may create a future when it is executed, `newFuture`.  Here the creation of
that future is the execution of the process action, and the future gets its result from the process action only.

Simplification: the events that the process actions see are not compared with those the service handles.  A process action may see any
events at any time, so there are more runs here than there are in the code.
-/

namespace Verif

/-- The futures of an action, the latest first: `get_asyncio_future`, execute_local.py:724-726. -/
def Ctx.futuresOf (c : Ctx) (a : ActId) : List Nat := c.futures.filterMap fun p => if p.1 = a then some p.2 else none

/-- The whole.  `act i` is the process action `user i`.
Ghost field `failed`: the processing of some event has raised. -/
structure Sys where
  svc : Svc
  act : Nat → ProcAct := fun _ => {}
  failed : Bool := false

/-- What can happen: a step of the service, or of process action `i`. -/
inductive SysLabel where
  | svc (l : Label)
  | proc (i : Nat) (l : ProcLabel)
  deriving DecidableEq, Repr

/-- The process actions among `ids` that were executed, and got a future, in a step of the service. -/
def executedIn (ids : List Nat) (s s' : Svc) : List Nat :=
  ids.filter fun i => s'.ctx.futuresOf (.user i) != s.ctx.futuresOf (.user i)

/-- The future is new: it is pending and it is the future of no other process action.  The action was not executed before, as that
raises (execute_local.py:654-658), and the context is not shut down, as there is no future then (execute_local.py:660-662, 706). -/
def Sys.executes (ids : List Nat) (act : Nat → ProcAct) (s' : Svc) (i : Nat) : Bool :=
  match s'.ctx.futuresOf (.user i) with
  | [f] => !s'.isDone f && !(act i).executed && !(act i).ctxShut &&
      ids.all fun j => j == i || !(s'.ctx.futuresOf (.user j)).contains f
  | _ => false

/-- The service did a step. -/
def Sys.serve (ids : List Nat) (y : Sys) (s' : Svc) : Option Sys :=
  if (executedIn ids y.svc s').all (Sys.executes ids y.act s') then
    some { svc := s'
           act := fun i => if i ∈ executedIn ids y.svc s' then (y.act i).execute else y.act i
           failed := y.failed || s'.evFailed }
  else none

/-- Process action `i` is now `a`; `__cleanup` gave its future a result, execute_local.py:506-516. -/
def Sys.set (P : Prog) (O : Oracle) (y : Sys) (i : Nat) (a : ProcAct) : Sys :=
  let s' :=
    if a.comp = .done && (y.act i).comp ≠ .done then
      match y.svc.ctx.futuresOf (.user i) with
      | [] => y.svc
      | f :: _ => (y.svc.step P O (.futureDone f .ok)).getD y.svc
    else y.svc
  { y with svc := s', act := fun j => if j = i then a else y.act j }

/-- One step, for the process actions `ids` with these arguments; `none` when the label is not enabled. -/
def Sys.step (P : Prog) (O : Oracle) (ids : List Nat) (cfg : Nat → ProcCfg) (y : Sys) : SysLabel → Option Sys
  | .svc (.futureDone f r) =>
    if ids.any fun i => (y.svc.ctx.futuresOf (.user i)).contains f then none
    else (y.svc.step P O (.futureDone f r)).bind (y.serve ids)
  | .svc l => (y.svc.step P O l).bind (y.serve ids)
  | .proc _ .execute => none
  | .proc i l => if i ∈ ids then ((y.act i).step (cfg i) l).map (y.set P O i) else none

end Verif
