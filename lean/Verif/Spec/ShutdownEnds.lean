import Verif.Spec.Joint
import Verif.Spec.Escalation
import Verif.Spec.System

/-! # Specification of the end of a launch that was asked to shut down -/

namespace Verif

/-- Signal `s` was sent to process `n` by the action itself, or it will be: the timer for it is still to fire, or its event or that of the signal waits. -/
def ProcAct.Escalates (n : Nat) (s : Sig) (a : ProcAct) : Prop :=
  a.timerOf s = .scheduled ∨ (∃ d, a.timerOf s = .waiting d) ∨ .timer s ∈ a.queue ∨ .signal s true true ∈ a.queue ∨ a.Sent n s

/-- The action is in the middle of nothing but what a Shutdown event, handled now, ends: it was not executed, or it is over; or its first process is not started yet; or
process `n` is its latest one, and its shutdown has not begun, or it has ended (but this was not noticed yet), or SIGTERM and SIGKILL were sent to it or will be; or it was
to be shut down and waits before it looks whether to start its process again.  What is left out: it is about to start its process again, or its coroutine has raised an
exception, or a process was started after the signals were sent. -/
def ProcAct.Stoppable (a : ProcAct) : Prop :=
  a.comp ≠ .pending ∨ a.shut = .pending ∧ a.transport = none ∨
    (∃ n, a.task = .running n ∧ (a.shut = .pending ∨ a.procs[n]? ≠ some none ∨ a.Escalates n .term ∧ a.Escalates n .kill)) ∨
    a.task = .delaying ∧ a.shut = .done

/-- Everything that is due was done, for process action `i`: no event is left, no timer can begin or fire, and its coroutine waits for a process or has ended. -/
def Sys.NothingDue (cfg : Nat → ProcCfg) (i : Nat) (y : Sys) : Prop :=
  y.SettledFor cfg i ∧ ∀ l ∈ [ProcLabel.begin true, .spawn, .attach, .observe, .delayOver], (y.act i).step (cfg i) l = none

/-- The launch has come to rest: nothing is due for its process actions, none of their coroutines was ended by an exception, no SIGKILL is to come, and every process that
was sent SIGKILL has ended. -/
def Sys.AtRest (cfg : Nat → ProcCfg) (ids : List Nat) (y : Sys) : Prop :=
  ∀ i ∈ ids, y.NothingDue cfg i ∧ (y.act i).task ≠ .failed ∧ ¬ (y.act i).Awaits .kill ∧ ∀ n, (y.act i).Sent n .kill → ¬ (y.act i).RunsProc n

/-- All that `run` waits for are futures of the process actions, and futures that are done. -/
def Sys.WaitsForProcesses (ids : List Nat) (y : Sys) : Prop :=
  ∀ f, f ∈ y.svc.pairs.map (·.2) ∨ f ∈ y.svc.ctx.completion → y.svc.isDone f = true ∨ ∃ i ∈ ids, f ∈ y.svc.ctx.futuresOf (.user i)

end Verif
