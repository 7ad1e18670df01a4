import Verif.Model.ExecuteLocal
import Verif.Model.Timer

/-!
# The Test action of launch_testing

launch_testing/launch_testing/actions/test.py: an ExecuteProcess action with a timeout; the actions GTest and PyTest (gtest.py,
pytest.py) differ from it in the command only.  The process is the one of Model/ExecuteLocal.lean, the timer that of Model/Timer.lean; both
share the clock and the handlers of the context.

Simplifications: the timeout is a number, not substitutions.  The queue of events is split in two, one for the events the process action
handles and one for the events of the timer, so that every order of events of different parts is possible.
-/

namespace Verif

/-- Arguments of the action, test.py:35-52.  `timeout`: `None` or a number of ticks; `isInt`: it was given as an int and not as a
float. -/
structure TestCfg where
  proc : ProcCfg := {}
  timeout : Option Nat := none
  isInt : Bool := false
  /-- `kill_timeout`, which nothing reads -/
  killTimeout : Nat := 5

/-- Is there a timeout?  test.py:73, `if not self.__timeout`. -/
def TestCfg.hasTimeout (c : TestCfg) : Bool :=
  match c.timeout with
  | none => false
  | some n => n != 0

/-- State of the action: its process, its timer (`__timer`) and whether the handler of test.py:80-84 is registered;
ghost field: `raised`, the exceptions `execute` raised after that of ExecuteProcess. -/
structure TestAct where
  p : ProcAct := {}
  t : Timer := {}
  armed : Bool := false
  raised : Nat := 0
  deriving DecidableEq, Repr

/-- What can happen. -/
inductive TestLabel where
  /-- `execute` -/
  | execute
  /-- something that concerns the process, other than `execute` and the passing of time -/
  | proc (l : ProcLabel)
  /-- the task of the timer begins -/
  | timerBegin
  /-- the wait of the timer ends -/
  | timerResume
  /-- the event of the timer is processed -/
  | timerProcess
  /-- time passes -/
  | tick
  deriving DecidableEq, Repr

namespace TestAct

/-- `execute`, test.py:66-88.  ExecuteProcess.execute raises if the action was executed before (execute_local.py:654-657), and otherwise returns
None (lines 660-662 and 722), so that the timer is what is returned, and executed next.  TimerAction accepts floats but no ints
(timer_action.py:70-71), after the process was scheduled. -/
def execute (c : TestCfg) (s : TestAct) : TestAct :=
  let s1 := { s with p := s.p.execute }
  if s.p.executed then s1
  else if !c.hasTimeout then s1
  else if c.isInt then { s1 with raised := s1.raised + 1 }
  else { s1 with t := s1.t.execute (some true), armed := true }

/-- What the handling of an event of the process does to the timer: `__on_process_exit` (test.py:59-64) cancels it, and so does
its own handler of Shutdown events (timer_action.py:198-204). -/
def timerReacts (s : TestAct) : Option ProcEv → Timer
  | some (.exited _ _) => if s.armed then s.t.cancel else s.t
  | some (.shutdown _) => if s.t.cancelHandlers = 0 then s.t else s.t.cancel
  | _ => s.t

/-- One step; `none` when the label is not enabled. -/
def step (c : TestCfg) (s : TestAct) : TestLabel → Option TestAct
  | .execute => some (s.execute c)
  | .proc l =>
    match l with
    | .execute | .tick => none
    | .process => (s.p.step c.proc .process).map fun p => { s with p := p, t := s.timerReacts s.p.queue.head? }
    | l => (s.p.step c.proc l).map fun p => { s with p := p }
  | .timerBegin => (s.t.step (.begin 0 c.timeout)).map fun t => { s with t := t }
  | .timerResume => (s.t.step (.resume 0)).map fun t => { s with t := t }
  -- test.py:75-79: the action of the timer calls `_shutdown_process` with `send_sigint=True`
  | .timerProcess =>
    (s.t.step .process).map fun t => { s with t := t, p := if s.t.installed then s.p.shutdownProcess true else s.p }
  | .tick =>
    match s.p.step c.proc .tick, s.t.step .tick with
    | some p, some t => some { s with p := p, t := t }
    | _, _ => none

end TestAct
end Verif
