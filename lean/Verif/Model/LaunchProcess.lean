import Verif.Spec.ExecuteLocal

/-!
# launch_process

launch_testing/launch_testing/tools/process.py: the end of the block of a `with launch_process(…)` statement, on the model of the process action.  On
entry an event that includes the action is emitted (lines 170-174); its handling is label `execute` of Model/ExecuteLocal.lean.
-/

namespace Verif

/-- Reports recorded by the `ActiveProcInfoHandler`, whose handlers are called when the service handles them
(launch_testing/launch_testing/test_runner.py:131-142, proc_info_handler.py:83-86): all that were emitted but those still in the queue (C32). -/
def ProcAct.recorded (a : ProcAct) : List ProcEv :=
  a.log.take (a.log.length - (a.queue.filter ProcEv.isLife).length)

/-- `ProcessProxy.running`, process.py:133-140. -/
def ProcAct.proxyRunning (a : ProcAct) : Bool :=
  match a.recorded.getLast? with
  | some (.started _) => true
  | _ => false

/-- `ProcessProxy.terminated`, process.py:142-149: the latest recorded report is an exit. -/
def ProcAct.proxyTerminated (a : ProcAct) : Bool :=
  match a.recorded.getLast? with
  | some (.exited _ _) => true
  | _ => false

/-- The end of the block, process.py:178-184. -/
def ProcAct.leaveBlock (a : ProcAct) : ProcAct :=
  if a.proxyTerminated then a
  else { a with queue := a.queue ++ [.shutdownProcess true] }

end Verif
