import Verif.Model.ConfigDefault
import Verif.Model.Typed
import Verif.Model.Timer

/-!
# The escalation timeouts of a process

launch/launch/actions/execute_local.py: the arguments `sigterm_timeout` and `sigkill_timeout`, the two timers made of them when a process is
shut down, what these timers wait for, and what they report.  What the timers do besides is Model/Timer.lean, what the process does is
Model/ExecuteLocal.lean.

Not modelled here: the rest of the message (the name of the process), the context locals.
-/

namespace Verif

/-- The default of the arguments, execute_local.py:85-88: a LaunchConfiguration of the argument's name with the default `5`, an `int`. -/
def timeoutDefault (name : String) : List Sub :=
  [.launchConfig [.text name] (DefaultArg.other "5").normalize]

/-- An argument as the constructor stores it, execute_local.py:85-88, 191-192; `none`: not given. -/
def timeoutArg (name : String) : Option TVal → Res (List Sub)
  | none => .ok (timeoutDefault name)
  | some v => v.toSubs

/-- The period of the second timer, execute_local.py:460-462, with the default modules of PythonExpression, python_expression.py:40-41. -/
def killPeriod (term kill : List Sub) : List Sub :=
  [.pyExpr (.text "float(" :: (term ++ .text ") + float(" :: (kill ++ [.text ")"]))) [.text "math"]]

/-- The period as the TimerAction stores it, timer_action.py:85.  The argument is a list of substitutions here. -/
def timerPeriod (O : Oracle) (period : List Sub) : Res TVal :=
  normalizeTyped O (.seq (period.map .sub)) (some (.scalar .float))

/-- `__get_shutdown_timer_actions`, execute_local.py:449-498: the periods of the timers for SIGTERM and SIGKILL. -/
def shutdownTimers (O : Oracle) (term kill : List Sub) : Res (TVal × TVal) :=
  match timerPeriod O term with
  | .error e => .error e
  | .ok t =>
    match timerPeriod O (killPeriod term kill) with
    | .error e => .error e
    | .ok k => .ok (t, k)

/-- The end of `_shutdown_process`, execute_local.py:292-299: what is returned to be executed, or the exception.  The flag `true` in the result
stands for the event that sends SIGINT. -/
def shutdownActions (O : Oracle) (term kill : List Sub) (sendSigint : Bool) : Res ((TVal × TVal) × Bool) :=
  match shutdownTimers O term kill with
  | .error e => .error e
  | .ok p => .ok (p, sendSigint)

/-- The timeout of the wait, timer_action.py:96-98, evaluated when the coroutine begins. -/
def timerWait (O : Oracle) (period : TVal) : M PyVal := performTyped O period (some (.scalar .float))

/-- How long the task waits, in ticks of the model of TimerAction: `none` if the evaluation raises. -/
def waitTicks (ticks : Flt → Nat) (r : Ctx × Res PyVal) : Option Nat :=
  match r.2 with
  | .ok (.float f) => some (ticks f)
  | _ => none

/-- The part of the message after the name of the process, execute_local.py:450-457, 467-469, 483-485. -/
def escalationText (O : Oracle) (timeout : List Sub) (got next : String) : M String :=
  M.bind (performSubs O timeout) fun t =>
    M.pure ("failed to terminate '" ++ t ++ "' seconds after receiving '" ++ got ++ "', escalating to '" ++ next ++ "'")

/-- The messages of the two timers, execute_local.py:464-495. -/
def termMessage (O : Oracle) (term : List Sub) : M String := escalationText O term "SIGINT" "SIGTERM"

/-- The message of the second timer, execute_local.py:480-495. -/
def killMessage (O : Oracle) (term kill : List Sub) : M String := escalationText O (killPeriod term kill) "SIGTERM" "SIGKILL"

end Verif
