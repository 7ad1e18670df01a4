import Verif.Model.LogFormat

/-!
# What log lines look like

The documentation of `get_output_loggers` and `LaunchConfig` (launch/launch/logging/__init__.py) in terms of texts.
-/

namespace Verif

/-- A line of a process, at a place (`none`: the screen): just the line, except that it has a time stamp in the launch log file, which it shares with others. -/
def processText (r : LogRecord) (place : Option String) : String :=
  if place = some "launch.log" then r.created ++ " " ++ r.msg else r.msg

/-- The lines that a logger wrote to a place. -/
def linesAt (written : List (Option String × String × String)) (place : Option String) (logger : String) : List String :=
  (written.filter fun w => w.1 = place ∧ w.2.1 = logger).map fun w => w.2.2

/-- The records that were logged with a logger, with a level that suffices, in order. -/
def recordsOf (logger : String) (level : Nat) (ops : List FmtOp) : List LogRecord :=
  ops.filterMap fun
    | .log r => if r.logger = logger ∧ level ≤ r.level then some r else none
    | _ => none

/-- What operations do to loggers, apart from formats: operations of `Verif.Model.Logging`. -/
def FmtOp.plain : FmtOp → Option LogOp
  | .getLogger n => some (.getLogger n)
  | .getOutput p v => some (.getOutput p v)
  | .reset _ => some .reset
  | _ => none

/-- Operations that may happen while a process writes its lines. -/
def FmtOp.Harmless (logger : String) : FmtOp → Prop
  | .getLogger n => n ≠ logger
  | .setLogFormat _ _ _ => False
  | .setLevel _ => False
  | .reset _ => False
  | .log r => r.logger = logger → r.message = r.msg
  | _ => True

/-- The operation does not take formats away by setting them to None. -/
def FmtOp.Sets : FmtOp → Prop
  | .setScreenFormat _ f _ => f ≠ none
  | .setLogFormat _ f _ => f ≠ none
  | _ => True

end Verif
