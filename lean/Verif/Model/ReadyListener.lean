import Verif.Py.Value
import Verif.Py.Utf8
import Verif.Model.Frontend

/-!
# StdoutReadyListener

launch_testing/launch_testing/event_handlers/stdout_ready_listener.py, on top of OnProcessIO (launch/launch/event_handlers/on_process_io.py:39-68, modelled
in Model/Handlers.lean).
-/

namespace Verif

/-- A ProcessIO event: the action, the file descriptor and the bytes, launch/launch/events/process/process_io.py:25-42.  The bytes are what the event loop
has read from the pipe at once (launch/launch/actions/execute_local.py:537-541). -/
structure OutChunk where
  action : Nat
  fd : Int
  bytes : List UInt8
  deriving DecidableEq, Repr

/-- Does the handler match the event and is `__on_stdout` called?  `target`: the argument `target_action`; on_process_io.py:52-54 and
on_action_event_base.py:76-84. -/
def readyAsked (target : Option Nat) (e : OutChunk) : Bool :=
  (match target with | some a => e.action == a | none => true) && decide (e.fd = 1)

/-- What the service gets for an event: are the actions of the listener visited?  stdout_ready_listener.py:50-52; UnicodeDecodeError is a ValueError. -/
def readyHandle (target : Option Nat) (ready : List Char) (e : OutChunk) : Res Bool :=
  if readyAsked target e then
    match decodeStrict e.bytes with
    | some t => .ok (isInfix ready t)
    | none => .error .valueError
  else .ok false

/-- How often the actions of the listener are visited for these events. -/
def readyVisits (target : Option Nat) (ready : List Char) (es : List OutChunk) : Nat :=
  es.countP fun e => match readyHandle target ready e with | .ok b => b | .error _ => false

end Verif
