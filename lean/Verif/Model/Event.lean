import Verif.Py.Value

/-!
# Identities of actions, and events
-/

namespace Verif

/-- Object identity of an action: one written by the user, or the `k`-th helper action that an action
creates for itself (e.g. the PushEnvironment of a group,
launch/launch/actions/group_action.py:117-141), or the OpaqueFunction of the service's own
OnIncludeLaunchDescription handler (on_include_launch_description.py:33-35). -/
inductive ActId where
  | builtin
  | user (n : Nat)
  | derived (parent : ActId) (k : Nat)
  deriving DecidableEq, Repr, Inhabited

/-- Events (launch/launch/events/*.py, launch/launch/event.py).  Events that the service, the visiting
code and the modelled handlers treat alike (process, timer and user-defined events) are `user`
events; the number tells them apart.  The timer and process models have their own event types. -/
inductive Event where
  /-- any other event object -/
  | user (tag : Nat)
  /-- launch/launch/events/shutdown.py:21-38 -/
  | shutdown (reason : String) (dueToSigint : Bool)
  /-- launch/launch/events/include_launch_description.py; the number names the description -/
  | includeDesc (d : Nat)
  /-- launch/launch/events/execution_complete.py -/
  | executionComplete (a : ActId)
  deriving DecidableEq, Repr, Inhabited

/-- Values stored in context locals. -/
inductive LVal where
  | str (s : String)
  | event (e : Event)
  | obj (n : Nat)
  deriving DecidableEq, Repr, Inhabited

end Verif
