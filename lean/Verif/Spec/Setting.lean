import Verif.Model.Entity

/-!
# What setting and unsetting variables means

A small specification, independent of the context: a history of assignments, and the value a name has
after it, which is that of the last assignment to this very name.
-/

namespace Verif

/-- One assignment, with literal names and values. -/
inductive Setting where
  /-- `SetLaunchConfiguration(k, v)` -/
  | conf (k v : String)
  /-- `UnsetLaunchConfiguration(k)` -/
  | unconf (k : String)
  /-- `SetEnvironmentVariable(k, v)` -/
  | env (k v : String)
  /-- `UnsetEnvironmentVariable(k)` -/
  | unenv (k : String)

namespace Setting

/-- The action that makes the assignment. -/
def action (id : ActId) : Setting → Entity
  | conf k v => .act id none (.setLC [.text k] [.text v])
  | unconf k => .act id none (.unsetLC [.text k])
  | env k v => .act id none (.setEnv [.text k] [.text v])
  | unenv k => .act id none (.unsetEnv [.text k])

/-- What the assignment says about the launch configuration `x`: nothing, or its new value. -/
def saysConf (x : String) : Setting → Option (Option String)
  | conf k v => if k = x then some (some v) else none
  | unconf k => if k = x then some none else none
  | _ => none

/-- What the assignment says about the environment variable `x`. -/
def saysEnv (x : String) : Setting → Option (Option String)
  | env k v => if k = x then some (some v) else none
  | unenv k => if k = x then some none else none
  | _ => none

end Setting

/-- The last thing said in a history, if anything is. -/
def lastSaid (says : Setting → Option (Option String)) (ss : List Setting) : Option (Option String) :=
  ss.reverse.findSome? says

/-- The configurations `d'` are those of `d`, except possibly for the name `x`, and for the names
`anon…` under which AnonName substitutions remember the names they made. -/
def SameConfigs (x : Option String) (d d' : Dict String) : Prop :=
  ∀ k, some k ≠ x → d'.get? k = d.get? k ∨ (d.get? k = none ∧ ∃ n : String, k = "anon" ++ n)

end Verif
