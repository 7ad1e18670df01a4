import Verif.Model.Cond

/-!
# Launch description entities

Syntax of launch descriptions after construction.
-/

namespace Verif

mutual

/-- An entity: a launch description (launch_description.py:52-59) or an action (action.py:40-57). -/
inductive Entity where
  | desc (entities : List Entity)
  | act (id : ActId) (cond : Option Cond) (kind : ActKind)

/-- Kinds of actions, launch/launch/actions/*.py. -/
inductive ActKind where
  /-- actions/set_launch_configuration.py -/
  | setLC (name value : List Sub)
  /-- actions/unset_launch_configuration.py -/
  | unsetLC (name : List Sub)
  /-- actions/push_launch_configurations.py -/
  | pushLC
  /-- actions/pop_launch_configurations.py -/
  | popLC
  /-- actions/reset_launch_configurations.py; `none` is the argument None -/
  | resetLC (keep : Option (List (List Sub × List Sub)))
  /-- actions/set_environment_variable.py -/
  | setEnv (name value : List Sub)
  /-- actions/unset_environment_variable.py -/
  | unsetEnv (name : List Sub)
  /-- actions/append_environment_variable.py -/
  | appendEnv (name value : List Sub) (prepend : Bool ⊕ List Sub) (separator : List Sub)
  /-- actions/push_environment.py -/
  | pushEnv
  /-- actions/pop_environment.py -/
  | popEnv
  /-- actions/reset_environment.py -/
  | resetEnv
  /-- actions/group_action.py; `configs` are the items of the dictionary in order -/
  | group (isScoped forwarding : Bool) (configs : List (List Sub × List Sub)) (actions : List Entity)
  /-- actions/include_launch_description.py; the number names the source -/
  | includeLD (src : Nat) (args : List (List Sub × List Sub))
  /-- actions/declare_launch_argument.py -/
  | declareArg (name : String) (default : Option (List Sub)) (choices : Option (List String))
  /-- actions/log_info.py -/
  | logInfo (msg : List Sub)
  /-- actions/emit_event.py and actions/shutdown_action.py -/
  | emitEvent (e : Event)
  /-- actions/register_event_handler.py; `described` are the entities the handler describes, `none` for a handler
  whose `describe` raises TypeError (`EventHandler(entities=action)` with a single action and no list,
  event_handler.py:141-158: the attribute holds the action itself, which has no `len`) -/
  | registerHandler (h : Nat) (described : Option (List Entity))
  /-- actions/unregister_event_handler.py -/
  | unregisterHandler (h : Nat)
  /-- any other action (OpaqueFunction, OpaqueCoroutine, TimerAction, ExecuteProcess, user-defined
  actions); `fn` names what it does, `subs` is what its `get_sub_entities` returns (the list given as `on_exit`
  of a process, execute_local.py:262-265), `described` are the conditional sub-entities it describes by overriding
  `describe_conditional_sub_entities` (the actions of a timer, timer_action.py:132-137) -/
  | custom (fn : Nat) (subs described : List Entity)

end

instance : Inhabited Entity := ⟨.desc []⟩

/-- What user code does to the context, in order, through the public interface.  User code can neither push nor
pop scopes or locals (those methods are private); it modifies the launch configurations and the
environment, extends locals and globals, emits events, (un)registers handlers, creates its own future
(asynchronous actions) and adds completion futures.  An action may keep a copy of the locals
(timer_action.py:193; filling the cache of the combined locals, launch_context.py:133-137, is left out). -/
inductive Effect where
  | setLC (k v : String)
  | unsetLC (k : String)
  | setEnv (k v : String)
  | unsetEnv (k : String)
  | extendLocals (d : Dict LVal)
  | extendGlobals (d : Dict LVal)
  | emit (e : Event)
  | register (h : Nat) (append : Bool)
  | unregister (h : Nat)
  | newFuture
  | addCompletion (f : Nat)
  | capture
  deriving DecidableEq, Repr

/-- What a piece of user code does when it runs in a given context: its effects, then the entities
it returns or the exception it raises. -/
structure Resp where
  effects : List Effect := []
  result : Res (List Entity) := .ok []

/-- A launch description source, launch_description_source.py:34-56: its location and the loader (`load` is
the method `_get_launch_description`; a preset description is a constant loader). -/
structure Source where
  location : List Sub
  load : String → Res (List Entity)

/-- Everything the user of the library supplies. -/
structure Prog where
  /-- user-supplied condition predicates -/
  preds : Nat → Ctx → Res Bool := fun _ _ => .ok false
  /-- what custom actions do -/
  fn : Nat → Ctx → Resp := fun _ _ => {}
  /-- what event handlers match -/
  matchesEv : Nat → Event → Bool := fun _ _ => false
  /-- what event handlers do -/
  callback : Nat → Event → Ctx → Resp := fun _ _ _ => {}
  /-- which event handlers were created with `handle_once=True` -/
  once : Nat → Bool := fun _ => false
  /-- launch description sources -/
  source : Nat → Source := fun _ => ⟨[], fun _ => .error .runtimeError⟩
  /-- `os.path.abspath(location)` and the directory reported for it,
  include_launch_description.py:113-124 -/
  launchFile : String → String × String := fun l => (l, l)
  /-- the launch descriptions carried by IncludeLaunchDescription events -/
  description : Nat → List Entity := fun _ => []

namespace Entity

/-- Apply one effect; `self` is the action that runs, if any. -/
def applyEffect (self : Option ActId) (c : Ctx) : Effect → Ctx
  | .setLC k v => c.lcSet k v
  | .unsetLC k => { c with lc := c.lc.erase k }
  | .setEnv k v => (c.envSet k v).1
  | .unsetEnv k => { c with env := c.env.erase k }
  | .extendLocals d => { c with locals := c.locals.extendLocals d }
  | .extendGlobals d => { c with locals := c.locals.extendGlobals d }
  | .emit e => c.emit e
  | .register h a => c.registerHandler h a
  | .unregister h => (c.unregisterHandler h).1
  | .newFuture =>
    match self with
    | some a => { c with futures := (a, c.nextFut) :: c.futures, nextFut := c.nextFut + 1 }
    | none => c
  | .addCompletion f => { c with completion := c.completion ++ [f] }
  | .capture =>
    match self with
    | some a => { c with captured := (a, c.locals.getCombined.1) :: c.captured }
    | none => c

/-- Apply effects in order. -/
def applyEffects (self : Option ActId) (c : Ctx) (es : List Effect) : Ctx :=
  es.foldl (applyEffect self) c

/-- The SetLaunchConfiguration actions of a group or an include (group_action.py:114-116,
include_launch_description.py:180-182); helper actions get identities from `k` on. -/
def setActions (id : ActId) (k : Nat) : List (List Sub × List Sub) → List Entity
  | [] => []
  | (n, v) :: rest => .act (.derived id k) none (.setLC n v) :: setActions id (k + 1) rest

/-- `GroupAction.get_sub_entities`, group_action.py:110-142.  The list is cached there, so the helper
actions are the same objects at every execution. -/
def groupSubEntities (id : ActId) (isScoped forwarding : Bool) (configs : List (List Sub × List Sub))
    (actions : List Entity) : List Entity :=
  if isScoped then
    if forwarding then
      [.act (.derived id 0) none .pushLC, .act (.derived id 1) none .pushEnv]
        ++ setActions id 4 configs ++ actions ++
      [.act (.derived id 2) none .popEnv, .act (.derived id 3) none .popLC]
    else
      [.act (.derived id 0) none .pushLC, .act (.derived id 1) none .pushEnv,
       .act (.derived id 4) none .resetEnv, .act (.derived id 5) none (.resetLC (some configs))]
        ++ actions ++
      [.act (.derived id 2) none .popEnv, .act (.derived id 3) none .popLC]
  else
    setActions id 4 configs ++ actions

end Entity
end Verif
