import Verif.Py.Value

/-!
# Event handlers for the events of actions, process matchers, and opaque coroutines

launch/launch/event_handlers/on_action_event_base.py and its subclasses, launch/launch/event_handler.py (`EventHandler`),
launch/launch/events/process/process_matchers.py, launch/launch/events/matchers.py, launch/launch/actions/opaque_coroutine.py.
-/

namespace Verif

/-- The classes of actions that matter here; an action of a user-defined class counts as one of its nearest base class
(actions/execute_local.py:77, actions/execute_process.py:37). -/
inductive ActClass where
  | action
  | executeLocal
  | executeProcess
  deriving DecidableEq, Repr

/-- `issubclass` on these classes. -/
def ActClass.isA : ActClass → ActClass → Bool
  | _, .action => true
  | .executeLocal, .executeLocal => true
  | .executeProcess, .executeLocal => true
  | .executeProcess, .executeProcess => true
  | _, _ => false

/-- An action object: its identity and class. -/
structure ActObj where
  id : Nat
  cls : ActClass
  deriving DecidableEq, Repr

/-- Events with an action (launch/launch/events/process/running_process_event.py:28-57, process_io.py:20-39, process_exited.py:20-40,
events/execution_complete.py:20-33), and other events.  A ProcessIO event carries a file descriptor and a text. -/
inductive ActEvent where
  | started (a : ActObj)
  | exited (a : ActObj) (code : Int)
  | io (a : ActObj) (fd : Int) (text : String)
  | complete (a : ActObj)
  | other (n : Nat)
  deriving DecidableEq, Repr

/-- The classes of these events. -/
inductive EvClass where
  | started
  | exited
  | io
  | complete
  deriving DecidableEq, Repr

/-- `isinstance(event, target_event_cls)` -/
def ActEvent.isInstance : ActEvent → EvClass → Bool
  | .started _, .started => true
  | .exited _ _, .exited => true
  | .io _ _ _, .io => true
  | .complete _, .complete => true
  | _, _ => false

/-- `event.action`; events without this attribute raise AttributeError. -/
def ActEvent.action : ActEvent → Res ActObj
  | .started a => .ok a
  | .exited a _ => .ok a
  | .io a _ _ => .ok a
  | .complete a => .ok a
  | .other _ => .error .attributeError

/-- The argument `action_matcher`: None, an action (with its `__call__`, should its class have one), a callable, or something else. -/
inductive ActionMatcher where
  | none
  | action (a : ActObj) (call : Option (ActObj → Res Bool))
  | callable (f : ActObj → Res Bool)
  | other

/-- `callable(action_matcher)`, with what it does. -/
def ActionMatcher.call : ActionMatcher → Option (ActObj → Res Bool)
  | .action _ c => c
  | .callable f => some f
  | _ => Option.none

/-- An item of a list of entities, or what is given instead of one; `bad`: an object that is neither None nor an entity. -/
inductive Item (α : Type) where
  | entity (x : α)
  | pyNone
  | bad
  deriving DecidableEq, Repr

/-- What a handler returns to the service: one object, or an iterable of objects. -/
inductive Ret (α : Type) where
  | one (x : Item α)
  | many (l : List (Item α))
  deriving DecidableEq, Repr

/-- The argument `on_event`: a callable; an iterable that can be traversed again (a list, a tuple); an iterator, which can be traversed once
(a generator); or a single object.  Entities are not iterable. -/
inductive OnEvent (α : Type) where
  | callable (f : ActEvent → Res (Ret α))
  | iterable (l : List (Item α))
  | iterator (l : List (Item α))
  | single (x : Item α)

/-- An `OnActionEventBase`: the arguments its matcher closes over, `__actions_on_event`, and `__on_event` (`none`: the attribute does not
exist), on_action_event_base.py:72-104. -/
structure OnAction (α : Type) where
  evCls : EvClass
  actCls : ActClass
  matcher : ActionMatcher
  actions : List (Item α)
  fn : Option (ActEvent → Res (Ret α))

/-- Is this an entity? -/
def Item.isEntity {α : Type} : Item α → Bool
  | .entity _ => true
  | _ => false

/-- `isinstance(action_matcher, (target_action_cls, type(None))) or callable(action_matcher)`, on_action_event_base.py:65-68. -/
def ActionMatcher.accepted (m : ActionMatcher) (actCls : ActClass) : Bool :=
  match m with
  | .none => true
  | .action a c => a.cls.isA actCls || c.isSome
  | .callable _ => true
  | .other => false

/-- `OnActionEventBase.__init__`, on_action_event_base.py:40-104.  (`target_event_cls` is always a class of events here, lines 63-64.)
The loop at lines 97-101 traverses the iterable, so that nothing is left of an iterator at line 102. -/
def OnAction.make {α : Type} (evCls : EvClass) (actCls : ActClass) (m : ActionMatcher) (on : OnEvent α) : Res (OnAction α) :=
  if m.accepted actCls then
    match on with
    | .callable f => .ok ⟨evCls, actCls, m, [], some f⟩
    | .iterable l => if l.all Item.isEntity then .ok ⟨evCls, actCls, m, l, none⟩ else .error .typeError
    | .iterator l => if l.all Item.isEntity then .ok ⟨evCls, actCls, m, [], none⟩ else .error .typeError
    | .single x => .ok ⟨evCls, actCls, m, [x], none⟩
  else .error .typeError

/-- `event_matcher`, on_action_event_base.py:76-84. -/
def OnAction.matchesEvent {α : Type} (h : OnAction α) (e : ActEvent) : Res Bool :=
  if !e.isInstance h.evCls then .ok false
  else
    match h.matcher.call with
    | some f => e.action.bind f
    | none =>
      match h.matcher with
      | .action a _ => if a.cls.isA h.actCls then e.action.map (fun b => b.id == a.id) else .error .assertionError
      | .none => .ok true
      | _ => .error .assertionError

/-- `handle`, on_action_event_base.py:106-112.  What `BaseEventHandler.handle` does is modelled in Model/Service.lean. -/
def OnAction.handle {α : Type} (h : OnAction α) (e : ActEvent) : Res (Ret α) :=
  if h.actions ≠ [] then .ok (.many h.actions)
  else
    match h.fn with
    | some f => f e
    | none => .error .attributeError

/-- event_handlers/on_process_exit.py:43-69 -/
def onProcessExit {α : Type} (target : ActionMatcher) (on : OnEvent α) : Res (OnAction α) := OnAction.make .exited .executeLocal target on

/-- event_handlers/on_process_start.py:42-66 -/
def onProcessStart {α : Type} (target : ActionMatcher) (on : OnEvent α) : Res (OnAction α) := OnAction.make .started .executeProcess target on

/-- event_handlers/on_execution_complete.py:39-63 -/
def onExecutionComplete {α : Type} (target : ActionMatcher) (on : OnEvent α) : Res (OnAction α) := OnAction.make .complete .action target on

/-- The function `handle` of OnProcessIO, event_handlers/on_process_io.py:52-60, with `from_stdout` etc. of process_io.py:37-39. -/
def ioDispatch {α : Type} (onStdin onStdout onStderr : Option (ActEvent → Res (Ret α))) (e : ActEvent) : Res (Ret α) :=
  match e with
  | .io _ fd _ =>
    match decide (fd = 1), onStdout with
    | true, some f => f e
    | _, _ =>
      match decide (fd = 2), onStderr with
      | true, some f => f e
      | _, _ =>
        match decide (fd = 0), onStdin with
        | true, some f => f e
        | _, _ => .ok (.one .pyNone)
  | _ => .error .attributeError

/-- event_handlers/on_process_io.py:39-68 -/
def onProcessIO {α : Type} (target : ActionMatcher) (onStdin onStdout onStderr : Option (ActEvent → Res (Ret α))) : Res (OnAction α) :=
  OnAction.make .io .executeLocal target (.callable (ioDispatch onStdin onStdout onStderr))

/-- The entities the service visits for what a handler returned, launch_service.py:240-250: None is skipped and anything else that
is not an entity raises RuntimeError when its turn comes.  The entities before it were visited. -/
def visited {α : Type} : Ret α → List α × Res Unit
  | .one x => go [x]
  | .many l => go l
where
  go : List (Item α) → List α × Res Unit
    | [] => ([], .ok ())
    | .entity x :: l => ((x :: (go l).1), (go l).2)
    | .pyNone :: l => go l
    | .bad :: _ => ([], .error .runtimeError)

/-! ## Descriptions of event handlers -/

/-- The argument `entities` of EventHandler, event_handler.py:106-125. -/
inductive HandlerEntities (α : Type) where
  | none
  | single (x : α)
  | list (l : List α)
  deriving DecidableEq, Repr

/-- The entities of `EventHandler.describe`, event_handler.py:132-137: `list.extend` of an entity raises TypeError.
(Objects of classes that define `__len__` or `__bool__` are not considered.) -/
def HandlerEntities.described {α : Type} : HandlerEntities α → Res (List α)
  | .none => .ok []
  | .single _ => .error .typeError
  | .list l => .ok l

/-- The entities of `OnActionEventBase.describe`, on_action_event_base.py:114-119. -/
def OnAction.described {α : Type} (h : OnAction α) : List (Item α) := h.actions

/-! ## Process matchers -/

/-- `process_details`, execute_local.py:629-636; `pid` is added by `connection_made`, execute_local.py:536. -/
structure Details where
  name : String
  cmd : List String
  pid : Option Nat
  deriving DecidableEq, Repr

/-- What happens to `process_details` of an action: `prepare` (execute_local.py:624-638) is called, with the name and the command
it yields; the coroutine that starts a process begins (lines 543-546, it keeps the dictionary it finds); a process is started (line 536). -/
inductive DetailsStep where
  | prepare (name : String) (cmd : List String)
  | begin
  | connect (pid : Nat)
  deriving DecidableEq, Repr

/-- The dictionaries `process_details` made so far, and the one the coroutine uses. -/
structure DetailsSt where
  made : List Details := []
  used : Option Nat := none
  deriving DecidableEq, Repr

/-- One step. -/
def DetailsSt.step (s : DetailsSt) : DetailsStep → DetailsSt
  | .prepare n c => { s with made := s.made ++ [⟨n, c, none⟩] }
  | .begin => { s with used := if s.made = [] then none else some (s.made.length - 1) }
  | .connect p =>
    match s.used with
    | some k => { s with made := s.made.modify k fun d => { d with pid := some p } }
    | none => s

/-- After a history. -/
def DetailsSt.run (l : List DetailsStep) : DetailsSt := l.foldl DetailsSt.step {}

/-- `process_details`: the dictionary of the latest `prepare`; None before. -/
def DetailsSt.current (s : DetailsSt) : Option Details := s.made.getLast?

/-- `matches_pid`, process_matchers.py:25-33: None does not match; a dictionary without `pid` raises KeyError. -/
def matchesPid (pid : Nat) : Option Details → Res Bool
  | none => .ok false
  | some d =>
    match d.pid with
    | some p => .ok (p == pid)
    | none => .error .keyError

/-- `matches_name`, process_matchers.py:36-44. -/
def matchesName (name : String) : Option Details → Res Bool
  | none => .ok false
  | some d => .ok (d.name == name)

/-- `matches_executable`, process_matchers.py:47-61; an empty command raises IndexError. -/
def matchesExecutable (executable : String) : Option Details → Res Bool
  | none => .ok false
  | some d =>
    match d.cmd with
    | [] => .error .indexError
    | x :: _ => .ok (executable.toList.isSuffixOf x.toList)

/-- `matches_action`, events/matchers.py:22-24; actions are compared by identity (Action defines no `__eq__`). -/
def matchesAction (target a : ActObj) : Bool := a.id == target.id

/-! ## OpaqueCoroutine -/

/-- A task of the event loop. -/
inductive CoTask where
  | running
  | cancelled
  | finished
  deriving DecidableEq, Repr

/-- An OpaqueCoroutine action: `current` is `__future` (opaque_coroutine.py:94), `tasks` the tasks it made so far, `handlers` how many
OnShutdown handlers it registered. -/
structure CoAct where
  tasks : List CoTask := []
  current : Option Nat := none
  handlers : Nat := 0
  deriving DecidableEq, Repr

/-- What can happen. -/
inductive CoLabel where
  /-- the action is executed -/
  | execute
  /-- the coroutine of a task returns or raises by itself -/
  | finish (k : Nat)
  /-- a Shutdown event is handled -/
  | shutdown
  deriving DecidableEq, Repr

/-- `Future.cancel`: no effect on a task that ended. (The coroutine may still catch the CancelledError; that is not considered.) -/
def CoTask.cancel : CoTask → CoTask
  | .running => .cancelled
  | t => t

/-- `__on_shutdown`, opaque_coroutine.py:96-100 -/
def CoAct.onShutdown (a : CoAct) : CoAct :=
  match a.current with
  | some k => { a with tasks := a.tasks.modify k CoTask.cancel }
  | none => a

/-- `execute` (opaque_coroutine.py:102-113) and the handling of a Shutdown event by the handlers registered there. -/
def CoAct.step (a : CoAct) : CoLabel → CoAct
  | .execute => { tasks := a.tasks ++ [.running], current := some a.tasks.length, handlers := a.handlers + 1 }
  | .finish k => { a with tasks := a.tasks.modify k fun t => if t = .running then .finished else t }
  | .shutdown => (List.replicate a.handlers ()).foldl (fun a _ => a.onShutdown) a

/-- After a history. -/
def CoAct.run (l : List CoLabel) : CoAct := l.foldl CoAct.step {}

end Verif
