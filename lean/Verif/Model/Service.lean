import Verif.Model.Visit

/-!
# LaunchService

launch/launch/launch_service.py and launch/launch/event_handler.py.

The run loop, the task that processes one event, other threads, signals and the completion of futures are
the labels of a transition system.  What asyncio executes without interruption is one step: the processing
of one event contains no suspension point (`__process_event` awaits nothing, and `put` on the unbounded
queue does not suspend).

Not modelled: `KeyboardInterrupt` raised in user code, the deprecated Python 3.6 paths, the task left over
after a cancelled run, the deadlocks of calling `emit_event` in the loop's own thread.
-/

namespace Verif

/-- The service's OnIncludeLaunchDescription handler, launch_service.py:78. -/
def includeHandler : Nat := 0

/-- The service's OnShutdown handler, launch_service.py:79. -/
def shutdownHandler : Nat := 1

/-- `is_a_subclass(event, Shutdown)`, on_shutdown.py:51. -/
def Event.isShutdown : Event → Bool
  | .shutdown _ _ => true
  | _ => false

/-- `is_a_subclass(event, IncludeLaunchDescription)`, on_include_launch_description.py:32. -/
def Event.isInclude : Event → Bool
  | .includeDesc _ => true
  | _ => false

/-- The user's program together with the two handlers of the service (identities 0 and 1) and the
OpaqueFunction of the first one (function 0), launch_service.py:78-79,
on_include_launch_description.py:28-37.  The user's own handlers are numbered from 2, functions from 1. -/
def Prog.withService (P : Prog) : Prog :=
  { P with
    matchesEv := fun h e =>
      if h = includeHandler then e.isInclude
      else if h = shutdownHandler then e.isShutdown
      else P.matchesEv h e
    once := fun h => if h = includeHandler ∨ h = shutdownHandler then false else P.once h
    callback := fun h e c =>
      if h = includeHandler then { result := .ok [.act .builtin none (.custom 0 [] [])] }
      else if h = shutdownHandler then {}
      else P.callback h e c
    fn := fun n c =>
      if n = 0 then
        match c.locals.getCombined.1.get? "event" with
        | some (.event (.includeDesc d)) => { result := .ok [.desc (P.description d)] }
        | _ => { result := .error .attributeError }
      else P.fn n c }

/-- What the processing of an event can change.  `calls` is a ghost field: the callbacks run so far. -/
structure Proc where
  ctx : Ctx
  pairs : List Fut := []
  shutting : Bool := false
  calls : List (Event × Nat) := []

/-- Visiting the entities returned by a handler, launch_service.py:240-250.  That a returned object is no
entity is not modelled. -/
def visitEach (P : Prog) (O : Oracle) (fuel : Nat) : List Entity → Proc → Option (Proc × Res Unit)
  | [], s => some (s, .ok ())
  | e :: es, s =>
    match visit P O fuel e s.ctx with
    | none => none
    | some (c, .error err) => some ({ s with ctx := c }, .error err)
    | some (c, .ok fs) => visitEach P O fuel es { s with ctx := c, pairs := s.pairs ++ fs }

/-- `BaseEventHandler.handle`, event_handler.py:92-102: the locals are extended, then a handler for one
event unregisters itself. -/
def baseHandle (P : Prog) (ev : Event) (h : Nat) (c : Ctx) : Ctx × Res Unit :=
  let c1 := { c with locals := c.locals.extendLocals [("event", .event ev)] }
  if P.once h then c1.unregisterHandler h else (c1, .ok ())

/-- The rest of `handle` of a handler: its callback is run.  For the service's own OnShutdown handler that
is `__on_shutdown`, launch_service.py:387-390. -/
def runCallback (P : Prog) (ev : Event) (h : Nat) (s : Proc) : Proc × Res (List Entity) :=
  let own := h = shutdownHandler
  let c := if own then { s.ctx with isShutdown := true } else s.ctx
  ({ ctx := Entity.applyEffects none c (P.callback h ev c).effects
     pairs := s.pairs
     shutting := s.shutting || own
     calls := s.calls ++ [(ev, h)] }, (P.callback h ev c).result)

/-- One pass of the loop over the handlers, launch_service.py:234-251. -/
def handleOne (P : Prog) (O : Oracle) (fuel : Nat) (ev : Event) (h : Nat) (s : Proc) :
    Option (Proc × Res Unit) :=
  match baseHandle P ev h { s.ctx with locals := s.ctx.locals.push } with
  | (c, .error err) => some ({ s with ctx := c }, .error err)
  | (c, .ok ()) =>
    match runCallback P ev h { s with ctx := c } with
    | (s1, .error err) => some (s1, .error err)
    | (s1, .ok es) =>
      match visitEach P O fuel es s1 with
      | none => none
      | some (s2, .error err) => some (s2, .error err)
      | some (s2, .ok ()) =>
        match s2.ctx.locals.pop with
        | .error err => some (s2, .error err)
        | .ok l => some ({ s2 with ctx := { s2.ctx with locals := l } }, .ok ())

/-- The loop over the handlers, launch_service.py:234-257. -/
def handleAll (P : Prog) (O : Oracle) (fuel : Nat) (ev : Event) : List Nat → Proc →
    Option (Proc × Res Unit)
  | [], s => some (s, .ok ())
  | h :: hs, s =>
    if P.matchesEv h ev then
      match handleOne P O fuel ev h s with
      | none => none
      | some (s1, .error err) => some (s1, .error err)
      | some (s1, .ok ()) => handleAll P O fuel ev hs s1
    else handleAll P O fuel ev hs s

/-- `__process_event`, launch_service.py:232-257: a copy of the handlers is iterated. -/
def processEvent (P : Prog) (O : Oracle) (fuel : Nat) (ev : Event) (s : Proc) :
    Option (Proc × Res Unit) :=
  handleAll P O fuel ev s.ctx.handlers s

/-- How a future ended. -/
inductive FutRes where
  | ok
  | failed
  | cancelled
  deriving DecidableEq, Repr

/-- The task that processes one event: absent, running, or done (successfully or not). -/
inductive Task where
  | absent
  | pending
  | done (ok : Bool)
  deriving DecidableEq, Repr

/-- Where `run_async` is: not running, at the head of its loop, waiting for these futures and the
task, or after the loop. -/
inductive Pc where
  | off
  | top
  | waiting (fs : List Nat)
  | ending
  deriving DecidableEq, Repr

/-- A call of `shutdown()` in another thread: none, the emission is scheduled in the loop, or the event
was emitted and the flags are about to be set (launch_service.py:392-434).  The thread holds the
lock all the time. -/
inductive Stage where
  | no
  | scheduled
  | emitted
  deriving DecidableEq, Repr

/-- State of the service.  `loop`: `__loop_from_run_thread` is set; `rc`: the return code is 1;
`fin`: futures that are done; `coros`: coroutines returned by `shutdown()` in the loop's thread that were not
awaited yet; `result`: return code of the last finished run.
Ghost fields: `calls`, `handled` (events taken from the queue), `collected` (all futures collected by
visiting), `own` (number of Shutdown events emitted by the service in this run), `evFailed`, `loopFailed`,
`wasCancelled` (in this run an event's processing raised, the loop's exception handler was called,
the run's task was cancelled). -/
structure Svc where
  ctx : Ctx
  loop : Bool := false
  pc : Pc := .off
  shutting : Bool := false
  whenIdle : Bool := false
  rc : Bool := false
  sigint : Bool := false
  pairs : List Fut := []
  fin : List (Nat × FutRes) := []
  task : Task := .absent
  coros : Nat := 0
  stage : Stage := .no
  result : Option Bool := none
  calls : List (Event × Nat) := []
  handled : List Event := []
  collected : List Fut := []
  own : Nat := 0
  evFailed : Bool := false
  loopFailed : Bool := false
  wasCancelled : Bool := false

/-- `LaunchService.__init__`, launch_service.py:77-96, for an environment of the process. -/
def Svc.init (env : Dict String) : Svc :=
  { ctx := (({ env := env, envReset := env } : Ctx).registerHandler includeHandler false).registerHandler
      shutdownHandler false }

namespace Svc

/-- `future.done()`. -/
def isDone (s : Svc) (f : Nat) : Bool := (s.fin.lookup f).isSome

/-- `_prune_and_count_entity_future_pairs` and `_prune_and_count_context_completion_futures`,
launch_service.py:128-146. -/
def prune (s : Svc) : Svc :=
  { s with
    pairs := s.pairs.filter fun p => !s.isDone p.2
    ctx := { s.ctx with completion := s.ctx.completion.filter fun f => !s.isDone f } }

/-- `_is_idle` of a pruned state, launch_service.py:148-151. -/
def isIdle (s : Svc) : Bool :=
  s.pairs.length + s.ctx.completion.length == 0 && s.ctx.queue.isEmpty

/-- Both flags are set, launch_service.py:412-413. -/
def setFlags (s : Svc) : Svc :=
  { s with shutting := true, ctx := { s.ctx with isShutdown := true } }

/-- The service emits its Shutdown event, launch_service.py:396, 404-411. -/
def emitShutdown (reason : String) (sigint : Bool) (s : Svc) : Svc :=
  { s with ctx := s.ctx.emit (.shutdown reason sigint), own := s.own + 1 }

/-- `_shutdown` in the loop's thread, whose coroutine (if any) is awaited at once,
launch_service.py:392-414. -/
def request (reason : String) (sigint : Bool) (s : Svc) : Svc :=
  (if s.shutting then s else s.emitShutdown reason sigint).setFlags

/-- `new_queue.put_nowait(old_queue.get_nowait())` until the old queue is empty,
launch_service.py:169-176. -/
def moveQueue : List Event → List Event → List Event
  | [], new => new
  | e :: old, new => moveQueue old (new ++ [e])

/-- Beginning of `run_async`: `_prepare_run_loop`, launch_service.py:154-188, 269-287.  If the loop is
set already, RuntimeError is raised, and the `finally` part (lines 221-226) is executed nevertheless: it
unsets the loop and the flag of the run in progress. -/
def start (whenIdle : Bool) (s : Svc) : Svc :=
  if s.loop then { s with loop := false, shutting := false }
  else
    { s with
      loop := true, pc := .top, whenIdle := whenIdle, rc := false, sigint := false, task := .absent
      ctx := { s.ctx with queue := moveQueue s.ctx.queue [] }
      own := 0, evFailed := false, loopFailed := false, wasCancelled := false }

/-- The head of the loop up to the wait, launch_service.py:288-323. -/
def check (s0 : Svc) : Svc :=
  let s := s0.prune
  if !s.shutting && s.whenIdle && s.isIdle then s.request "idle" false
  else if s.shutting && s.isIdle then { s with task := .absent, pc := .ending }
  else
    { s with
      task := .pending
      pc := .waiting (if s.ctx.queue.isEmpty then s.pairs.map (·.2) ++ s.ctx.completion else []) }

/-- `_process_one_event`, launch_service.py:228-257, run by the task once the queue has an event. -/
def process (P : Prog) (O : Oracle) (fuel : Nat) (s : Svc) : Option Svc :=
  match s.ctx.queue with
  | [] => none
  | e :: q =>
    match processEvent P.withService O fuel e
        { ctx := { s.ctx with queue := q }, pairs := s.pairs, shutting := s.shutting, calls := s.calls } with
    | none => none
    | some (p, r) =>
      let ok := match r with | .ok _ => true | .error _ => false
      some { s with
        ctx := p.ctx, pairs := p.pairs, shutting := p.shutting, calls := p.calls
        handled := s.handled ++ [e]
        collected := s.collected ++ p.pairs.drop s.pairs.length
        task := .done ok, evFailed := s.evFailed || !ok }

/-- The wait ended: the completed futures are looked at, launch_service.py:325-361.  `exception()` of a
cancelled future raises CancelledError, which ends the loop; any other exception requests shutdown. -/
def wake (fs : List Nat) (s : Svc) : Option Svc :=
  let ends := fs.filterMap fun f => s.fin.lookup f
  if ends.isEmpty && s.task = .pending then none
  else if .cancelled ∈ ends then some { s with rc := true, pc := .ending }
  else if .failed ∈ ends || s.task = .done false then
    some { s.request "Caught exception in launch" false with rc := true, pc := .top }
  else some { s with pc := .top }

end Svc

/-- What can happen. -/
inductive Label where
  /-- `run`/`run_async` is called -/
  | start (whenIdle : Bool)
  /-- the run loop runs up to its wait -/
  | check
  /-- the task processes one event; `fuel` bounds the depth of visiting -/
  | process (fuel : Nat)
  /-- the run loop's wait ends -/
  | wake
  /-- the run's task is cancelled (SIGTERM, SIGQUIT, or by the user) -/
  | cancel
  /-- SIGINT -/
  | sigint
  /-- `shutdown()` is called in the loop's thread -/
  | shutdownLoop
  /-- `shutdown(force_sync=True)` is called in the loop's thread -/
  | shutdownSync
  /-- the coroutine returned by `shutdown()` is awaited -/
  | awaitShutdown
  /-- `shutdown()` is called in another thread: it gets the lock and looks at the flag -/
  | threadShutdown
  /-- its emission is run by the loop -/
  | threadEmit
  /-- it sets the flags and releases the lock -/
  | threadFlags
  /-- `run_async` returns -/
  | finish
  /-- an event is emitted by the user (through the service or the context) outside the
  processing of an event -/
  | emit (e : Event)
  /-- a future gets its result -/
  | futureDone (f : Nat) (r : FutRes)
  /-- the done-callback of an asynchronous action runs -/
  | callback (i : Nat)
  /-- the loop's exception handler is called -/
  | loopException
  deriving DecidableEq, Repr

/-- Is the loop executing something else than `run_async`? -/
def Pc.isWaiting : Pc → Bool
  | .waiting _ => true
  | _ => false

/-- One step; `none` when the label is not enabled. -/
def Svc.step (P : Prog) (O : Oracle) (s : Svc) : Label → Option Svc
  -- a second run can only be attempted by code the loop executes while the first one waits
  | .start w => if s.pc = .off || (s.loop && s.pc.isWaiting) then some (s.start w) else none
  | .check => if s.pc = .top then some s.check else none
  | .process fuel => if s.pc.isWaiting && s.task = .pending then s.process P O fuel else none
  | .wake =>
    match s.pc with
    | .waiting fs => s.wake fs
    | _ => none
  -- launch_service.py:204-211, 347-350
  | .cancel =>
    if s.pc.isWaiting then some { s with rc := true, pc := .ending, wasCancelled := true } else none
  -- launch_service.py:191-202
  | .sigint =>
    if s.pc.isWaiting then
      some (if s.sigint then s else { s.request "ctrl-c (SIGINT)" true with sigint := true })
    else none
  -- launch_service.py:416-434; the lock must be free
  | .shutdownLoop =>
    if s.stage = .no && s.pc ≠ .ending then
      some (if s.loop then (if s.shutting then s else { s with coros := s.coros + 1 }).setFlags else s)
    else none
  -- launch_service.py:404-405, 416-434: the event is emitted at once
  | .shutdownSync =>
    if s.stage = .no && s.pc ≠ .ending then
      some (if s.loop then s.request "LaunchService.shutdown() called" false else s)
    else none
  | .awaitShutdown =>
    if s.coros = 0 || s.pc = .ending then none
    else some { s.emitShutdown "LaunchService.shutdown() called" false with coros := s.coros - 1 }
  | .threadShutdown =>
    if s.stage = .no then
      some (if s.loop then (if s.shutting then s.setFlags else { s with stage := .scheduled }) else s)
    else none
  | .threadEmit =>
    if s.stage = .scheduled && s.pc.isWaiting then
      some { s.emitShutdown "LaunchService.shutdown() called" false with stage := .emitted }
    else none
  | .threadFlags => if s.stage = .emitted then some { s.setFlags with stage := .no } else none
  -- launch_service.py:221-226, 362; the lock must be free
  | .finish =>
    if s.pc = .ending && s.stage = .no then
      some { s with pc := .off, loop := false, shutting := false, result := some s.rc }
    else none
  -- launch_service.py:98-118
  | .emit e => if s.pc = .ending then none else some { s with ctx := s.ctx.emit e }
  | .futureDone f r => if s.isDone f then none else some { s with fin := (f, r) :: s.fin }
  -- action.py:116-118
  | .callback i =>
    match s.ctx.onDone[i]? with
    | none => none
    | some (f, a) =>
      if s.isDone f && s.pc ≠ .ending then
        some { s with ctx := { (s.ctx.emit (.executionComplete a)) with onDone := s.ctx.onDone.eraseIdx i } }
      else none
  -- launch_service.py:281-285
  | .loopException => if s.pc.isWaiting then some { s with rc := true, loopFailed := true } else none

/-- A sequence of steps. -/
def Svc.steps (P : Prog) (O : Oracle) : Svc → List Label → Option Svc
  | s, [] => some s
  | s, l :: ls =>
    match s.step P O l with
    | none => none
    | some s1 => Svc.steps P O s1 ls

end Verif
