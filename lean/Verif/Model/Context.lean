import Verif.Model.Oracle

/-!
# LaunchContext

launch/launch/launch_context.py:36-241.
-/

namespace Verif

/-- Globals, locals, their stack and the cache of the combination,
launch/launch/launch_context.py:59-62. -/
structure Locals where
  globals : Dict LVal := []
  /-- saved frames, innermost first -/
  stack : List (Dict LVal) := []
  cur : Dict LVal := []
  cache : Option (Dict LVal) := none
  deriving DecidableEq, Repr, Inhabited

namespace Locals

/-- `_push_locals`, launch_context.py:106-107. -/
def push (l : Locals) : Locals := { l with stack := l.cur :: l.stack }

/-- `_pop_locals`, launch_context.py:109-113. -/
def pop (l : Locals) : Res Locals :=
  match l.stack with
  | [] => .error .runtimeError
  | f :: fs => .ok { l with cur := f, stack := fs, cache := none }

/-- `extend_globals`, launch_context.py:115-123. -/
def extendGlobals (l : Locals) (ext : Dict LVal) : Locals :=
  { l with globals := l.globals.update ext, cache := none }

/-- `extend_locals`, launch_context.py:125-128. -/
def extendLocals (l : Locals) (ext : Dict LVal) : Locals :=
  { l with cur := l.cur.update ext, cache := none }

/-- `_get_combined_locals` / `get_locals_as_dict`, launch_context.py:133-141: the dictionary returned
and the state with the cache filled. -/
def getCombined (l : Locals) : Dict LVal × Locals :=
  match l.cache with
  | some d => (d, l)
  | none =>
    let d := l.globals.update l.cur
    (d, { l with cache := some d })

end Locals

/-- The launch context, launch/launch/launch_context.py:52-72.
`env` is `os.environ`, `envReset` the copy taken at construction (line 69).
`handlers` holds handler identities, leftmost first (line 56); `queue` is the event queue (line 55),
next event first; `completion` are the completion futures (line 57).
`futures` maps the asynchronous actions that have a future to it (the `__completed_future` members of
timers, processes and coroutines), `nextFut` numbers futures.
`onDone` are the done-callbacks installed by `Action.visit` (action.py:116-118): when the future is done,
ExecutionComplete of the action is emitted.
`srcLoc` and `srcLoaded` are the cached expanded location of each launch description source and the
sources whose description is cached (launch_description_source.py:48-52); they are objects of their own in
Python and are kept here because the context is the state threaded through visiting.
`rng` stands for the state of the random generator used by AnonName.
`captured` are the locals kept by timers when they were executed (`TimerAction.__context_locals`, timer_action.py:84, 193), the latest first.
`trace`, `emitted`, `registered`, `unregistered` and `logged` are ghost fields: the actions executed so far, all events ever put
into the queue, all handler registrations, all removals of handlers and all messages of LogInfo actions, latest last. -/
structure Ctx where
  lc : Dict String := []
  lcStack : List (Dict String) := []
  env : Dict String := []
  envStack : List (Dict String) := []
  envReset : Dict String := []
  locals : Locals := {}
  handlers : List Nat := []
  queue : List Event := []
  completion : List Nat := []
  futures : List (ActId × Nat) := []
  nextFut : Nat := 0
  onDone : List (Nat × ActId) := []
  srcLoc : List (Nat × String) := []
  srcLoaded : List Nat := []
  isShutdown : Bool := false
  rng : Nat := 0
  trace : List ActId := []
  emitted : List Event := []
  registered : List Nat := []
  unregistered : List Nat := []
  logged : List String := []
  captured : List (ActId × Dict LVal) := []
  deriving DecidableEq, Repr, Inhabited

namespace Ctx

/-- `_push_environment`, launch_context.py:167-168. -/
def pushEnv (c : Ctx) : Ctx := { c with envStack := c.env :: c.envStack }

/-- `_pop_environment`, launch_context.py:170-184.  `clear` and `update` with a copy of an earlier
`os.environ` leaves exactly that copy. -/
def popEnv (c : Ctx) : Ctx × Res Unit :=
  match c.envStack with
  | [] => (c, .error .runtimeError)
  | e :: es => ({ c with env := Dict.update [] e, envStack := es }, .ok ())

/-- `_reset_environment`, launch_context.py:186-189. -/
def resetEnv (c : Ctx) : Ctx := { c with env := Dict.update [] c.envReset }

/-- `_push_launch_configurations`, launch_context.py:191-192. -/
def pushLC (c : Ctx) : Ctx := { c with lcStack := c.lc :: c.lcStack }

/-- `_pop_launch_configurations`, launch_context.py:194-197. -/
def popLC (c : Ctx) : Ctx × Res Unit :=
  match c.lcStack with
  | [] => (c, .error .runtimeError)
  | d :: ds => ({ c with lc := d, lcStack := ds }, .ok ())

/-- `register_event_handler`, launch_context.py:213-223. -/
def registerHandler (c : Ctx) (h : Nat) (append : Bool) : Ctx :=
  { c with
    handlers := if append then c.handlers ++ [h] else h :: c.handlers
    registered := c.registered ++ [h] }

/-- `unregister_event_handler`, launch_context.py:225-227: `deque.remove` drops the leftmost
occurrence and raises `ValueError` when there is none. -/
def unregisterHandler (c : Ctx) (h : Nat) : Ctx × Res Unit :=
  if h ∈ c.handlers then ({ c with handlers := c.handlers.erase h, unregistered := c.unregistered ++ [h] }, .ok ())
  else (c, .error .valueError)

/-- `emit_event_sync`, launch_context.py:229-232. -/
def emit (c : Ctx) (e : Event) : Ctx := { c with queue := c.queue ++ [e], emitted := c.emitted ++ [e] }

/-- `would_handle_event`, launch_context.py:209-211, for a table of matching functions. -/
def wouldHandle (matchesEv : Nat → Event → Bool) (c : Ctx) (e : Event) : Bool :=
  c.handlers.any (fun h => matchesEv h e)

/-- Names `os.environ` accepts as keys and values on POSIX: a key is non-empty and has no `=`;
neither has a NUL.  Otherwise `os.environ[k] = v` raises (`OSError`/`ValueError`). -/
def envKeyOk (k v : String) : Bool :=
  k != "" && k.toList.all (fun c => c != '=' && c != '\x00') && v.toList.all (fun c => c != '\x00')

/-- `context.environment[k] = v` (`os.environ.__setitem__`). -/
def envSet (c : Ctx) (k v : String) : Ctx × Res Unit :=
  if envKeyOk k v then ({ c with env := c.env.set k v }, .ok ())
  else (c, .error .osError)

/-- `context.launch_configurations[k] = v`. -/
def lcSet (c : Ctx) (k v : String) : Ctx := { c with lc := c.lc.set k v }

end Ctx
end Verif
