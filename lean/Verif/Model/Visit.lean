import Verif.Model.LaunchArgs

/-!
# Visiting entities

`Action.visit`, the `execute` methods and `visit_all_entities_and_collect_futures`.

The recursion of Python is not bounded; the model uses fuel, `none` meaning that it ran out.  All theorems
are about runs that end (`some`), for every amount of fuel.
-/

namespace Verif

/-- A future collected from an entity. -/
abbrev Fut := ActId × Nat

/-- Outcome of visiting: the context, and the collected futures or the exception. -/
abbrev Outcome (α : Type) := Option (Ctx × Res α)

/-- `LaunchDescriptionSource.get_launch_description`, launch_description_source.py:76-84. -/
def getDescription (P : Prog) (O : Oracle) (src : Nat) : M (List Entity) := fun c =>
  match (match c.srcLoc.lookup src with
    | some l => (c, .ok l)
    | none =>
      match performSubs O (P.source src).location c with
      | (c1, .error e) => (c1, .error e)
      | (c1, .ok l) => ({ c1 with srcLoc := (src, l) :: c1.srcLoc }, .ok l) : Ctx × Res String) with
  | (c1, .error e) => (c1, .error e)
  | (c1, .ok loc) =>
    match (P.source src).load loc with
    | .error e => (c1, .error e)
    | .ok es => ({ c1 with srcLoaded := src :: c1.srcLoaded }, .ok es)

/-- `try_get_launch_description_without_context`, launch_description_source.py:57-74: the loaded description
if there is one, else an attempt to load it with a fresh context (which shares the environment). -/
def tryDescription (P : Prog) (O : Oracle) (c : Ctx) (src : Nat) : Option (List Entity) :=
  let loc : Option String :=
    if src ∈ c.srcLoaded then c.srcLoc.lookup src
    else match performSubs O (P.source src).location { env := c.env, envReset := c.env } with
      | (_, .ok l) => some l
      | (_, .error _) => none
  match loc with
  | none => none
  | some l =>
    match (P.source src).load l with
    | .ok es => some es
    | .error _ => none

/-- `[perform_substitutions(context, name) for name, _ in args]`. -/
def performNames (O : Oracle) : List (List Sub × List Sub) → M (List String)
  | [] => M.pure []
  | (n, _) :: rest =>
    M.bind (performSubs O n) fun x => M.bind (performNames O rest) fun xs => M.pure (x :: xs)

/-- `_try_get_arguments_names_without_context`, include_launch_description.py:131-144; `none` is None. -/
def tryNames (O : Oracle) (c : Ctx) (args : List (List Sub × List Sub)) : Option (List String) :=
  match performNames O args { env := c.env, envReset := c.env } with
  | (_, .ok l) => some l
  | (_, .error _) => none

/-- `argument_names.extend(...)` for each include action, include_launch_description.py:168-170;
`extend(None)` raises TypeError. -/
def extendNames (O : Oracle) (c : Ctx) : List (List (List Sub × List Sub)) → List String →
    Res (List String)
  | [], names => .ok names
  | a :: as, names =>
    match tryNames O c a with
    | none => .error .typeError
    | some l => extendNames O c as (names ++ l)

/-- The check of required arguments, include_launch_description.py:162-176.  `names` is one list that is
extended again and again. -/
def checkRequired (O : Oracle) (c : Ctx) (heap : List (List (List (List Sub × List Sub)))) :
    List ArgEntry → List String → Res Unit
  | [], _ => .ok ()
  | e :: es, names =>
    if e.conditional || e.hasDefault then checkRequired O c heap es names
    else
      match (match e.nested with
        | none => .ok names
        | some i => extendNames O c (heap.getD i []) names : Res (List String)) with
      | .error err => .error err
      | .ok names' =>
        if e.name ∈ names' then checkRequired O c heap es names'
        else .error .runtimeError

/-- `IncludeLaunchDescription.execute`, include_launch_description.py:146-185. -/
def executeInclude (P : Prog) (O : Oracle) (fuel : Nat) (id : ActId) (src : Nat)
    (args : List (List Sub × List Sub)) (c : Ctx) : Outcome (List Entity) :=
  match getDescription P O src c with
  | (c1, .error e) => some (c1, .error e)
  | (c1, .ok es) =>
    let file := P.launchFile ((c1.srcLoc.lookup src).getD "")
    let l1 := c1.locals.extendLocals [("current_launch_file_path", .str file.1)]
    let l2 := l1.extendLocals [("current_launch_file_directory", .str file.2)]
    let c2 := { c1 with locals := l2 }
    match performNames O args c2 with
    | (c3, .error e) => some (c3, .error e)
    | (c3, .ok names) =>
      match getLaunchArguments (tryDescription P O c3) fuel es false with
      | none => none
      | some (.error e) => some (c3, .error e)
      | some (.ok st) =>
        match checkRequired O c3 st.heap st.entries names with
        | .error e => some (c3, .error e)
        | .ok () => some (c3, .ok (Entity.setActions id 0 args ++ [.desc es]))

/-- `ResetLaunchConfigurations.execute`: evaluation of the entries to keep,
reset_launch_configurations.py:80-84. -/
def evalKeep (O : Oracle) : List (List Sub × List Sub) → Dict String → M (Dict String)
  | [], acc => M.pure acc
  | (k, v) :: rest, acc =>
    M.bind (performSubs O k) fun ks =>
    M.bind (performSubs O v) fun vs => evalKeep O rest (acc.set ks vs)

/-- `perform_typed_substitution(context, self.prepend, bool)`, append_environment_variable.py:112: a bool is
itself, substitutions are performed and coerced. -/
def evalPrepend (O : Oracle) : Bool ⊕ List Sub → M Bool
  | .inl b => M.pure b
  | .inr s => typedBool O s.isEmpty (performSubs O s)

/-- The assignment of `AppendEnvironmentVariable.execute`, append_environment_variable.py:114-120. -/
def appendValue (old : Option String) (value separator : String) (prepend : Bool) : String :=
  match old with
  | some o => if prepend then value ++ separator ++ o else o ++ separator ++ value
  | none => value

/-- The `execute` methods.  `fuel` is only used to search an included description for arguments. -/
def execute (P : Prog) (O : Oracle) (fuel : Nat) (id : ActId) (kind : ActKind) (c : Ctx) :
    Outcome (List Entity) :=
  match kind with
  -- set_launch_configuration.py:71-74 (Python evaluates the value before the key)
  | .setLC n v =>
    some (M.bind (performSubs O v) (fun vs => M.bind (performSubs O n) fun ns => fun c =>
      (c.lcSet ns vs, .ok [])) c)
  -- unset_launch_configuration.py:51-55
  | .unsetLC n =>
    some (M.bind (performSubs O n) (fun ns => fun c => ({ c with lc := c.lc.erase ns }, .ok [])) c)
  -- push_launch_configurations.py:33-35
  | .pushLC => some (c.pushLC, .ok [])
  -- pop_launch_configurations.py:33-35
  | .popLC => some ((c.popLC).1, (c.popLC).2.map fun _ => [])
  -- reset_launch_configurations.py:75-87
  | .resetLC none => some ({ c with lc := [] }, .ok [])
  | .resetLC (some keep) =>
    some (M.bind (evalKeep O keep []) (fun d => fun c => ({ c with lc := Dict.update [] d }, .ok [])) c)
  -- set_environment_variable.py:67-71
  | .setEnv n v =>
    some (M.bind (performSubs O v) (fun vs => M.bind (performSubs O n) fun ns => fun c =>
      ((c.envSet ns vs).1, (c.envSet ns vs).2.map fun _ => [])) c)
  -- unset_environment_variable.py:59-64
  | .unsetEnv n =>
    some (M.bind (performSubs O n) (fun ns => fun c => ({ c with env := c.env.erase ns }, .ok [])) c)
  -- append_environment_variable.py:108-121
  | .appendEnv n v p sep =>
    some (M.bind (performSubs O n) (fun ns => M.bind (performSubs O v) fun vs =>
      M.bind (evalPrepend O p) fun pb => M.bind (performSubs O sep) fun ss => fun c =>
      let r := c.envSet ns (appendValue (c.env.get? ns) vs ss pb)
      (r.1, r.2.map fun _ => [])) c)
  -- push_environment.py:33-35
  | .pushEnv => some (c.pushEnv, .ok [])
  -- pop_environment.py:33-35
  | .popEnv => some ((c.popEnv).1, (c.popEnv).2.map fun _ => [])
  -- reset_environment.py:44-46
  | .resetEnv => some (c.resetEnv, .ok [])
  -- group_action.py:144-146
  | .group s f cfg as => some (c, .ok (Entity.groupSubEntities id s f cfg as))
  | .includeLD src args => executeInclude P O fuel id src args c
  -- declare_launch_argument.py:203-223
  | .declareArg name default choices =>
    some (M.bind (fun c =>
        if c.lc.has name then (c, .ok ())
        else match default with
          | none => (c, .error .runtimeError)
          | some d => M.bind (performSubs O d) (fun v => fun c => (c.lcSet name v, .ok ())) c)
      (fun _ => fun c =>
        match choices with
        | none => (c, .ok [])
        | some ch =>
          match c.lc.get? name with
          | none => (c, .error .keyError)
          | some v => if v ∈ ch then (c, .ok []) else (c, .error .runtimeError)) c)
  -- log_info.py:58-63
  | .logInfo msg => some (M.bind (performSubs O msg) (fun m => fun c => ({ c with logged := c.logged ++ [m] }, .ok [])) c)
  -- emit_event.py:50-52
  | .emitEvent e => some (c.emit e, .ok [])
  -- register_event_handler.py:42-44
  | .registerHandler h _ => some (c.registerHandler h false, .ok [])
  -- unregister_event_handler.py:43-49
  | .unregisterHandler h => some ((c.unregisterHandler h).1, (c.unregisterHandler h).2.map fun _ => [])
  -- e.g. opaque_function.py:65-67
  | .custom fn _ _ => some (Entity.applyEffects (some id) c (P.fn fn c).effects, (P.fn fn c).result)

/-- The `finally` part of `Action.visit`, action.py:110-120. -/
def announce (P : Prog) (id : ActId) (c : Ctx) : Ctx :=
  if c.wouldHandle P.matchesEv (.executionComplete id) then
    match c.futures.lookup id with
    | some f => { c with onDone := c.onDone ++ [(f, id)] }
    | none => c.emit (.executionComplete id)
  else c

/-- `entity.visit(context)`: `LaunchDescription.visit` (launch_description.py:61-75, returns the entities; the
deprecation warning is not modelled) and `Action.visit` (action.py:105-121). -/
def enter (P : Prog) (O : Oracle) (fuel : Nat) (e : Entity) (c : Ctx) : Outcome (List Entity) :=
  match e with
  | .desc es => some (c, .ok es)
  | .act id cond kind =>
    match condEval O P.preds cond c with
    | (c1, .error err) => some (c1, .error err)
    | (c1, .ok false) => some (c1, .ok [])
    | (c1, .ok true) =>
      match execute P O fuel id kind { c1 with trace := c1.trace ++ [id] } with
      | none => none
      | some (c2, r) => some (announce P id c2, r)

/-- `entity.get_asyncio_future()`, as a list of pairs,
visit_all_entities_and_collect_futures_impl.py:39-42. -/
def ownFuture (e : Entity) (c : Ctx) : List Fut :=
  match e with
  | .desc _ => []
  | .act id _ _ =>
    match c.futures.lookup id with
    | some f => [(id, f)]
    | none => []

/-- The loop over sub-entities, visit_all_entities_and_collect_futures_impl.py:43-45. -/
def visitList (visit : Entity → Ctx → Outcome (List Fut)) : List Entity → Ctx → Outcome (List Fut)
  | [], c => some (c, .ok [])
  | e :: es, c =>
    match visit e c with
    | none => none
    | some (c1, .error err) => some (c1, .error err)
    | some (c1, .ok fs) =>
      match visitList visit es c1 with
      | none => none
      | some (c2, .error err) => some (c2, .error err)
      | some (c2, .ok gs) => some (c2, .ok (fs ++ gs))

/-- `visit_all_entities_and_collect_futures`,
visit_all_entities_and_collect_futures_impl.py:25-46. -/
def visit (P : Prog) (O : Oracle) : Nat → Entity → Ctx → Outcome (List Fut)
  | 0, _, _ => none
  | n + 1, e, c =>
    match enter P O n e c with
    | none => none
    | some (c1, .error err) => some (c1, .error err)
    | some (c1, .ok subs) =>
      match visitList (visit P O n) subs c1 with
      | none => none
      | some (c2, .error err) => some (c2, .error err)
      | some (c2, .ok fs) => some (c2, .ok (ownFuture e c1 ++ fs))

end Verif
