import Verif.Py.Value

/-!
# Checks of the types of arguments

launch/launch/utilities/ensure_argument_type_impl.py and class_tools_impl.py, and constructors that use them.  The texts of the exceptions are not modelled.
-/

namespace Verif

/-- An object: an instance of a class that is not itself a class, or a class. -/
inductive PyThing where
  | inst (cls : Nat)
  | cls (c : Nat)
  deriving DecidableEq, Repr

/-- What Python knows of classes: `issubclass` (with virtual subclasses of abstract classes), the class of a class, and, for classes that can be iterated over
(enumerations), the number of members.  Simplification: members are not classes. -/
structure PyClasses where
  sub : Nat → Nat → Bool
  metaOf : Nat → Nat
  members : Nat → Option Nat

/-- `type(o)`.  Simplification: `__class__` is not overridden, so that `o.__class__` is the same. -/
def PyClasses.typeOf (C : PyClasses) : PyThing → Nat
  | .inst c => c
  | .cls c => C.metaOf c

/-- The second argument of `isinstance`: a class, a tuple of such, or an object that is neither. -/
inductive TypeArg where
  | cls (c : Nat)
  | tuple (l : List TypeArg)
  | other

mutual
/-- Python's `isinstance`, for ensure_argument_type_impl.py:64 and class_tools_impl.py:31: items of tuples are asked one after another until one says yes. -/
def isInst (C : PyClasses) (o : PyThing) : TypeArg → Res Bool
  | .cls c => .ok (C.sub (C.typeOf o) c)
  | .tuple l => isInstAny C o l
  | .other => .error .typeError

/-- `isinstance` for the items of a tuple. -/
def isInstAny (C : PyClasses) (o : PyThing) : List TypeArg → Res Bool
  | [] => .ok false
  | t :: ts =>
    match isInst C o t with
    | .error e => .error e
    | .ok true => .ok true
    | .ok false => isInstAny C o ts
end

/-- `check_argument`, ensure_argument_type_impl.py:62-67. -/
def checkArgument (C : PyClasses) (o : PyThing) (t : TypeArg) : Res Bool :=
  match isInst C o t with
  | .error e => .error e
  | .ok b =>
    match t with
    | .cls c => .ok (b || C.sub (C.typeOf o) c)
    | _ => .ok b

/-- `any(check_argument(argument, type_var) for type_var in list_of_types)`, ensure_argument_type_impl.py:70. -/
def anyArgument (C : PyClasses) (o : PyThing) : List TypeArg → Res Bool
  | [] => .ok false
  | t :: ts =>
    match checkArgument C o t with
    | .error e => .error e
    | .ok true => .ok true
    | .ok false => anyArgument C o ts

/-- The argument `types`: a class, an iterable of types, or an object that is neither. -/
inductive TypesArg where
  | type (c : Nat)
  | iterable (l : List TypeArg)
  | neither

/-- `list_of_types`, ensure_argument_type_impl.py:69: a class that can be iterated over is taken for the list of its members.  None: `types` is neither a class nor an
iterable (line 39). -/
def TypesArg.list (C : PyClasses) : TypesArg → Option (List TypeArg)
  | .neither => none
  | .iterable l => some l
  | .type c =>
    match C.members c with
    | some n => some (List.replicate n .other)
    | none => some [.cls c]

/-- `ensure_argument_type`, ensure_argument_type_impl.py:26-77.  `strName`: `argument_name` is a text; `strCaller`: `caller` is a text or None. -/
def ensureArgumentType (C : PyClasses) (o : PyThing) (types : TypesArg) (strName strCaller : Bool) : Res Unit :=
  match types.list C with
  | none => .error .typeError
  | some l =>
    if !strName then .error .typeError
    else if !strCaller then .error .typeError
    else match anyArgument C o l with
      | .error e => .error e
      | .ok true => .ok ()
      | .ok false => .error .typeError

/-- `is_a`, class_tools_impl.py:25-31. -/
def isA (C : PyClasses) (o : PyThing) : TypeArg → Res Bool
  | .cls c => isInst C o (.cls c)
  | _ => .error .runtimeError

/-- `is_a_subclass`, class_tools_impl.py:34-41: `issubclass` raises TypeError for an object that is not a class. -/
def isASubclass (C : PyClasses) (o : PyThing) (t : TypeArg) : Res Bool :=
  match isA C o t with
  | .error e => .error e
  | .ok true => .ok true
  | .ok false =>
    match o, t with
    | .cls d, .cls c => .ok (C.sub d c)
    | _, _ => .ok false

/-- The classes the constructors below ask for. -/
structure KnownClasses where
  iterable : Nat
  noneType : Nat
  dict : Nat
  str : Nat
  signals : Nat
  event : Nat
  substitution : Nat
  float : Nat
  bool : Nat

/-- The checks of `OpaqueFunction.__init__`, actions/opaque_function.py:58-64. -/
def opaqueFunctionChecks (C : PyClasses) (K : KnownClasses) (callable : Bool) (args kwargs : PyThing) : Res Unit :=
  if !callable then .error .typeError
  else match ensureArgumentType C args (.iterable [.cls K.iterable, .cls K.noneType]) true true with
    | .error e => .error e
    | .ok () => ensureArgumentType C kwargs (.iterable [.cls K.dict, .cls K.noneType]) true true

/-- The checks of `OpaqueCoroutine.__init__`, actions/opaque_coroutine.py:75-85; `coroutine`: the function is a coroutine function. -/
def opaqueCoroutineChecks (C : PyClasses) (K : KnownClasses) (coroutine : Bool) (args kwargs ignoreContext : PyThing) : Res Unit :=
  if !coroutine then .error .typeError
  else match ensureArgumentType C args (.iterable [.cls K.iterable, .cls K.noneType]) true true with
    | .error e => .error e
    | .ok () =>
      match ensureArgumentType C kwargs (.iterable [.cls K.dict, .cls K.noneType]) true true with
      | .error e => .error e
      | .ok () => ensureArgumentType C ignoreContext (.type K.bool) true true

/-- The first checks of `TimerAction.__init__`, actions/timer_action.py:75-77, with the types of some_substitutions_type.py:30-34. -/
def timerChecks (C : PyClasses) (K : KnownClasses) (period actions : PyThing) : Res Unit :=
  match ensureArgumentType C period (.iterable [.cls K.str, .cls K.substitution, .cls K.iterable, .cls K.float]) true true with
  | .error e => .error e
  | .ok () => ensureArgumentType C actions (.type K.iterable) true true

/-- The check of `SignalProcess.__init__`, events/process/signal_process.py:54-55. -/
def signalProcessCheck (C : PyClasses) (K : KnownClasses) (signal : PyThing) : Res Unit :=
  ensureArgumentType C signal (.iterable [.cls K.str, .cls K.signals]) true true

/-- The check of `EmitEvent.__init__`, actions/emit_event.py:29-30. -/
def emitEventCheck (C : PyClasses) (K : KnownClasses) (event : PyThing) : Res Unit :=
  match isASubclass C event (.cls K.event) with
  | .error e => .error e
  | .ok true => .ok ()
  | .ok false => .error .runtimeError

end Verif
