import Verif.Py.Dict
import Verif.Py.Value

/-!
# Formatters for single loggers

launch/launch/logging/handlers.py: the handler classes of Python's `logging` with formatters for single loggers, and the module that has them.
What formatters do with a record is not modelled: a formatter is a value of the type `F`.
-/

namespace Verif

/-- A logger, given by its name or as an object that has one; handlers.py:32, 37. -/
inductive LoggerRef where
  | name (n : String)
  | object (n : String)
  deriving DecidableEq, Repr

/-- `logger if isinstance(logger, str) else logger.name`, handlers.py:32, 37. -/
def LoggerRef.loggerName : LoggerRef → String
  | .name n => n
  | .object n => n

/-- A handler: the formatters of single loggers (handlers.py:28) and the formatter of `logging.Handler`. -/
structure TraitHandler (F : Type) where
  formatters : Dict F := []
  formatter : Option F := none

/-- What is done with a handler. -/
inductive TraitOp (F : Type) where
  | setFor (logger : LoggerRef) (f : F)
  | unsetFor (logger : LoggerRef)
  | setFormatter (f : Option F)

/-- `setFormatterFor`, handlers.py:30-33; `unsetFormatterFor`, handlers.py:35-39; `setFormatter` of `logging.Handler`. -/
def TraitHandler.step {F : Type} (h : TraitHandler F) : TraitOp F → TraitHandler F
  | .setFor l f => { h with formatters := h.formatters.set l.loggerName f }
  | .unsetFor l => if h.formatters.has l.loggerName then { h with formatters := h.formatters.erase l.loggerName } else h
  | .setFormatter f => { h with formatter := f }

/-- A history of these. -/
def TraitHandler.run {F : Type} (h : TraitHandler F) : List (TraitOp F) → TraitHandler F
  | [] => h
  | op :: ops => (h.step op).run ops

/-- `format`, handlers.py:41-45: the formatter used for a record of the logger with this name; `standard` is the one of `logging` if none is set. -/
def TraitHandler.formatterOf {F : Type} (standard : F) (h : TraitHandler F) (record : String) : F :=
  match h.formatters.get? record with
  | some f => f
  | none => h.formatter.getD standard

/-! ## The module -/

/-- What a module contains: a class of handlers, or something else. -/
inductive ModObj where
  | handlerClass (id : Nat)
  | other (id : Nat)
  deriving DecidableEq, Repr

/-- What an attribute of `launch.logging.handlers` is: a class of handlers with formatters for single loggers, derived from a class, or an object of a module. -/
inductive WrapObj where
  | perLogger (id : Nat)
  | plain (o : ModObj)
  deriving DecidableEq, Repr

/-- The loop over the names of a module, handlers.py:62-70. -/
def collectHandlers (handlers : Dict Nat) : List (String × ModObj) → Dict Nat
  | [] => handlers
  | (name, o) :: rest =>
    if "_".toList.isPrefixOf name.toList then collectHandlers handlers rest
    else match o with
      | .other _ => collectHandlers handlers rest
      | .handlerClass id => collectHandlers (handlers.set name id) rest

/-- `_module_wrapper.__getattr__`, handlers.py:73-76, of the wrapper made at handlers.py:57-71.  `logging` and `handlers` are the two modules of Python; the attribute
`_module` is the last one of the loop, `handlers` (handlers.py:61, 71), and not the module that is wrapped.  The wrapper's own attributes (`_handlers`, `_module`, and those that
every object of the type `ModuleType` has) are not modelled. -/
def wrapperAttr (logging handlers : Dict ModObj) (name : String) : Res WrapObj :=
  match (collectHandlers (collectHandlers [] logging) handlers).get? name with
  | some id => .ok (.perLogger id)
  | none =>
    match handlers.get? name with
    | some o => .ok (.plain o)
    | none => .error .attributeError

end Verif
