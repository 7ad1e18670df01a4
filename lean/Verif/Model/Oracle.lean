import Verif.Py.Value
import Verif.Py.Dict
import Verif.Model.Event

/-!
# External behaviour

Everything the modelled code obtains from libraries, the operating system or the interpreter.
All fields are arbitrary functions: theorems hold for every choice of them.
-/

namespace Verif

/-- Result of `subprocess.run` as used by launch/launch/substitutions/command.py:109-131. -/
inductive RunResult where
  | fileNotFound
  | raised (e : Err)
  | done (returncode : Int) (stdout stderr : String)
  deriving DecidableEq, Repr, Inhabited

structure Oracle where
  /-- `yaml.safe_load`; `none` when it raises. -/
  yaml : String → Option PyVal
  /-- `int(text)`; `none` when it raises `ValueError`. -/
  parseInt : String → Option Int
  /-- `float(text)`; `none` when it raises `ValueError`. -/
  parseFloat : String → Option Flt
  /-- `float(i)` for an `int`. -/
  floatOfInt : Int → Flt
  /-- `math.isclose(a, b)`. -/
  isClose : Flt → Flt → Bool
  /-- Text produced by `AnonName.compute_name`; the first argument stands for the random source
  and differs at each call. -/
  anonName : Nat → String → String
  /-- `eval` of a Python expression with the given modules. -/
  pyEval : List String → String → Res String
  /-- `eval('context.locals.' + expression)`. -/
  localEval : Dict LVal → String → Res String
  /-- `subprocess.run`; the flag tells whether stderr is merged into stdout. -/
  run : List String → Bool → Except Err RunResult
  /-- `which`: looked up in the environment. -/
  which : Dict String → String → Option String
  /-- `open(path).read()`. -/
  readFile : String → Except Err String
  /-- the configured log directory -/
  logDir : String

end Verif
