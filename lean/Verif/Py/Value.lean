/-!
# Python values and exceptions

Exceptions are values of type `Err` (exception class only; messages are not modelled).
-/

namespace Verif

/-- Exception classes raised by the modelled code (messages are dropped).
`other n` stands for any further exception class, e.g. one raised by user code. -/
inductive Err where
  | substitutionFailure   -- launch/launch/substitutions/substitution_failure.py:20
  | invalidCondition      -- launch/launch/invalid_condition... conditions/evaluate_condition_expression_impl.py:48
  | invalidLaunchFile     -- launch/launch/invalid_launch_file_error.py:22
  | invalidFrontendFile   -- launch/launch/frontend/parser.py (InvalidFrontendLaunchFileError)
  | runtimeError
  | valueError
  | typeError
  | keyError
  | attributeError
  | indexError
  | osError
  | fileNotFound
  | assertionError
  | noMatchingProcess     -- launch_testing/launch_testing/util/proc_lookup.py:20
  | other (n : Nat)
  deriving DecidableEq, Repr, Inhabited

/-- `raise` is `Except.error`. -/
abbrev Res (α : Type) := Except Err α

/-- A Python `float`, treated as opaque (a token). -/
structure Flt where
  token : String
  deriving DecidableEq, Repr, Inhabited

/-- Python values that occur in launch: `int`, `float`, `bool`, `str`, `list`, and anything else
(`None`, `dict`, dates, ... as produced by YAML), which is kept opaque. -/
inductive PyVal where
  | int (i : Int)
  | float (f : Flt)
  | bool (b : Bool)
  | str (s : String)
  | list (l : List PyVal)
  | other (tag : Nat)
  deriving Repr, Inhabited

/-- The scalar types of `ScalarTypesTuple`, launch/launch/utilities/type_utils.py:41-43. -/
inductive ScalarTy where
  | int | float | bool | str
  deriving DecidableEq, Repr, Inhabited

/-- `str(b).lower()` for a Python bool. -/
def boolText (b : Bool) : String := if b then "true" else "false"

/-- Characters removed by `str.strip()` and recognised by `str.isspace()` (CPython `_PyUnicode_IsWhitespace`): those of ASCII, and the
other ones of Unicode. -/
def isSpace (c : Char) : Bool :=
  c == ' ' || (9 ≤ c.toNat && c.toNat ≤ 13) || (28 ≤ c.toNat && c.toNat ≤ 31) ||
  (c.toNat == 0x85 || c.toNat == 0xa0 || c.toNat == 0x1680 || (0x2000 ≤ c.toNat && c.toNat ≤ 0x200a) || c.toNat == 0x2028 ||
    c.toNat == 0x2029 || c.toNat == 0x202f || c.toNat == 0x205f || c.toNat == 0x3000)

/-- `str.lower()` on one character. Simplification: ASCII letters only.  The results are compared only with texts such as `true`; of the other
characters only the Kelvin sign has an ASCII letter (k) as its lower case, which does not occur in them. -/
def lowerChar (c : Char) : Char :=
  if 'A' ≤ c ∧ c ≤ 'Z' then Char.ofNat (c.toNat + 32) else c

/-- `s.strip()` on a list of characters. -/
def stripChars (s : List Char) : List Char :=
  ((s.dropWhile isSpace).reverse.dropWhile isSpace).reverse

/-- `s.strip().lower()`. -/
def stripLower (s : String) : List Char := (stripChars s.toList).map lowerChar

/-- `s.lower()`. -/
def lowerStr (s : String) : List Char := s.toList.map lowerChar

end Verif
