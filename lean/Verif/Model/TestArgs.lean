import Verif.Py.Dict
import Verif.Py.Value

/-!
# Launch arguments of launch_test

launch_testing/launch_testing/parse_arguments.py.
-/

namespace Verif

/-- `argument.count(':=')`, parse_arguments.py:25. -/
def countArrow : List Char → Nat
  | [] => 0
  | [_] => 0
  | c :: d :: r => if c = ':' ∧ d = '=' then 1 + countArrow r else countArrow (d :: r)

/-- `argument.split(':=', maxsplit=1)` if there is a ':=', parse_arguments.py:30. -/
def splitArrow : List Char → Option (List Char × List Char)
  | [] => none
  | [_] => none
  | c :: d :: r =>
    if c = ':' ∧ d = '=' then some ([], r)
    else match splitArrow (d :: r) with
      | some (a, b) => some (c :: a, b)
      | none => none

/-- The body of the loop up to the assignment, parse_arguments.py:25-30. -/
def parseTestArg (a : String) : Res (String × String) :=
  let l := a.toList
  let count := countArrow l
  if count = 0 || [':', '='].isPrefixOf l || (count = 1 && [':', '='].isSuffixOf l) then .error .runtimeError
  else match splitArrow l with
    | some (n, v) => .ok (String.ofList n, String.ofList v)
    | none => .error .valueError

/-- The loop, parse_arguments.py:24-31. -/
def parseArgsInto (d : Dict String) : List String → Res (Dict String)
  | [] => .ok d
  | a :: as =>
    match parseTestArg a with
    | .error e => .error e
    | .ok (n, v) => parseArgsInto (d.set n v) as

/-- `parse_launch_arguments`, parse_arguments.py:21-33. -/
def parseLaunchArguments (as : List String) : Res (Dict String) := parseArgsInto [] as

end Verif
