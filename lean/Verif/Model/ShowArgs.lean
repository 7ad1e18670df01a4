import Verif.Model.LaunchArgs

/-!
# Descriptions of substitutions and the list of launch arguments

The `describe` methods of substitutions (launch/launch/substitutions), the description of a DeclareLaunchArgument
(launch/launch/actions/declare_launch_argument.py:140-151) and `print_arguments_of_launch_description`
(launch_testing/launch_testing/print_arguments.py).
-/

namespace Verif

/-- `'name({})'.format(inner)`, as in the `describe` methods below. -/
def calledWith (name : String) (inner : List Char) : List Char := name.toList ++ '(' :: (inner ++ [')'])

/-- `' + '.join(parts)`. -/
def plusJoin (parts : List (List Char)) : List Char := [' ', '+', ' '].intercalate parts

/-- `', '.join(parts)`. -/
def commaJoin (parts : List (List Char)) : List Char := [',', ' '].intercalate parts

mutual
/-- `Substitution.describe()`.  `repr` is what Python shows for a list of substitutions, which has no `__repr__` of their own: names of classes and addresses.
LocalSubstitution is modelled without its optional `description`.  Each case cites the method. -/
def Sub.describe (repr : List Sub → List Char) : Sub → List Char
  -- text_substitution.py:42-44
  | .text s => '\'' :: (s.toList ++ ['\''])
  -- launch_configuration.py:83-85
  | .launchConfig n _ => calledWith "LaunchConfig" (plusJoin (Sub.describeAll repr n))
  -- environment_variable.py:84-86
  | .envVar n _ => calledWith "EnvVar" (plusJoin (Sub.describeAll repr n))
  -- anon_name.py:55-57
  | .anonName n => calledWith "AnonName" (plusJoin (Sub.describeAll repr n))
  -- boolean_substitution.py:53-55
  | .notS v => calledWith "NotSubstitution" (repr v)
  -- boolean_substitution.py:95-97
  | .andS l r => calledWith "AndSubstitution" (repr l ++ ' ' :: repr r)
  -- boolean_substitution.py:141-143
  | .orS l r => calledWith "AndSubstitution" (repr l ++ ' ' :: repr r)
  -- boolean_substitution.py:187-189
  | .anyS as => calledWith "AnySubstitution" ([' '].intercalate (as.map repr))
  -- boolean_substitution.py:233-235
  | .allS as => calledWith "AllSubstitution" ([' '].intercalate (as.map repr))
  -- equals_substitution.py:113-115
  | .equals l r => calledWith "EqualsSubstitution" (repr l ++ ' ' :: repr r)
  -- not_equals_substitution.py:44-46
  | .notEquals l r => calledWith "NotEqualsSubstitution" (repr l ++ ' ' :: repr r)
  -- if_else_substitution.py:103-105
  | .ifElse c i e => calledWith "IfElseSubstitution" (commaJoin [repr c, repr i, repr e])
  -- path_join_substitution.py:39-41
  | .pathJoin ps => calledWith "PathJoin" ('\'' :: (plusJoin (Sub.describeAll repr ps) ++ ['\'']))
  -- local_substitution.py:47-50
  | .localVar x => calledWith "LocalVar" ('\'' :: (x.toList ++ ['\'']))
  -- python_expression.py:98-102
  | .pyExpr x ms => calledWith "PythonExpr" (plusJoin (Sub.describeAll repr x) ++ [',', ' ', '['] ++ commaJoin (Sub.describeAll repr ms) ++ [']'])
  -- command.py:88-90
  | .command c _ => calledWith "Command" (plusJoin (Sub.describeAll repr c))
  -- find_executable.py:57-59
  | .findExec n => calledWith "FindExec" (plusJoin (Sub.describeAll repr n))
  -- file_content.py:56-59
  | .fileContent p => calledWith "FileContent" (commaJoin (Sub.describeAll repr p))
  -- this_launch_file.py:42-44
  | .thisLaunchFile => calledWith "ThisLaunchFile" []
  -- this_launch_file_dir.py:42-44
  | .thisLaunchFileDir => calledWith "ThisLaunchFileDir" []
  -- launch_log_dir.py:43-45
  | .launchLogDir => calledWith "LaunchLogDir" []

/-- `[sub.describe() for sub in subs]`. -/
def Sub.describeAll (repr : List Sub → List Char) : List Sub → List (List Char)
  | [] => []
  | s :: ss => s.describe repr :: Sub.describeAll repr ss
end

/-- The description of a DeclareLaunchArgument, given its arguments `description` and `choices` (as the text `str(choices)`),
declare_launch_argument.py:140-151. -/
def argDescription (description choices : Option (List Char)) : List Char :=
  match description, choices with
  | none, none => "no description given".toList
  | none, some cs => "One of: ".toList ++ cs
  | some d, none => d
  | some d, some cs =>
    (if ".".toList.isSuffixOf d then d else d ++ ['.']) ++ (" Valid choices are: ".toList ++ cs)

/-- What is printed of a launch argument: properties of the action, print_arguments.py:21-32. -/
structure ShownArg where
  name : List Char
  conditional : Bool
  description : List Char
  default : Option (List Sub)

/-- One passage of the loop, print_arguments.py:22-33.  The final newline is that of `print`. -/
def printArgument (repr : List Sub → List Char) (a : ShownArg) : List Char :=
  let msg := "\n    '".toList ++ a.name ++ "':".toList
  let msg := if a.conditional then msg ++ ['*'] else msg
  let msg := msg ++ "\n        ".toList ++ a.description
  let msg := match a.default with
    | some d => msg ++ ("\n        (default: ".toList ++ plusJoin (Sub.describeAll repr d) ++ [')'])
    | none => msg
  msg ++ ['\n']

/-- `print_arguments_of_launch_description`, print_arguments.py:16-39, for the arguments that `get_launch_arguments` returned. -/
def printArguments (repr : List Sub → List Char) (args : List ShownArg) : List Char :=
  "Arguments (pass arguments as '<name>:=<value>'):\n".toList ++ args.flatMap (printArgument repr) ++
    (if 0 < args.length then
      if args.any (·.conditional) then "\n* argument(s) which are only used if specific conditions occur\n".toList else []
    else "\n  No arguments.\n".toList)

/-- What a declaration was made with, besides name and condition: `description`, `str(choices)` and `default_value`, declare_launch_argument.py:105-125. -/
structure ArgInfo where
  description : Option (List Char)
  choices : Option (List Char)
  default : Option (List Sub)

/-- What is read of an argument that was found (its flag is the one that the search has stored in it), print_arguments.py:21-32. -/
def ArgEntry.shown (info : ActId → ArgInfo) (e : ArgEntry) : ShownArg :=
  ⟨e.name.toList, e.conditional, argDescription (info e.id).description (info e.id).choices, (info e.id).default⟩

/-- `launch_test --show-args`, print_arguments.py:16-39 with launch_description.py:81-163. -/
def showArguments (repr : List Sub → List Char) (res : Nat → Option (List Entity)) (fuel : Nat) (info : ActId → ArgInfo) (es : List Entity) :
    Option (Res (List Char)) :=
  (getLaunchArguments res fuel es false).map fun r => r.map fun st => printArguments repr (st.entries.map (·.shown info))

/-- The arguments shown for the runs of a launch test: those of the first launch description, launch_test.py:101-106 (which says so in a comment).  `none`: the
launch description does not end or there is no run (IndexError, not reached because loading makes at least one run). -/
def showRuns (repr : List Sub → List Char) (res : Nat → Option (List Entity)) (fuel : Nat) (info : ActId → ArgInfo) (runs : List (List Entity)) :
    Option (Res (List Char)) :=
  match runs with
  | [] => none
  | es :: _ => showArguments repr res fuel info es

end Verif
