import Verif.Model.ShowArgs

/-! # What the list of launch arguments says, and which descriptions tell everything -/

namespace Verif

/-- What a reader learns about an argument. -/
structure SeenArg where
  name : List Char
  conditional : Bool
  description : List Char
  default : Option (List Char)
  deriving DecidableEq

/-- The line for the default value, if there is one. -/
def defaultLine : Option (List Char) → List (List Char)
  | some d => ["        (default: ".toList ++ d ++ ")".toList]
  | none => []

/-- The lines for one argument: an empty one; the name, with a star if the argument is conditional; the description; the default value. -/
def SeenArg.lines (a : SeenArg) : List (List Char) :=
  [[], "    '".toList ++ a.name ++ (if a.conditional then "':*".toList else "':".toList), "        ".toList ++ a.description] ++ defaultLine a.default

/-- `PageSays text args`: the text is a list of lines, a heading, the lines for each argument, and in the end a remark if there is no argument or if there are stars. -/
def PageSays (text : List Char) (args : List SeenArg) : Prop :=
  ∃ lines : List (List Char), (∀ l ∈ lines, '\n' ∉ l) ∧ text = lines.flatMap (· ++ ['\n']) ∧
    lines = "Arguments (pass arguments as '<name>:=<value>'):".toList :: (args.flatMap SeenArg.lines ++
      (if args = [] then [[], "  No arguments.".toList]
      else if ∃ a ∈ args, a.conditional = true then [[], "* argument(s) which are only used if specific conditions occur".toList]
      else []))

/-- The text for a default value: its parts one after another. -/
def ShownArg.seen (repr : List Sub → List Char) (a : ShownArg) : SeenArg :=
  ⟨a.name, a.conditional, a.description, a.default.map fun d => [' ', '+', ' '].intercalate (Sub.describeAll repr d)⟩

mutual
/-- Substitutions made of texts without quotation marks and of those classes that are described by their parts, without defaults and in the default mode. -/
def Sub.Readable : Sub → Prop
  | .text s => '\'' ∉ s.toList
  | .localVar x => '\'' ∉ x.toList
  | .launchConfig n d | .envVar n d => Sub.ReadableAll n ∧ d = none
  | .anonName n | .findExec n | .fileContent n => Sub.ReadableAll n
  | .command c m => Sub.ReadableAll c ∧ m = [.text "fail"]
  | .pathJoin ps => ps ≠ [] ∧ Sub.ReadableAll ps
  | .pyExpr x ms => Sub.ReadableAll x ∧ Sub.ReadableAll ms
  | .thisLaunchFile | .thisLaunchFileDir | .launchLogDir => True
  | .notS _ | .andS _ _ | .orS _ _ | .anyS _ | .allS _ | .equals _ _ | .notEquals _ _ | .ifElse _ _ _ => False

def Sub.ReadableAll : List Sub → Prop
  | [] => True
  | s :: ss => s.Readable ∧ Sub.ReadableAll ss
end

end Verif
