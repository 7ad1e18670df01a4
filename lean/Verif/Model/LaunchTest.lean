import Verif.Model.TestLoad
import Verif.Model.TestResult

/-!
# The command `launch_test`

launch_testing/launch_testing/launch_test.py:61-142, with the names of runs and tests, loader.py:103-113 and 155-185.

Not modelled: the command line itself, exceptions that are not instances of `Exception` (KeyboardInterrupt, SystemExit in the test file), what is printed.
-/

namespace Verif

/-- A test class of the module: what `unittest.util.strclass` gives for it, whether it is marked with `post_shutdown_test`, and its test methods. -/
structure TestClass where
  name : String
  post : Bool
  methods : List String
  deriving DecidableEq, Repr

/-- A module with launch tests. -/
structure TestModule (V : Type) where
  /-- the arguments of `generate_test_description` -/
  baseArgs : List String
  /-- the arguments of `parametrize`, if it is used -/
  params : Option (String × List (ParamValue V))
  classes : List TestClass

/-- The parameters of each run, loader.py:171-185. -/
def TestModule.runs {V : Type} (M : TestModule V) : List (Dict V) :=
  match M.params with
  | none => [[]]
  | some (argnames, argvalues) => paramRuns argnames argvalues

/-- `sep.join(l)`. -/
def joinChars (sep : List Char) : List (List Char) → List Char
  | [] => []
  | [x] => x
  | x :: y :: l => x ++ sep ++ joinChars sep (y :: l)

/-- `_format_params`, loader.py:162-167; `str` is `str()`. -/
def formatParams {V : Type} (str : V → String) (params : Dict V) : String :=
  if params.isEmpty then "" else String.ofList ('[' :: joinChars [',', ' '] (params.map fun p => (str p.2).toList) ++ [']'])

/-- The tests of run `i` that are marked (or not) as to be run after shutdown, loader.py:103-113 and 196-213: each run has classes of its own, which is what
`classId` stands for: class `j` of run `i` of `n` classes has the number `i * n + j`. -/
def runCases (suffix : String) (i n : Nat) (post : Bool) : List TestClass → Nat → List CaseId
  | [], _ => []
  | c :: cs, j =>
    (if c.post = post then c.methods.map fun m => ⟨i * n + j, c.name, m ++ suffix⟩ else []) ++ runCases suffix i n post cs (j + 1)

/-- The run with number `i`, loader.py:155-167 and 180-185; `ends` tells how its launch ends. -/
def testRun {V : Type} (str : V → String) (name : String) (classes : List TestClass) (ends : Nat → WorkerEnd) (i : Nat) (params : Dict V) : LaunchRun :=
  { name := name ++ formatParams str params
    cases := runCases (formatParams str params) i classes.length false classes 0 ++ runCases (formatParams str params) i classes.length true classes 0
    ends := ends i }

/-- All runs, the first one with the number `i`. -/
def testRunsFrom {V : Type} (str : V → String) (name : String) (classes : List TestClass) (ends : Nat → WorkerEnd) : Nat → List (Dict V) → List LaunchRun
  | _, [] => []
  | i, p :: ps => testRun str name classes ends i p :: testRunsFrom str name classes ends (i + 1) ps

/-- How many runs are launched: those up to one whose launch dies or which raises an exception, test_runner.py:251-273. -/
def launchedRuns : List LaunchRun → Nat
  | [] => 0
  | r :: rs =>
    match r.ends with
    | .results _ => launchedRuns rs + 1
    | .skipTest _ => launchedRuns rs + 1
    | .died => 1
    | .raised _ => 1

/-- A call of the command and what it finds. -/
structure TestCommand (V : Type) where
  /-- `os.path.isfile`, launch_test.py:73 -/
  isFile : Bool
  /-- importing the file, lines 81 and 85; a module without `generate_test_description` gives an AttributeError, loader.py:171 -/
  module : Res (TestModule V)
  /-- `--package-name`, and the name of the file without directory and extension, lines 78-80 -/
  packageName : String
  base : String
  showArgs : Bool
  /-- `--junit-xml` -/
  xmlPath : String
  /-- `test_runs[0].get_launch_description()` and printing its arguments, lines 104-106 -/
  describe : Res Unit
  /-- how the launch of each run ends -/
  ends : Nat → WorkerEnd
  /-- writing the report, line 121 -/
  write : Res Unit

/-- What the command did. -/
structure CommandEnd where
  exit : Nat
  /-- the number of runs that were launched -/
  launched : Nat := 0
  /-- were the arguments shown? -/
  shown : Bool := false
  /-- the report and the path of the file it was written to -/
  report : Option (String × ReportXml) := none
  deriving DecidableEq, Repr

/-- Lines 78-80. -/
def TestCommand.package {V : Type} (c : TestCommand V) : String := if c.packageName = "" then c.base else c.packageName

/-- The runs, lines 85-89. -/
def TestCommand.runs {V : Type} (c : TestCommand V) (str : V → String) (M : TestModule V) : List LaunchRun :=
  testRunsFrom str (c.package ++ "." ++ c.base ++ ".launch_tests") M.classes c.ends 0 M.runs

/-- Lines 109-126 and 138-142. -/
def TestCommand.finish {V : Type} (c : TestCommand V) (runs : List LaunchRun) : CommandEnd :=
  match runAll runs with
  | .error _ => { exit := 2, launched := launchedRuns runs }
  | .ok l =>
    let code := if l.all (fun p => p.2.wasSuccessful) then 0 else 1
    if c.xmlPath = "" then { exit := code, launched := launchedRuns runs }
    else
      match c.write with
      | .error _ => { exit := 2, launched := launchedRuns runs }
      | .ok () => { exit := code, launched := launchedRuns runs, report := some (c.xmlPath, reportXml (c.package ++ "." ++ c.base) l) }

/-- `run` and `main`, lines 69-142.  `parser.error` exits with 2, and `sys.exit(None)` with 0. -/
def TestCommand.main {V : Type} (str : V → String) (c : TestCommand V) : CommandEnd :=
  if c.isFile = false then { exit := 2 }
  else
    match c.module with
    | .error _ => { exit := 2 }
    | .ok M =>
      match validateRuns M.baseArgs M.runs with
      | .error _ => { exit := 2 }
      | .ok () =>
        if c.showArgs then
          match M.runs with
          | [] => { exit := 2 }
          | _ :: _ =>
            match c.describe with
            | .error _ => { exit := 2 }
            | .ok () => { exit := 0, shown := true }
        else c.finish (c.runs str M)

end Verif
