import Verif.Model.Subst

/-!
# Output loggers

launch/launch/logging/__init__.py: output configurations, loggers and their handlers, and the `output` argument of ExecuteLocal.

Not modelled here: formats, levels and the contents of the log files (see `Verif.Model.LogFormat`), the log directory (see `Verif.Model.LogDir`).
-/

namespace Verif

/-- The value of one key of an output dictionary: a string, an iterable of strings, or something else.  A destination or key
that is not a string is treated like a string that is no destination or key (both are compared with `in`, lines 395 and 403). -/
inductive DestVal where
  | one (s : String)
  | many (l : List String)
  | notIterable
  deriving DecidableEq, Repr

/-- The `output_config` of `get_output_loggers`: a string, a dictionary, or something else. -/
inductive OutVal where
  | text (s : String)
  | dict (d : Dict DestVal)
  | other
  deriving DecidableEq, Repr

/-- A normalized configuration: a set of destinations for each of the three sources, logging/__init__.py:362-364. -/
structure OutCfg where
  both : List String := []
  stdout : List String := []
  stderr : List String := []
  deriving DecidableEq, Repr

/-- The aliases, logging/__init__.py:365-393. -/
def normalizeText (s : String) : Res OutCfg :=
  if s = "screen" then .ok { both := ["screen"] }
  else if s = "log" then .ok { both := ["log"], stderr := ["screen"] }
  else if s = "both" then .ok { both := ["log", "screen"] }
  else if s = "own_log" then .ok { both := ["own_log"], stdout := ["own_log"], stderr := ["own_log"] }
  else if s = "full" then .ok { both := ["screen", "log", "own_log"], stdout := ["own_log"], stderr := ["own_log"] }
  else .error .valueError

/-- The destinations of one key, checked, logging/__init__.py:401-408. -/
def normalizeDests : DestVal → Res (List String)
  | .one s => if s = "screen" ∨ s = "log" ∨ s = "own_log" then .ok [s] else .error .valueError
  | .many l => if l.all (fun s => s = "screen" ∨ s = "log" ∨ s = "own_log") then .ok l else .error .valueError
  | .notIterable => .error .typeError

/-- The loop over the items of a dictionary, logging/__init__.py:395-409. -/
def normalizeItems : Dict DestVal → OutCfg → Res OutCfg
  | [], cfg => .ok cfg
  | (k, v) :: d, cfg =>
    if k = "stdout" ∨ k = "stderr" ∨ k = "both" then
      match normalizeDests v with
      | .error e => .error e
      | .ok l =>
        normalizeItems d (if k = "stdout" then { cfg with stdout := l }
          else if k = "stderr" then { cfg with stderr := l } else { cfg with both := l })
    else .error .valueError

/-- `_normalize_output_configuration`, logging/__init__.py:356-416. -/
def normalizeOutput : OutVal → Res OutCfg
  | .text s => normalizeText s
  | .dict d => normalizeItems d {}
  | .other => .error .valueError

/-- A handler object: its identity, and the file it writes to (`none`: the screen). -/
structure Handler where
  id : Nat
  file : Option String
  deriving DecidableEq, Repr

/-- The logging state: `screen` and `files` are `launch_config.screen_handler` and `launch_config.file_handlers`, logging/__init__.py:107-117;
`handlers` the handlers of each logger, in order; `next` numbers the handlers created. -/
structure LogSt where
  next : Nat := 0
  screen : Option Handler := none
  files : Dict Handler := []
  handlers : String → List Handler := fun _ => []

/-- `LaunchConfig.get_screen_handler`, logging/__init__.py:248-262. -/
def LogSt.getScreen (s : LogSt) : LogSt × Handler :=
  match s.screen with
  | some h => (s, h)
  | none =>
    let h : Handler := ⟨s.next, none⟩
    ({ s with next := s.next + 1, screen := some h }, h)

/-- `LaunchConfig.get_log_file_handler`, logging/__init__.py:311-329. -/
def LogSt.getFile (s : LogSt) (name : String) : LogSt × Handler :=
  match s.files.get? name with
  | some h => (s, h)
  | none =>
    let h : Handler := ⟨s.next, some name⟩
    ({ s with next := s.next + 1, files := s.files.set name h }, h)

/-- `if handler not in logger.handlers: logger.addHandler(handler)`, e.g. logging/__init__.py:348-349. -/
def LogSt.addHandler (s : LogSt) (logger : String) (h : Handler) : LogSt :=
  if h ∈ s.handlers logger then s
  else { s with handlers := fun l => if l = logger then s.handlers logger ++ [h] else s.handlers l }

/-- Get the screen handler and add it. -/
def LogSt.addScreen (s : LogSt) (logger : String) : LogSt :=
  let (s1, h) := s.getScreen
  s1.addHandler logger h

/-- Get the handler of a file and add it. -/
def LogSt.addFile (s : LogSt) (logger file : String) : LogSt :=
  let (s1, h) := s.getFile file
  s1.addHandler logger h

/-- `get_logger`, logging/__init__.py:344-353. -/
def LogSt.getLogger (s : LogSt) (name : String) : LogSt := (s.addScreen name).addFile name "launch.log"

/-- One iteration of the loop over 'stdout' and 'stderr' in `get_output_loggers`, logging/__init__.py:464-503. -/
def LogSt.outputSource (s : LogSt) (process source : String) (both own : List String) : LogSt :=
  let logger := process ++ "-" ++ source
  let s1 := if "screen" ∈ both ∨ "screen" ∈ own then s.addScreen logger else s
  let s2 := if "log" ∈ both ∨ "log" ∈ own then s1.addFile logger "launch.log" else s1
  let s3 := if "own_log" ∈ own then s2.addFile logger (process ++ "-" ++ source ++ ".log") else s2
  if "own_log" ∈ both then s3.addFile logger (process ++ ".log") else s3

/-- `get_output_loggers`, logging/__init__.py:419-509.  The two loggers returned are the ones named after process and source. -/
def LogSt.getOutput (s : LogSt) (process : String) (v : OutVal) : LogSt × Res Unit :=
  match normalizeOutput v with
  | .error e => (s, .error e)
  | .ok cfg => ((s.outputSource process "stdout" cfg.both cfg.stdout).outputSource process "stderr" cfg.both cfg.stderr, .ok ())

/-- `reset`, logging/__init__.py:531-540: no handlers anywhere, and new handler objects from now on. -/
def LogSt.reset (s : LogSt) : LogSt := { next := s.next }

/-- What is done with the logging module. -/
inductive LogOp where
  | getLogger (name : String)
  | getOutput (process : String) (v : OutVal)
  | reset

/-- One operation. -/
def LogSt.step (s : LogSt) : LogOp → LogSt
  | .getLogger n => s.getLogger n
  | .getOutput p v => (s.getOutput p v).1
  | .reset => s.reset

/-- A history of operations. -/
def LogSt.run (s : LogSt) (ops : List LogOp) : LogSt := ops.foldl LogSt.step s

/-- The `output` argument of ExecuteLocal, launch/launch/actions/execute_local.py:196-203: a dictionary, or substitutions. -/
inductive OutArg where
  | subs (l : List Sub)
  | dict (d : Dict DestVal)

/-- The constructor: the environment variable OVERRIDE_LAUNCH_PROCESS_OUTPUT, as it is then, wins, execute_local.py:196-203. -/
def outputArg (env : Dict String) (output : OutArg) : OutArg :=
  match env.get? "OVERRIDE_LAUNCH_PROCESS_OUTPUT" with
  | some t => .subs [.text t]
  | none => output

/-- The part of `execute` that gets the loggers, execute_local.py:708-716. -/
def processLoggers (O : Oracle) (name : String) (output : OutArg) (s : LogSt) (c : Ctx) : LogSt × Ctx × Res Unit :=
  let s1 := s.getLogger name
  match output with
  | .dict d =>
    let (s2, r) := s1.getOutput name (.dict d)
    (s2, c, r)
  | .subs l =>
    match performSubs O l c with
    | (c1, .error e) => (s1, c1, .error e)
    | (c1, .ok t) =>
      let (s2, r) := s1.getOutput name (.text t)
      (s2, c1, r)

end Verif
