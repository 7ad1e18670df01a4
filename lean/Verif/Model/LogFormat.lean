import Verif.Model.Logging

/-!
# Formats of log lines and the log directory

launch/launch/logging/__init__.py and launch/launch/logging/handlers.py, on top of the model of loggers and handlers in `Verif.Model.Logging`.

Not modelled: loggers that were created before launch.logging was imported (they propagate), levels of single loggers, exception texts appended by
`logging.Formatter`, handlers other than the default ones, writing errors.
-/

namespace Verif

/-- A piece of a format: a literal text or a field of the record. -/
inductive FmtPiece where
  | lit (s : String)
  | msg
  | message
  | name
  | levelname
  | created
  deriving DecidableEq, Repr

/-- A `logging.Formatter`: one of those that launch makes, or one made from a text of the user. -/
inductive Fmt where
  | pieces (l : List FmtPiece)
  | custom (fmt style : String)
  deriving DecidableEq, Repr

/-- `logging.Formatter('{msg}', style='{')`, logging/__init__.py:471, 502. -/
def Fmt.lineOnly : Fmt := .pieces [.msg]

/-- `logging.Formatter('{created:.7f} {msg}', style='{')`, logging/__init__.py:482. -/
def Fmt.timed : Fmt := .pieces [.created, .lit " ", .msg]

/-- `logging.Formatter(fmt=None)`, i.e. `%(message)s`, logging/__init__.py:492; also what handlers without formatter use. -/
def Fmt.plain : Fmt := .pieces [.message]

/-- '[{levelname}] [{name}]: {msg}', logging/__init__.py:225. -/
def Fmt.screenDefault : Fmt := .pieces [.lit "[", .levelname, .lit "] [", .name, .lit "]: ", .msg]

/-- '{created:.7f} [{levelname}] [{name}]: {msg}', logging/__init__.py:231, 290. -/
def Fmt.withTimestamp : Fmt := .pieces [.created, .lit " [", .levelname, .lit "] [", .name, .lit "]: ", .msg]

/-- A `logging.LogRecord`; `created` is the time with seven digits, `message` is `msg % args`. -/
structure LogRecord where
  logger : String
  level : Nat
  levelname : String
  created : String
  msg : String
  message : String
  deriving DecidableEq, Repr

/-- What is left to the Python library: how a format of the user renders a record, whether `logging.Formatter` accepts it, and
`text.encode('latin1').decode('unicode_escape')`. -/
structure FmtOracle where
  custom : String → String → LogRecord → String
  valid : String → String → Bool
  unescape : String → Res String

/-- The text of a piece. -/
def FmtPiece.render (r : LogRecord) : FmtPiece → String
  | .lit s => s
  | .msg => r.msg
  | .message => r.message
  | .name => r.logger
  | .levelname => r.levelname
  | .created => r.created

/-- `Formatter.format`. -/
def Fmt.render (F : FmtOracle) (r : LogRecord) : Fmt → String
  | .pieces l => String.join (l.map (FmtPiece.render r))
  | .custom f st => F.custom f st r

/-- The state of the logging module: `formatter` and `forLogger` are the attributes `formatter` and `_formatters` of handlers (handlers.py:27-33); `screenFmt` and `fileFmt` those
of launch_config (logging/__init__.py:111-112); `level` is the level of the root logger; `written` is what was written: where, by which logger, and what. -/
structure FmtSt where
  base : LogSt := {}
  formatter : Nat → Option Fmt := fun _ => none
  forLogger : Nat → String → Option Fmt := fun _ _ => none
  screenFmt : Option Fmt := some .screenDefault
  fileFmt : Option Fmt := some .withTimestamp
  level : Nat := 20
  written : List (Option String × String × String) := []

/-- `handler.setFormatter(f)`. -/
def FmtSt.setFormatter (s : FmtSt) (h : Handler) (f : Option Fmt) : FmtSt :=
  { s with formatter := fun i => if i = h.id then f else s.formatter i }

/-- `LaunchConfig.get_screen_handler`, logging/__init__.py:248-262: a new handler gets the current format. -/
def FmtSt.getScreen (s : FmtSt) : FmtSt × Handler :=
  match s.base.getScreen with
  | (b, h) =>
    match s.base.screen with
    | some _ => ({ s with base := b }, h)
    | none => ({ s with base := b }.setFormatter h s.screenFmt, h)

/-- `LaunchConfig.get_log_file_handler`, logging/__init__.py:311-329. -/
def FmtSt.getFile (s : FmtSt) (name : String) : FmtSt × Handler :=
  match s.base.getFile name with
  | (b, h) =>
    match s.base.files.get? name with
    | some _ => ({ s with base := b }, h)
    | none => ({ s with base := b }.setFormatter h s.fileFmt, h)

/-- `if handler not in logger.handlers: logger.addHandler(handler)`. -/
def FmtSt.add (s : FmtSt) (logger : String) (h : Handler) : FmtSt := { s with base := s.base.addHandler logger h }

/-- The same with `handler.setFormatterFor(logger, f)` before, logging/__init__.py:469-473, 480-484; `setFormatterFor` is handlers.py:30-33. -/
def FmtSt.addFor (s : FmtSt) (logger : String) (h : Handler) (f : Fmt) : FmtSt :=
  if h ∈ s.base.handlers logger then s
  else { s with forLogger := fun i l => if i = h.id ∧ l = logger then some f else s.forLogger i l, base := s.base.addHandler logger h }

/-- `get_logger`, logging/__init__.py:344-353. -/
def FmtSt.getLogger (s : FmtSt) (name : String) : FmtSt :=
  match s.getScreen with
  | (s1, h) =>
    match (s1.add name h).getFile "launch.log" with
    | (s2, h2) => s2.add name h2

/-- 'screen' is configured, logging/__init__.py:467-473. -/
def FmtSt.outScreen (s : FmtSt) (logger : String) : FmtSt :=
  match s.getScreen with
  | (s1, h) => s1.addFor logger h .lineOnly

/-- 'log' is configured, logging/__init__.py:477-484. -/
def FmtSt.outLog (s : FmtSt) (logger : String) : FmtSt :=
  match s.getFile "launch.log" with
  | (s1, h) => s1.addFor logger h .timed

/-- 'own_log' is configured, logging/__init__.py:488-495 and 498-505. -/
def FmtSt.outFile (s : FmtSt) (logger file : String) (f : Fmt) : FmtSt :=
  match s.getFile file with
  | (s1, h) => (s1.setFormatter h (some f)).add logger h

/-- One iteration of the loop over 'stdout' and 'stderr', logging/__init__.py:462-505. -/
def FmtSt.outputSource (s : FmtSt) (process source : String) (both own : List String) : FmtSt :=
  let logger := process ++ "-" ++ source
  let s1 := if "screen" ∈ both ∨ "screen" ∈ own then s.outScreen logger else s
  let s2 := if "log" ∈ both ∨ "log" ∈ own then s1.outLog logger else s1
  let s3 := if "own_log" ∈ own then s2.outFile logger (process ++ "-" ++ source ++ ".log") .plain else s2
  if "own_log" ∈ both then s3.outFile logger (process ++ ".log") .lineOnly else s3

/-- `get_output_loggers`, logging/__init__.py:419-509. -/
def FmtSt.getOutput (s : FmtSt) (process : String) (v : OutVal) : FmtSt × Res Unit :=
  match normalizeOutput v with
  | .error e => (s, .error e)
  | .ok cfg => ((s.outputSource process "stdout" cfg.both cfg.stdout).outputSource process "stderr" cfg.both cfg.stderr, .ok ())

/-- The format and style to use: an environment variable that is set and not empty wins, with the style '{'; logging/__init__.py:212-221, 277-286. -/
def overrideFormat (F : FmtOracle) (env : Option String) (fmt style : Option String) : Res (Option String × Option String) :=
  match env with
  | none => .ok (fmt, style)
  | some t =>
    if t = "" then .ok (fmt, style)
    else
      match F.unescape t with
      | .error e => .error e
      | .ok u => .ok (some u, some "{")

/-- The formatter for a format and style that may be an alias, logging/__init__.py:222-243; `aliases` are the aliases with their formatters.  A style cannot
be given with an alias. -/
def makeFormatter (F : FmtOracle) (aliases : List (String × Fmt)) (fmt style : Option String) : Res (Option Fmt) :=
  match fmt with
  | none => .ok none
  | some f =>
    match aliases.lookup f with
    | some a => if style.isSome then .error .valueError else .ok (some a)
    | none => if F.valid f (style.getD "{") then .ok (some (.custom f (style.getD "{"))) else .error .valueError

/-- `LaunchConfig.set_screen_format`, logging/__init__.py:193-246; `env` is the environment of the process. -/
def FmtSt.setScreenFormat (F : FmtOracle) (env : Dict String) (s : FmtSt) (fmt style : Option String) : FmtSt × Res Unit :=
  match overrideFormat F (env.get? "OVERRIDE_LAUNCH_SCREEN_FORMAT") fmt style with
  | .error e => (s, .error e)
  | .ok (f, st) =>
    match makeFormatter F [("default", .screenDefault), ("default_with_timestamp", .withTimestamp)] f st with
    | .error e => (s, .error e)
    | .ok none => ({ s with screenFmt := none }, .ok ())
    | .ok (some a) =>
      match s.base.screen with
      | none => ({ s with screenFmt := some a }, .ok ())
      | some h => ({ s with screenFmt := some a }.setFormatter h (some a), .ok ())

/-- `LaunchConfig.set_log_format`, logging/__init__.py:264-300: all open log files get the format. -/
def FmtSt.setLogFormat (F : FmtOracle) (env : Dict String) (s : FmtSt) (fmt style : Option String) : FmtSt × Res Unit :=
  match overrideFormat F (env.get? "OVERRIDE_LAUNCH_LOG_FORMAT") fmt style with
  | .error e => (s, .error e)
  | .ok (f, st) =>
    match makeFormatter F [("default", .withTimestamp)] f st with
    | .error e => (s, .error e)
    | .ok none => ({ s with fileFmt := none }, .ok ())
    | .ok (some a) =>
      ({ s with fileFmt := some a, formatter := fun i => if s.base.files.any (fun kv => kv.2.id == i) then some a else s.formatter i }, .ok ())

/-- `reset`, logging/__init__.py:531-540, with `LaunchConfig.reset`, lines 107-117. -/
def FmtSt.reset (F : FmtOracle) (env : Dict String) (s : FmtSt) : FmtSt × Res Unit :=
  let s0 : FmtSt := { s with base := s.base.reset, screenFmt := none, fileFmt := none, level := 20 }
  match s0.setScreenFormat F env (some "default") none with
  | (s1, .error e) => (s1, .error e)
  | (s1, .ok ()) => s1.setLogFormat F env (some "default") none

/-- `Handler.format` with per logger formatting, handlers.py:41-45. -/
def FmtSt.format (F : FmtOracle) (s : FmtSt) (h : Handler) (r : LogRecord) : String :=
  match s.forLogger h.id r.logger with
  | some f => f.render F r
  | none => ((s.formatter h.id).getD .plain).render F r

/-- `Logger.handle`: the record goes to each handler of the logger if its level suffices.  Loggers of launch do not propagate, logging/__init__.py:526-528. -/
def FmtSt.log (F : FmtOracle) (s : FmtSt) (r : LogRecord) : FmtSt :=
  if s.level ≤ r.level then
    { s with written := s.written ++ (s.base.handlers r.logger).map fun h => (h.file, r.logger, s.format F h r) }
  else s

/-- What is done with the logging module. -/
inductive FmtOp where
  | getLogger (name : String)
  | getOutput (process : String) (v : OutVal)
  | setScreenFormat (env : Dict String) (fmt style : Option String)
  | setLogFormat (env : Dict String) (fmt style : Option String)
  /-- `launch_config.level = n`, logging/__init__.py:123-130 -/
  | setLevel (n : Nat)
  | reset (env : Dict String)
  | log (r : LogRecord)

/-- One operation; what it raises is left to the caller. -/
def FmtSt.step (F : FmtOracle) (s : FmtSt) : FmtOp → FmtSt
  | .getLogger n => s.getLogger n
  | .getOutput p v => (s.getOutput p v).1
  | .setScreenFormat env f st => (s.setScreenFormat F env f st).1
  | .setLogFormat env f st => (s.setLogFormat F env f st).1
  | .setLevel n => { s with level := n }
  | .reset env => (s.reset F env).1
  | .log r => s.log F r

/-- A history of operations. -/
def FmtSt.run (F : FmtOracle) (s : FmtSt) (ops : List FmtOp) : FmtSt := ops.foldl (FmtSt.step F) s

end Verif
