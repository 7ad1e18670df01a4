import Verif.Model.Logging

/-!
# Where the output of a process goes

The documentation of `get_output_loggers` (launch/launch/logging/__init__.py:420-458) as a table.
-/

namespace Verif

/-- A place output can go to. -/
inductive Place where
  | screen      -- the screen
  | launchLog   -- the launch log file
  | own         -- the file `<process>-<source>.log`
  | combined    -- the file `<process>.log`
  deriving DecidableEq, Repr

/-- The file of a place; the screen is none. -/
def Place.file (process source : String) : Place → Option String
  | .screen => none
  | .launchLog => some "launch.log"
  | .own => some (process ++ "-" ++ source ++ ".log")
  | .combined => some (process ++ ".log")

/-- The documented aliases: where the given source goes. -/
def aliasPlaces : String → String → Option (List Place)
  | "screen", _ => some [.screen]
  | "log", "stdout" => some [.launchLog]
  | "log", "stderr" => some [.launchLog, .screen]
  | "both", _ => some [.screen, .launchLog]
  | "own_log", _ => some [.own, .combined]
  | "full", _ => some [.screen, .launchLog, .own, .combined]
  | _, _ => none

/-- The destinations a dictionary names under a key. -/
def named (d : Dict DestVal) (key : String) : List String :=
  match d.get? key with
  | some (.one s) => [s]
  | some (.many l) => l
  | _ => []

/-- What a dictionary sends where. -/
def dictSends (d : Dict DestVal) (source : String) : Place → Prop
  | .screen => "screen" ∈ named d source ∨ "screen" ∈ named d "both"
  | .launchLog => "log" ∈ named d source ∨ "log" ∈ named d "both"
  | .own => "own_log" ∈ named d source
  | .combined => "own_log" ∈ named d "both"

/-- What an output configuration sends where. -/
def sends (v : OutVal) (source : String) (p : Place) : Prop :=
  match v with
  | .text s => ∃ l, aliasPlaces s source = some l ∧ p ∈ l
  | .dict d => dictSends d source p
  | .other => False

/-- The documented values. -/
def OutputDocumented : OutVal → Prop
  | .text s => s = "screen" ∨ s = "log" ∨ s = "both" ∨ s = "own_log" ∨ s = "full"
  | .dict d => ∀ kv ∈ d, (kv.1 = "stdout" ∨ kv.1 = "stderr" ∨ kv.1 = "both") ∧
      match kv.2 with
      | .one s => s = "screen" ∨ s = "log" ∨ s = "own_log"
      | .many l => ∀ s ∈ l, s = "screen" ∨ s = "log" ∨ s = "own_log"
      | .notIterable => False
  | .other => False

/-- The screen and the files a logger writes to, with multiplicity: where a line logged with it appears. -/
def LogSt.reaches (s : LogSt) (logger : String) : List (Option String) := (s.handlers logger).map (·.file)

end Verif
