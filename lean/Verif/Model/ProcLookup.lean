import Verif.Py.Dict
import Verif.Py.Value
import Verif.Py.Find
import Verif.Py.Utf8

/-!
# Recorded processes and their output

launch_testing: io_handler.py (IoHandler), proc_info_handler.py (ProcInfoHandler), util/proc_lookup.py, asserts/assert_exit_codes.py,
asserts/assert_output.py.

Actions are numbered.  Output is bytes.  Not modelled: the messages of the exceptions.
-/

namespace Verif

/-- `process_details` of a started process: its name and command, launch/launch/actions/execute_local.py:257-260. -/
structure ProcDetails where
  name : String
  cmd : List String
  deriving DecidableEq, Repr

/-- A ProcessIO event: the action, the process name, whether it comes from stdout (otherwise from stderr), and the bytes, launch/launch/events/process/process_io.py. -/
structure Io where
  action : Nat
  name : String
  fromStdout : Bool
  text : List UInt8
  deriving DecidableEq, Repr

/-! ## IoHandler -/

/-- `IoHandler`, io_handler.py:38-40. -/
structure IoHandler where
  seq : List Io := []
  dict : Dict (List Io) := []

/-- `track`, io_handler.py:42-44. -/
def IoHandler.track (h : IoHandler) (name : String) : IoHandler :=
  if h.dict.has name then h else { h with dict := h.dict.set name [] }

/-- `append`, io_handler.py:46-50. -/
def IoHandler.append (h : IoHandler) (io : Io) : IoHandler :=
  let d := if h.dict.has io.name then h.dict else h.dict.set io.name []
  match d.get? io.name with
  | some l => { seq := h.seq ++ [io], dict := d.set io.name (l ++ [io]) }
  | none => { seq := h.seq ++ [io], dict := d }

/-- `processes`, io_handler.py:55-61. -/
def IoHandler.processes (h : IoHandler) : List Nat :=
  h.dict.filterMap (fun kv => kv.2.head?.map (·.action))

/-- `__getitem__` for a name, io_handler.py:78-79. -/
def IoHandler.byName (h : IoHandler) (name : String) : Res (List Io) :=
  match h.dict.get? name with
  | some l => .ok l
  | none => .error .keyError

/-- `__getitem__` for an action, io_handler.py:80-81; `det` gives `process_details`. -/
def IoHandler.byAction (det : Nat → ProcDetails) (h : IoHandler) (p : Nat) : Res (List Io) := h.byName (det p).name

/-- A call of `track` or `append`. -/
inductive IoOp where
  | track (name : String)
  | append (io : Io)

/-- The handler after one call. -/
def IoHandler.step (h : IoHandler) : IoOp → IoHandler
  | .track n => h.track n
  | .append io => h.append io

/-- The handler after a history. -/
def IoHandler.run (h : IoHandler) (ops : List IoOp) : IoHandler := ops.foldl IoHandler.step h

/-! ## ProcInfoHandler -/

/-- A ProcessStarted or ProcessExited event. -/
inductive ProcReport where
  | started (action : Nat)
  | exited (action : Nat) (returncode : Int)
  deriving DecidableEq, Repr

/-- The action of an event. -/
def ProcReport.action : ProcReport → Nat
  | .started a => a
  | .exited a _ => a

/-- `self._proc_info`: the events by action, in the order of the first event, proc_info_handler.py:35-36. -/
abbrev ProcInfo := List (Nat × ProcReport)

/-- `self._proc_info[process_info.action] = process_info`, proc_info_handler.py:38-39. -/
def ProcInfo.append : ProcInfo → ProcReport → ProcInfo
  | [], e => [(e.action, e)]
  | (a, e') :: d, e => if a = e.action then (a, e) :: d else (a, e') :: append d e

/-- `processes`, proc_info_handler.py:44-46. -/
def ProcInfo.processes (d : ProcInfo) : List Nat := d.map (·.1)

/-- `__getitem__` for an action, proc_info_handler.py:66-67. -/
def ProcInfo.byAction (d : ProcInfo) (p : Nat) : Res ProcReport :=
  match d.lookup p with
  | some e => .ok e
  | none => .error .keyError

/-- `a in b` for strings. -/
def strIn (a b : String) : Bool := (pyFind b.toList a.toList 0).isSome

/-- `__getitem__` for a name, proc_info_handler.py:59-65: the first process whose name contains the key. -/
def ProcInfo.byName (det : Nat → ProcDetails) (d : ProcInfo) (key : String) : Res ProcReport :=
  match d.find? (fun ae => strIn key (det ae.1).name) with
  | some ae => .ok ae.2
  | none => .error .keyError

/-- The handler after a history of events. -/
def ProcInfo.run (d : ProcInfo) (es : List ProcReport) : ProcInfo := es.foldl ProcInfo.append d

/-! ## resolveProcesses -/

/-- The argument `cmd_args`: None, NO_CMD_ARGS, or a list of arguments (a string is wrapped in a list, proc_lookup.py:122-123). -/
inductive ArgQuery where
  | any
  | noArgs
  | args (l : List String)
  deriving DecidableEq, Repr

/-- The argument `process`: None, an action, a string, or something else. -/
inductive ProcQuery where
  | all
  | action (p : Nat)
  | name (s : String)
  | other
  deriving DecidableEq, Repr

/-- `Exception('Found multiple processes…')`, proc_lookup.py:139. -/
def multipleProcesses : Err := .other 0

/-- `cmd_match_fn`, proc_lookup.py:66-72. -/
def cmdMatch (d : ProcDetails) : ArgQuery → Bool
  | .any => true
  | .noArgs => d.cmd.length == 1
  | .args l => l.all (fun a => decide (a ∈ d.cmd.drop 1))

/-- `_str_name_to_process`, proc_lookup.py:61-77. -/
def strNameToProcess (det : Nat → ProcDetails) (procs : List Nat) (name : String) (args : ArgQuery) : List Nat :=
  procs.filter (fun p => strIn name (det p).name && cmdMatch (det p) args)

/-- `resolveProcesses`, proc_lookup.py:80-152; `procs`: `info_obj.processes()`. -/
def resolveProcesses (det : Nat → ProcDetails) (procs : List Nat) (q : ProcQuery) (args : ArgQuery) (strict : Bool) : Res (List Nat) :=
  match q with
  | .all => if procs.length = 0 then .error .noMatchingProcess else .ok procs
  | .action p => if p ∈ procs then .ok [p] else .error .noMatchingProcess
  | .name s =>
    let ms := strNameToProcess det procs s args
    if ms.length = 0 then .error .noMatchingProcess
    else if strict ∧ ms.length > 1 then .error multipleProcesses
    else .ok ms
  | .other => .error .typeError

/-! ## Assertions -/

/-- The check of one process: `info.returncode`, which ProcessStarted does not have, assert_exit_codes.py:60-65. -/
def checkCode (allowed : List Int) : ProcReport → Res Unit
  | .started _ => .error .attributeError
  | .exited _ rc => if rc ∈ allowed then .ok () else .error .assertionError

/-- `for x in l: f(x)`: stops at the first exception. -/
def forEach {α : Type} (f : α → Res Unit) : List α → Res Unit
  | [] => .ok ()
  | x :: xs =>
    match f x with
    | .error e => .error e
    | .ok _ => forEach f xs

/-- `[f(x) for x in l]`: stops at the first exception. -/
def mapEach {α β : Type} (f : α → Res β) : List α → Res (List β)
  | [] => .ok []
  | x :: xs =>
    match f x with
    | .error e => .error e
    | .ok y =>
      match mapEach f xs with
      | .error e => .error e
      | .ok ys => .ok (y :: ys)

/-- `assertExitCodes`, assert_exit_codes.py:38-65, for integer codes. -/
def assertExitCodes (det : Nat → ProcDetails) (info : ProcInfo) (allowed : List Int) (q : ProcQuery) (args : ArgQuery) (strict : Bool) :
    Res Unit :=
  match resolveProcesses det info.processes q args strict with
  | .error e => .error e
  | .ok toCheck =>
    match mapEach info.byAction toCheck with
    | .error e => .error e
    | .ok infos => forEach (checkCode allowed) infos

/-- The value of `stream`. -/
inductive StreamArg where
  | stdout | stderr | other
  deriving DecidableEq, Repr

/-- `text.decode()`; UnicodeDecodeError is a ValueError. -/
def Io.decoded (io : Io) : Res (List Char) :=
  match decodeStrict io.text with
  | some t => .ok t
  | none => .error .valueError

/-- `''.join(output.text.decode() for output in l)`: each chunk is decoded on its own. -/
def joinDecoded (l : List Io) : Res (List Char) :=
  match mapEach Io.decoded l with
  | .error e => .error e
  | .ok ts => .ok ts.flatten

/-- `''.join(output.text.decode() … if output.from_…)`, assert_output.py:83-92. -/
def streamText (s : StreamArg) (l : List Io) : Res (List Char) :=
  match s with
  | .stdout => joinDecoded (l.filter (·.fromStdout))
  | .stderr => joinDecoded (l.filter (fun io => !io.fromStdout))
  | .other => .error .valueError

/-- The loop over the processes, assert_output.py:81-103; `accepts` strips escape sequences, filters and matches. -/
def anyInStream (det : Nat → ProcDetails) (h : IoHandler) (accepts : List Char → Bool) (stream : StreamArg) : List Nat → Res Unit
  | [] => .error .assertionError
  | p :: ps =>
    match h.byAction det p with
    | .error e => .error e
    | .ok l =>
      match streamText stream l with
      | .error e => .error e
      | .ok t => if accepts t then .ok () else anyInStream det h accepts stream ps

/-- `assertInStream`, assert_output.py:29-105.  (The filter is callable and the expectation valid.) -/
def assertInStream (det : Nat → ProcDetails) (h : IoHandler) (accepts : List Char → Bool) (q : ProcQuery) (args : ArgQuery)
    (strict : Bool) (stream : StreamArg) : Res Unit :=
  match resolveProcesses det h.processes q args strict with
  | .error e => .error e
  | .ok ps => anyInStream det h accepts stream ps

end Verif
