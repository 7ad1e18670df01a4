import Verif.Py.Path
import Verif.Model.Subst

/-!
# The log directory

launch/launch/logging/__init__.py:41-171 and 302-338: where the log directory is, how it is made, the link to the latest one, and which directory log files are in.

Any number of workers (threads of any number of launch processes on any number of hosts that share a file system) make their log directories at the same time, one system call at a
time, in any order, and may stop at any time.

Simplifications: a path is a directory and a name in it, different paths are different places; permissions and full disks are left out.
-/

namespace Verif

/-- `os.environ.get(k)`, where the empty string counts as not set (`if not log_dir`), logging/__init__.py:55-58. -/
def envNonEmpty (env : Dict String) (k : String) : Option String := (env.get? k).filter fun v => v ≠ ""

/-- `_get_logging_directory`, logging/__init__.py:41-61; `env` is the environment. -/
def loggingDirectory (env : Dict String) (home : List Char → Option (List Char)) : String :=
  let dir := match envNonEmpty env "ROS_LOG_DIR" with
    | some d => d
    | none => joinPath2 ((envNonEmpty env "ROS_HOME").getD (joinPath2 "~" ".ros")) "log"
  String.ofList (normPath (expandUser home dir.toList))

/-- What `datetime.datetime.now()` returns. -/
structure Stamp where
  year : Nat
  month : Nat
  day : Nat
  hour : Nat
  minute : Nat
  second : Nat
  micro : Nat
  deriving DecidableEq, Repr

/-- A number with leading zeros. -/
def padded (width n : Nat) : List Char :=
  List.replicate (width - (Nat.toDigits 10 n).length) '0' ++ Nat.toDigits 10 n

/-- `now.strftime('%Y-%m-%d-%H-%M-%S-%f')`, logging/__init__.py:73. -/
def Stamp.text (t : Stamp) : List Char :=
  padded 4 t.year ++ '-' :: padded 2 t.month ++ '-' :: padded 2 t.day ++ '-' :: padded 2 t.hour ++ '-' :: padded 2 t.minute ++ '-' :: padded 2 t.second ++
    '-' :: padded 6 t.micro

/-- The name of a log directory, logging/__init__.py:74-76. -/
def logDirName (t : Stamp) (host : List Char) (pid : Nat) : List Char := t.text ++ '-' :: host ++ '-' :: Nat.toDigits 10 pid

/-- A directory and a name in it. -/
abbrev LPath := List Char × List Char

/-- What there can be at a path. -/
inductive LdNode where
  | dir
  | link (target : LPath)
  | other
  deriving DecidableEq, Repr

/-- Where a worker is in `log_dir`, logging/__init__.py:133-153. -/
inductive LdPhase where
  /-- before `_make_unique_log_dir`, or in its loop -/
  | start
  /-- after `isdir` was False, line 80 -/
  | checked (dir : LPath)
  /-- the log directory is made, line 81 -/
  | made (dir : LPath)
  /-- after `lexists` was True, line 95 -/
  | there (dir : LPath)
  /-- after `islink` was True, line 96 -/
  | isLink (dir : LPath)
  /-- after `unlink`, line 98, or after `lexists` was False -/
  | free (dir : LPath)
  /-- `log_dir` returned; `warned`: with a warning -/
  | done (dir : LPath) (warned : Bool)
  /-- `log_dir` raised FileExistsError -/
  | raised
  /-- killed -/
  | dead (dir : Option LPath)
  deriving DecidableEq, Repr

/-- Who the workers are: the base path of each, the name of its host and the number of its process. -/
structure LdWho where
  base : Nat → List Char
  host : Nat → List Char
  pid : Nat → Nat

/-- The file system and the workers.  `made` is a ghost field: the directories that `log_dir` made or took, in order. -/
structure LdState where
  fs : LPath → Option LdNode := fun _ => none
  phase : Nat → LdPhase := fun _ => .start
  made : List (Nat × LPath) := []

/-- What can happen. -/
inductive LdLabel where
  /-- reading the clock, and `isdir`, logging/__init__.py:72-80 -/
  | look (w : Nat) (t : Stamp)
  /-- `makedirs`, line 81 -/
  | make (w : Nat)
  /-- `lexists`, line 95 -/
  | lexists (w : Nat)
  /-- `islink`, line 96 -/
  | islink (w : Nat)
  /-- `unlink`, line 98 -/
  | unlink (w : Nat)
  /-- `symlink`, line 99 -/
  | symlink (w : Nat)
  /-- the process is killed -/
  | kill (w : Nat)
  /-- something else changes the file system -/
  | other (p : LPath) (n : Option LdNode)
  deriving DecidableEq, Repr

namespace LdState

/-- `os.path.isdir`, which follows links (simplified: a link to a link is not followed; the code makes links to directories only). -/
def isdir (s : LdState) (p : LPath) : Bool :=
  match s.fs p with
  | some .dir => true
  | some (.link q) => s.fs q == some .dir
  | _ => false

/-- The phase of a worker is changed. -/
def setPhase (s : LdState) (w : Nat) (ph : LdPhase) : LdState := { s with phase := fun v => if v = w then ph else s.phase v }

/-- What is at a path is changed. -/
def setNode (s : LdState) (p : LPath) (n : Option LdNode) : LdState := { s with fs := fun q => if q = p then n else s.fs q }

/-- The path `latest`, logging/__init__.py:92-93: `dirname(log_dir)` is the base path. -/
def latest (d : LPath) : LPath := (d.1, "latest".toList)

/-- One step; `none` when the label is not enabled. -/
def step (who : LdWho) (s : LdState) : LdLabel → Option LdState
  -- logging/__init__.py:71-80
  | .look w t =>
    if s.phase w = .start then
      let d : LPath := (who.base w, logDirName t (who.host w) (who.pid w))
      if s.isdir d then some s else some (s.setPhase w (.checked d))
    else none
  -- line 81: `exist_ok=True` accepts a directory that is there
  | .make w =>
    match s.phase w with
    | .checked d =>
      match s.fs d with
      | none => some { (s.setNode d (some .dir)).setPhase w (.made d) with made := s.made ++ [(w, d)] }
      | some _ => if s.isdir d then some { s.setPhase w (.made d) with made := s.made ++ [(w, d)] } else some (s.setPhase w .raised)
    | _ => none
  -- line 95
  | .lexists w =>
    match s.phase w with
    | .made d => some (s.setPhase w (if (s.fs (latest d)).isSome then .there d else .free d))
    | _ => none
  -- lines 96-97; the warning is lines 142-145
  | .islink w =>
    match s.phase w with
    | .there d =>
      match s.fs (latest d) with
      | some (.link _) => some (s.setPhase w (.isLink d))
      | _ => some (s.setPhase w (.done d true))
    | _ => none
  -- line 98; an OSError is turned into a warning in lines 147-151
  | .unlink w =>
    match s.phase w with
    | .isLink d =>
      match s.fs (latest d) with
      | none | some .dir => some (s.setPhase w (.done d true))
      | some _ => some ((s.setNode (latest d) none).setPhase w (.free d))
    | _ => none
  -- line 99
  | .symlink w =>
    match s.phase w with
    | .free d =>
      match s.fs (latest d) with
      | some _ => some (s.setPhase w (.done d true))
      | none => some ((s.setNode (latest d) (some (.link d))).setPhase w (.done d false))
    | _ => none
  | .kill w =>
    some (s.setPhase w (.dead (match s.phase w with
      | .made d | .there d | .isLink d | .free d | .done d _ => some d
      | _ => none)))
  | .other p n => some (s.setNode p n)

end LdState

/-! ## The directory of a LaunchConfig -/

/-- The state of `launch_config` that concerns the log directory: `_log_dir` and `file_handlers`, with the directory each file was opened in. -/
structure LogConf where
  dir : Option String := none
  files : Dict String := []
  deriving DecidableEq, Repr

namespace LogConf

/-- `log_dir`, logging/__init__.py:133-153; `fresh` is what `_make_unique_log_dir` returns (if it is called). -/
def get (fresh : String) (s : LogConf) : LogConf × String :=
  match s.dir with
  | some d => (s, d)
  | none => ({ s with dir := some fresh }, fresh)

/-- The setter of `log_dir`, logging/__init__.py:155-171, and whether it warns. -/
def set (isdir : String → Bool) (d : Option String) (s : LogConf) : LogConf × Res Bool :=
  match d with
  | none => ({ s with dir := none }, .ok false)
  | some p => if isdir p then ({ s with dir := some p }, .ok (!s.files.isEmpty)) else (s, .error .valueError)

/-- `get_log_file_handler`, logging/__init__.py:311-329: a file is opened at its path (lines 302-310) the first time. -/
def open_ (fresh : String) (name : String) (s : LogConf) : LogConf :=
  if (s.files.get? name).isSome then s
  else
    match s.get fresh with
    | (s1, d) => { s1 with files := s1.files.set name d }

/-- What is done. -/
inductive Op where
  | get (fresh : String)
  | set (isdir : String → Bool) (d : Option String)
  | open_ (fresh name : String)
  /-- `reset`, logging/__init__.py:109-111 -/
  | reset

/-- One operation. -/
def step (s : LogConf) : Op → LogConf
  | .get f => (s.get f).1
  | .set i d => (s.set i d).1
  | .open_ f n => s.open_ f n
  | .reset => {}

/-- A history. -/
def run (s : LogConf) (ops : List Op) : LogConf := ops.foldl step s

end LogConf
end Verif
