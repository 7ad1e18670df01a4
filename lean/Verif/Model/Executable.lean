import Verif.Model.Subst
import Verif.Py.Shlex

/-!
# Executable descriptions and command lines

launch/launch/descriptions/executable.py and `ExecuteProcess._parse_cmdline`.
-/

namespace Verif

/-- `os.path.basename` (POSIX). -/
def basename (p : String) : String := String.ofList ((p.toList.reverse.takeWhile (· != '/')).reverse)

/-- `Executable.__init__`, executable.py:77-105.  `pre` is the prefix given (`none`: the default prefix, with a filter).  `cmd` includes
the `arguments` (78-79). -/
structure Exe where
  cmd : List (List Sub)
  pre : Option (List Sub) := none
  name : Option (List Sub) := none
  cwd : Option (List Sub) := none
  env : Option (List (List Sub × List Sub)) := none
  addEnv : Option (List (List Sub × List Sub)) := none
  deriving Repr, Inhabited

/-- What `prepare` computes (`final_cmd`, `final_name`, `final_cwd`, `final_env`). -/
structure Prepared where
  cmd : List String
  name : String
  cwd : Option String
  env : Dict String
  deriving DecidableEq, Repr

/-- `[perform_substitutions(context, x) for x in xs]`, executable.py:173. -/
def performEach (O : Oracle) : List (List Sub) → M (List String)
  | [] => M.pure []
  | x :: xs =>
    M.bind (performSubs O x) fun v =>
    M.bind (performEach O xs) fun vs => M.pure (v :: vs)

/-- The loops of executable.py:196-199 and 202-205.  In `env[key] = value` Python evaluates the value first. -/
def performEnv (O : Oracle) (env : Dict String) : List (List Sub × List Sub) → M (Dict String)
  | [] => M.pure env
  | (k, v) :: rest =>
    M.bind (performSubs O v) fun v' =>
    M.bind (performSubs O k) fun k' => performEnv O (env.set k' v') rest

/-- The prefix, executable.py:80-85. -/
def Exe.prefixSubs (e : Exe) : List Sub := e.pre.getD [.launchConfig [.text "launch-prefix"] (some [.text ""])]

/-- The prefix filter, executable.py:83-85: only with the default prefix. -/
def Exe.filterSubs (e : Exe) : Option (List Sub) :=
  match e.pre with
  | none => some [.launchConfig [.text "launch-prefix-filter"] (some [.text ""])]
  | some _ => none

/-- Whether the prefix is applied, executable.py:175-179. `rx pattern text` is `re.match(pattern, text) is not None`. -/
def Exe.applies (O : Oracle) (rx : String → String → Res Bool) (e : Exe) (cmd : List String) : M Bool :=
  match e.filterSubs with
  | none => M.pure true
  | some f =>
    M.bind (performSubs O f) fun pattern =>
      match cmd with
      | [] => M.raise .indexError
      | p :: _ => M.lift (rx pattern (basename p))

/-- The command, executable.py:172-181. -/
def Exe.command (O : Oracle) (rx : String → String → Res Bool) (e : Exe) : M (List String) :=
  M.bind (performEach O e.cmd) fun cmd =>
  M.bind (e.applies O rx cmd) fun apply =>
    if apply then
      M.bind (performSubs O e.prefixSubs) fun p =>
        match Shlex.split p.toList with
        | none => M.raise .valueError
        | some ws => M.pure (ws.map String.ofList ++ cmd)
    else M.pure cmd

/-- The name without the counter, executable.py:183-184: from the command with its prefix. -/
def Exe.baseName (O : Oracle) (e : Exe) (cmd : List String) : M String :=
  match e.name with
  | some n => performSubs O n
  | none =>
    match cmd with
    | [] => M.raise .indexError
    | p :: _ => M.pure (basename p)

/-- The working directory, executable.py:189-192. -/
def Exe.performCwd (O : Oracle) (e : Exe) : M (Option String) :=
  match e.cwd with
  | none => M.pure none
  | some d => M.bind (performSubs O d) fun s => M.pure (some s)

/-- The environment without `additional_env`, executable.py:193-199. -/
def Exe.baseEnv (O : Oracle) (e : Exe) : M (Dict String) :=
  match e.env with
  | some l => performEnv O [] l
  | none => fun c => (c, .ok c.env)

/-- `additional_env`, executable.py:200-205. -/
def Exe.extendEnv (O : Oracle) (e : Exe) (env : Dict String) : M (Dict String) :=
  match e.addEnv with
  | some l => performEnv O env l
  | none => M.pure env

/-- The working directory and the environment, executable.py:189-206. -/
def Exe.surroundings (O : Oracle) (e : Exe) : M (Option String × Dict String) :=
  M.bind (e.performCwd O) fun cwd =>
  M.bind (e.baseEnv O) fun env =>
  M.bind (e.extendEnv O env) fun env => M.pure (cwd, env)

/-- `Executable.prepare`, executable.py:163-206, with the process-wide counter (37).  What is stored in the description before an exception
is left out. -/
def Exe.prepare (O : Oracle) (rx : String → String → Res Bool) (e : Exe) (counter : Nat) (c : Ctx) : Ctx × Nat × Res Prepared :=
  match M.bind (e.command O rx) (fun cmd => M.bind (e.baseName O cmd) fun n => M.pure (cmd, n)) c with
  | (c', .error x) => (c', counter, .error x)
  | (c', .ok (cmd, n)) =>
    match e.surroundings O c' with
    | (c'', .error x) => (c'', counter + 1, .error x)
    | (c'', .ok (cwd, env)) => (c'', counter + 1, .ok { cmd, name := n ++ "-" ++ toString (counter + 1), cwd, env })

/-! ## Command lines in launch files -/

/-- What `parser.parse_substitution(cmd)` yields: texts (`TextSubstitution`), and other substitutions, here just numbered. -/
inductive Piece where
  | text (s : List Char)
  | sub (n : Nat)
  deriving DecidableEq, Repr

/-- The state of `_parse_cmdline`, execute_process.py:256-257. -/
structure Cmdline where
  args : List (List Piece) := []
  arg : List Piece := []
  deriving DecidableEq, Repr

/-- `_append_arg`, execute_process.py:259-262. -/
def Cmdline.append (s : Cmdline) : Cmdline := { args := s.args ++ [s.arg], arg := [] }

/-- The first character of a text is white (`str.isspace`). -/
def startsWhite (t : List Char) : Bool := (t.head?.map isSpace).getD false

/-- The last character of a text is white. -/
def endsWhite (t : List Char) : Bool := (t.getLast?.map isSpace).getD false

/-- The body of the loop of `_parse_cmdline`, execute_process.py:263-298; `none`: `shlex.split` raised ValueError. -/
def Cmdline.step (s : Cmdline) : Piece → Option Cmdline
  | .sub n => some { s with arg := s.arg ++ [.sub n] }
  | .text t =>
    match Shlex.split t with
    | none => none
    | some [] => some s.append
    | some (w :: ws) =>
      let s := if startsWhite t && !s.arg.isEmpty then s.append else s
      let s := { s with arg := s.arg ++ [.text w] }
      let s :=
        match ws.getLast? with
        | none => s
        | some last =>
          let s := s.append
          { args := s.args ++ ws.dropLast.map (fun x => [.text x]), arg := [.text last] }
      some (if endsWhite t then s.append else s)

/-- The loop. -/
def Cmdline.run (s : Cmdline) : List Piece → Option Cmdline
  | [] => some s
  | p :: ps => (s.step p).bind fun s' => s'.run ps

/-- `ExecuteProcess._parse_cmdline`, execute_process.py:243-301. -/
def parseCmdline (ps : List Piece) : Option (List (List Piece)) :=
  (Cmdline.run {} ps).map fun s => if s.arg = [] then s.args else s.args ++ [s.arg]

end Verif
