/-!
# Output of processes

launch/launch/actions/execute_local.py:364-442, 728-750: the handlers of ProcessStdout and ProcessStderr events and the buffers, for
one process action.  Texts are lists of characters; the formatting of a logged line (`output_format`) is left out, a log is the
list of lines formatted.
-/

namespace Verif

/-- `bytes.decode(errors='replace')` with the default encoding UTF-8.  `bad` tells how many bytes beyond the first one an invalid
sequence covers (CPython: the maximal valid prefix of a sequence); nothing proved depends on it. `fuel`: number of bytes left. -/
def decodeAux (bad : List UInt8 → Nat) : Nat → List UInt8 → List Char
  | 0, _ => []
  | _ + 1, [] => []
  | n + 1, b :: bs =>
    match (b :: bs).toByteArray.utf8DecodeChar? 0 with
    | some c => c :: decodeAux bad n ((b :: bs).drop c.utf8Size)
    | none => '�' :: decodeAux bad n (bs.drop (bad (b :: bs)))

/-- See `decodeAux`. -/
def decodeReplace (bad : List UInt8 → Nat) (bs : List UInt8) : List Char := decodeAux bad bs.length bs

/-- Iterating over an `io.StringIO` (created with the default `newline`): the lines, each with its terminating newline, the last
one possibly without. -/
def readLines : List Char → List (List Char)
  | [] => []
  | c :: cs =>
    if c = '\n' then ['\n'] :: readLines cs
    else match readLines cs with
      | [] => [[c]]
      | l :: ls => (c :: l) :: ls

/-- `line.endswith(os.linesep)` on POSIX. -/
def endsLine (l : List Char) : Bool := l.getLast? == some '\n'

/-- The loop of `__on_process_output`, execute_local.py:379-386: lines logged, and `last_line`. -/
def logLines : List (List Char) → List (List Char) × Option (List Char)
  | [] => ([], none)
  | l :: ls =>
    if endsLine l then (l.dropLast :: (logLines ls).1, (logLines ls).2)
    else ([], some l)

/-- A buffer (`io.StringIO`) and what was logged from it.  `pos` is the cursor, used only with cached output. -/
structure OutBuf where
  text : List Char := []
  pos : Nat := 0
  closed : Bool := false
  logged : List (List Char) := []
  deriving DecidableEq, Repr

namespace OutBuf

/-- `__on_process_output`, execute_local.py:364-389, for the decoded text. -/
def receive (toWrite : List Char) (b : OutBuf) : OutBuf :=
  if b.closed then { b with logged := b.logged ++ [toWrite] }
  else
    let r := logLines (readLines (b.text ++ toWrite))
    { b with logged := b.logged ++ r.1, text := r.2.getD [] }

/-- `__flush_buffers` for one buffer, execute_local.py:392-413; `shut`: there is no shutdown future or it is done.  For a
closed buffer see `Output.handle`. -/
def flush (shut : Bool) (b : OutBuf) : OutBuf :=
  let logged := if b.text = [] then b.logged else b.logged ++ [b.text]
  if shut then { b with logged, closed := true } else { b with logged, text := [] }

/-- The loop of `__on_process_output_cached`, execute_local.py:424-431: the lines logged, and how many characters were read up to the
end of the last of them. -/
def logCached : List (List Char) → List (List Char) × Nat
  | [] => ([], 0)
  | l :: ls =>
    if endsLine l then (l.dropLast :: (logCached ls).1, l.length + (logCached ls).2)
    else ([], 0)

/-- `__on_process_output_cached`, execute_local.py:415-432. -/
def receiveCached (toWrite : List Char) (b : OutBuf) : OutBuf :=
  let text := b.text ++ toWrite
  let r := logCached (readLines (text.drop b.pos))
  { b with text, logged := b.logged ++ r.1, pos := b.pos + r.2 }

/-- `__flush_cached_buffers` for one buffer, execute_local.py:434-442. -/
def flushCached (b : OutBuf) : OutBuf :=
  { b with logged := b.logged ++ readLines (b.text.drop b.pos), pos := b.text.length }

end OutBuf

/-- The two streams. -/
inductive Stream where
  | stdout
  | stderr
  deriving DecidableEq, Repr

/-- What the action's handlers handle: output of the process, its exit; and that the action's shutdown begins. -/
inductive OutEv where
  | io (s : Stream) (bytes : List UInt8)
  | exit
  | shutdown
  deriving DecidableEq, Repr

/-- The output part of a process action; `raised` counts the events whose handling raised. -/
structure Output where
  stdout : OutBuf := {}
  stderr : OutBuf := {}
  shut : Bool := false
  raised : Nat := 0
  deriving DecidableEq, Repr

namespace Output

/-- The buffer of a stream. -/
def stream (o : Output) : Stream → OutBuf
  | .stdout => o.stdout
  | .stderr => o.stderr

/-- Handle one event: execute_local.py:364-442, 680-713.  At an exit `getvalue` of a closed buffer raises ValueError (the buffers are
closed together, so standard output's is closed if any is). -/
def handle (bad : List UInt8 → Nat) (cached : Bool) (o : Output) : OutEv → Output
  | .io .stdout bytes =>
    let t := decodeReplace bad bytes
    { o with stdout := if cached then o.stdout.receiveCached t else o.stdout.receive t }
  | .io .stderr bytes =>
    let t := decodeReplace bad bytes
    { o with stderr := if cached then o.stderr.receiveCached t else o.stderr.receive t }
  | .exit =>
    if cached then { o with stdout := o.stdout.flushCached, stderr := o.stderr.flushCached }
    else if o.stdout.closed then { o with raised := o.raised + 1 }
    else { o with stdout := o.stdout.flush o.shut, stderr := o.stderr.flush o.shut }
  | .shutdown => { o with shut := true }

/-- All events, in order. -/
def handleAll (bad : List UInt8 → Nat) (cached : Bool) (o : Output) (es : List OutEv) : Output :=
  es.foldl (handle bad cached) o

/-- `get_stdout` / `get_stderr`, execute_local.py:728-750; `none`: RuntimeError. -/
def get (cached : Bool) (o : Output) (s : Stream) : Option (List Char) :=
  if cached then some (o.stream s).text else none

end Output
end Verif
