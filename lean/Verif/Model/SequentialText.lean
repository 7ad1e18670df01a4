import Verif.Model.ProcLookup

/-!
# SequentialTextChecker

launch_testing/launch_testing/asserts/assert_sequential_output.py.
-/

namespace Verif

/-- The checker, assert_sequential_output.py:32-35: the chunks of output, the index of the current chunk and the position in it. -/
structure SeqChecker where
  output : List (List Char)
  array : Nat := 0
  sub : Nat := 0
  deriving DecidableEq, Repr

/-- The loop over the chunks from the current one on, assert_sequential_output.py:48-60: where the message was found, as the new indices. -/
def seqFind (msg : List Char) : List (List Char) → Nat → Nat → Option (Nat × Nat)
  | [], _, _ => none
  | text :: rest, array, sub =>
    match pyFind text msg sub with
    | some found => some (array, found + msg.length)
    | none => seqFind msg rest (array + 1) 0

/-- `assertInStdout`, assert_sequential_output.py:40-69: the checker afterwards, and AssertionError if the message was not found. -/
def SeqChecker.assertIn (s : SeqChecker) (msg : List Char) : SeqChecker × Res Unit :=
  match seqFind msg (s.output.drop s.array) s.array s.sub with
  | some (a, b) => ({ s with array := a, sub := b }, .ok ())
  | none => (s, .error .assertionError)

/-- A sequence of calls, each of them made whatever the result of the earlier ones was: the results. -/
def SeqChecker.runAll (s : SeqChecker) : List (List Char) → List Bool
  | [] => []
  | m :: ms =>
    match s.assertIn m with
    | (s', .ok _) => true :: s'.runAll ms
    | (s', .error _) => false :: s'.runAll ms

/-- `full_text.rfind('\n', 0, e)`; `none` is -1. -/
def lastNewline (t : List Char) (e : Nat) : Option Nat := ((List.range (min e t.length)).filter (fun i => t[i]? == some '\n')).getLast?

/-- One step of the first loop, assert_sequential_output.py:86-87. -/
def lineBack (t : List Char) (e : Nat) : Nat := (lastNewline t e).getD 0

/-- One step of the second loop, assert_sequential_output.py:95-96. -/
def lineOn (t : List Char) (e : Nat) : Nat := (pyFind t ['\n'] (e + 1)).getD e

/-- `get_nearby_lines`, assert_sequential_output.py:70-98: what the message of a failure shows. -/
def SeqChecker.nearby (s : SeqChecker) : List Char :=
  let start := s.array - 2
  let full := ((s.output.take (s.array + 4)).drop start).flatten
  let pos := s.sub + ((s.output.take s.array).drop start).flatten.length
  let a := lineBack full (lineBack full (lineBack full pos))
  let a := if a ≠ 0 then a + 1 else a
  let e := lineOn full (lineOn full (lineOn full pos))
  (full.take e).drop a

/-- `assertSequentialStdout`, assert_sequential_output.py:98-136: the checker it yields. -/
def assertSequentialStdout (det : Nat → ProcDetails) (h : IoHandler) (q : ProcQuery) (args : ArgQuery) : Res SeqChecker :=
  match resolveProcesses det h.processes q args true with
  | .error e => .error e
  | .ok ps =>
    match ps with
    | [] => .error .indexError
    | p :: _ =>
      match h.byAction det p with
      | .error e => .error e
      | .ok l =>
        match mapEach Io.decoded l with
        | .error e => .error e
        | .ok ts => .ok { output := ts }

end Verif
