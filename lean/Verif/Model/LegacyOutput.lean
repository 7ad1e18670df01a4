import Verif.Model.Legacy

/-!
# Output tests of the legacy test service

launch_testing/launch_testing/legacy/output.py.  Byte strings are lists of numbers, 10 is `\n` and 13 is `\r`.
-/

namespace Verif

/-- A byte string. -/
abbrev Bytes := List Nat

/-- `bytes.splitlines`; `acc` is the current line.  (Language semantics.) -/
def bLinesAux : Bytes → Bytes → List Bytes
  | acc, [] => if acc.isEmpty then [] else [acc]
  | acc, 13 :: 10 :: cs => acc :: bLinesAux [] cs
  | acc, c :: cs => if c = 10 ∨ c = 13 then acc :: bLinesAux [] cs else bLinesAux (acc ++ [c]) cs

/-- `output.splitlines()` -/
def bLines (t : Bytes) : List Bytes := bLinesAux [] t

/-- `pattern in line` -/
def bIn (p : Bytes) : Bytes → Bool
  | [] => p.isEmpty
  | c :: cs => p.isPrefixOf (c :: cs) || bIn p cs

/-- The two parameters that may be left out and have defaults, legacy/output.py:22-29, 65-66: an empty list is replaced as well. -/
def lgPrefixes (given : Option (List Bytes)) : List Bytes :=
  match given with
  | some (p :: ps) => p :: ps
  | _ => [[112, 105, 100], [114, 99]]

/-- `any(pattern.match(line) for pattern in filtered_patterns)`, line 84: `filtered_patterns` is an iterator (line 74), so that what is looked at is gone.
A pattern is given by the lines it matches.  Whether one matches and the patterns that are left. -/
def anyConsume (line : Bytes) : List (Bytes → Bool) → Bool × List (Bytes → Bool)
  | [] => (false, [])
  | p :: ps => if p line then (true, ps) else anyConsume line ps

/-- The loop of `_filter`, lines 78-86: the lines that are kept and the patterns that are left. -/
def lgKeep (prefixes : List Bytes) : List (Bytes → Bool) → List Bytes → List Bytes × List (Bytes → Bool)
  | ps, [] => ([], ps)
  | ps, l :: ls =>
    if prefixes.any (·.isPrefixOf l) then lgKeep prefixes ps ls
    else
      let r := anyConsume l ps
      let r' := lgKeep prefixes r.2 ls
      (if r.1 then r'.1 else l :: r'.1, r'.2)

/-- `_filter`, lines 77-89, with `os.linesep` being `\n`: the filtered output and the patterns that are left for the next output.  The filters of an RMW
implementation (lines 32-46, 67-73), which only extend the two lists, are part of them. -/
def lgFilter (prefixes : List Bytes) (ps : List (Bytes → Bool)) (output : Bytes) : Bytes × List (Bytes → Bool) :=
  let r := lgKeep prefixes ps (bLines output)
  ([10].intercalate (if [10].isSuffixOf output then r.1 ++ [[10]] else r.1), r.2)

/-- One output after the other is filtered by the same filter. -/
def lgFilterAll (prefixes : List Bytes) : List (Bytes → Bool) → List Bytes → List Bytes
  | _, [] => []
  | ps, o :: os => (lgFilter prefixes ps o).1 :: lgFilterAll prefixes (lgFilter prefixes ps o).2 os

/-- `create_output_lines_test` (lines 93-102) as an output test without a filter with patterns.  An empty byte string is false. -/
def lgLinesTest (action : Nat) (suffix : String) (filter : Bytes → Bytes) (shutdownAfter : Bool) : LgOutput Bytes Bytes Bytes :=
  { action, suffix, collate := fun out x => out ++ x, found := fun out p => (bLines out).any (bIn p), truthy := fun p => !p.isEmpty, filter, shutdownAfter }

/-- `create_output_regex_test` (lines 105-114).  A pattern is given by the byte strings in which it is found. -/
def lgRegexTest (action : Nat) (suffix : String) (filter : Bytes → Bytes) (shutdownAfter : Bool) : LgOutput Bytes (Bytes → Bool) Bytes :=
  { action, suffix, collate := fun out x => out ++ [10].intercalate (bLines x), found := fun out p => p out, truthy := fun _ => true, filter, shutdownAfter }

/-- What `create_output_test_from_file` gives: a lines test or a regex test with these patterns. -/
inductive LgFromFile where
  | lines (expected : List Bytes)
  | regex (patterns : List (Bytes → Bool))

/-- `create_output_test_from_file`, legacy/output.py:117-136.  `txt` and `regex` are the contents of the two files, if there are such files; `compile` is `re.compile`,
which may raise `re.error` (`.other 0`). -/
def lgFromFile (compile : Bytes → Option (Bytes → Bool)) (txt regex : Option Bytes) : Res LgFromFile :=
  match txt with
  | some t => .ok (.lines (bLines t))
  | none =>
    match regex with
    | some t =>
      match (bLines t).mapM compile with
      | some ps => .ok (.regex ps)
      | none => .error (.other 0)
    | none => .error .runtimeError

end Verif
