import Verif.Model.TextMatch

/-!
# Expected output in files

`expected_output_from_file`, launch_testing/launch_testing/tools/output.py:68-88.
-/

namespace Verif

/-- What `open(…, 'r')` makes of line ends: `\r\n` and `\r` become `\n` (universal newlines).  (Language semantics.) -/
def universalNewlines : List Char → List Char
  | [] => []
  | '\r' :: '\n' :: cs => '\n' :: universalNewlines cs
  | c :: cs => (if c = '\r' then '\n' else c) :: universalNewlines cs

/-- `f.read().splitlines()`, tools/output.py:79, 84; `content` is the decoded content of the file. -/
def fileLines (content : List Char) : List (List Char) := splitLines (universalNewlines content)

/-- `re.compile` for each line, tools/output.py:84; `compile` raises `re.error` (`.other 0`) for what is no regular expression. -/
def compileAll (compile : List Char → Option Pat) : List (List Char) → Res (List Pat)
  | [] => .ok []
  | l :: ls =>
    match compile l with
    | none => .error (.other 0)
    | some p =>
      match compileAll compile ls with
      | .error e => .error e
      | .ok ps => .ok (p :: ps)

/-- `expected_output_from_file`, tools/output.py:68-88: `txt` and `regex` are the contents of the two files, if there are such files.  The result is a list of strings
or regular expressions. -/
def expectedFromFile (compile : List Char → Option Pat) (txt regex : Option (List Char)) : Res Expect :=
  match txt with
  | some t => .ok (.seq ((fileLines t).map .str))
  | none =>
    match regex with
    | some t =>
      match compileAll compile (fileLines t) with
      | .error e => .error e
      | .ok ps => .ok (.seq (ps.map .pat))
    | none => .error .runtimeError

end Verif
