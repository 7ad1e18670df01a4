import Verif.Py.Find
import Verif.Py.Value

/-!
# Matching output with expectations

launch_testing/launch_testing/tools/text.py:20-138 and launch_testing/launch_testing/tools/output.py:25-134.  Texts are lists of characters, compiled
regular expressions are given by what their `match` and `search` methods return.  `os.linesep` is a single newline, as on POSIX systems.
-/

namespace Verif

/-- A compiled regular expression: the range `match(text, pos)` and `search(text, pos)` report. -/
structure Pat where
  atPos : List Char → Nat → Option (Nat × Nat)
  search : List Char → Nat → Option (Nat × Nat)

/-- What can be expected, text.py:38, 51, 64, 94, 107, 119: a string, a regular expression or a list. -/
inductive Expect where
  | str (s : List Char)
  | pat (p : Pat)
  | seq (l : List Expect)

/-- `normalize_lineseps`, text.py:20-26: carriage returns before newlines are removed, once. -/
def normSeps : List Char → List Char
  | [] => []
  | '\r' :: '\n' :: cs => '\n' :: normSeps cs
  | c :: cs => c :: normSeps cs

/-- Can the matcher be made?  `head_match, *tail_matches = […]` raises ValueError for an empty list, text.py:65-67, 120-122. -/
def Expect.buildable : Expect → Bool
  | .str _ => true
  | .pat _ => true
  | .seq l => !l.isEmpty && buildableAll l
where
  /-- All the members. -/
  buildableAll : List Expect → Bool
  | [] => true
  | e :: es => e.buildable && buildableAll es

/-- The body of the matcher of a list without its recursion, text.py:70-79 and 126-135: the check of what the matcher of a member returned, lines 71, 76, 127, 132. -/
def checkNext (strict : Bool) (start : Nat) (r : Option (Nat × Nat)) : Option (Nat × Nat) :=
  match r with
  | none => none
  | some (a, b) => if a < start || (strict && a != start) then none else some (a, b)

/-- `_match` of `build_text_match`, text.py:95-136. -/
def textAt (strict : Bool) (text : List Char) (start : Nat) : Expect → Option (Nat × Nat)
  | .str s =>
    let text := normSeps text
    if strict then (if text.drop start = s then some (start, start + s.length) else none)
    else match pyFind text s start with
      | some i => some (i, i + s.length)
      | none => none
  | .pat p => if strict then p.atPos (normSeps text) start else p.search (normSeps text) start
  | .seq [] => none
  | .seq (e :: es) =>
    let text := normSeps text
    match checkNext strict start (textAt false text start e) with
    | none => none
    | some (a, b) =>
      match textTail strict text b es with
      | none => none
      | some c => some (a, c)
where
  /-- The loop over the tail, text.py:130-134: the end of the last match. -/
  textTail (strict : Bool) (text : List Char) (end_ : Nat) : List Expect → Option Nat
  | [] => some end_
  | e :: es =>
    match checkNext strict end_ (textAt false text end_ e) with
    | none => none
    | some (_, b) => textTail strict text b es

/-- `next((i, i + 1) for i, line in enumerate(lines[start:], start=start) if …)`, text.py:44-48, 57-61. -/
def firstLine (p : List Char → Bool) : List (List Char) → Nat → Option (Nat × Nat)
  | [], _ => none
  | l :: ls, i => if p l then some (i, i + 1) else firstLine p ls (i + 1)

/-- The test of one line, text.py:47, 60; `in` is the search for an occurrence. -/
def Expect.onLine : Expect → List Char → Bool
  | .str s, l => (pyFind l s 0).isSome
  | .pat p, l => (p.atPos l 0).isSome
  | .seq _, _ => false

/-- The strict test of one line, text.py:41, 54. -/
def Expect.onLineStrict : Expect → List Char → Bool
  | .str s, l => s == l
  | .pat p, l => (p.atPos l 0).isSome
  | .seq _, _ => false

/-- The strict matchers of single expectations, text.py:40-43, 53-56. -/
def linesStrict (p : List Char → Bool) (lines : List (List Char)) (start : Nat) : Option (Nat × Nat) :=
  if (lines.drop start).all p then some (start, start + (lines.drop start).length) else none

/-- `_match` of `build_line_match`, text.py:39-80. -/
def lineAt (strict : Bool) (lines : List (List Char)) (start : Nat) : Expect → Option (Nat × Nat)
  | .str s => if strict then linesStrict (Expect.str s).onLineStrict lines start else firstLine (Expect.str s).onLine (lines.drop start) start
  | .pat p => if strict then linesStrict (Expect.pat p).onLineStrict lines start else firstLine (Expect.pat p).onLine (lines.drop start) start
  | .seq [] => none
  | .seq (e :: es) =>
    match checkNext strict start (lineAt false lines start e) with
    | none => none
    | some (a, b) =>
      match lineTail strict lines b es with
      | none => none
      | some c => some (a, c)
where
  /-- The loop over the tail, text.py:74-78. -/
  lineTail (strict : Bool) (lines : List (List Char)) (end_ : Nat) : List Expect → Option Nat
  | [] => some end_
  | e :: es =>
    match checkNext strict end_ (lineAt false lines end_ e) with
    | none => none
    | some (_, b) => lineTail strict lines b es

/-- `build_text_match(expected, strict=strict)(text)`. -/
def textMatch (strict : Bool) (e : Expect) (text : List Char) : Res (Option (Nat × Nat)) :=
  if e.buildable then .ok (textAt strict text 0 e) else .error .valueError

/-- `build_line_match(expected, strict=strict)(lines)`.  The matcher of a regular expression has no default for `start`, text.py:52. -/
def lineMatch (strict : Bool) (e : Expect) (lines : List (List Char)) : Res (Option (Nat × Nat)) :=
  if e.buildable then
    match e with
    | .pat _ => .error .typeError
    | _ => .ok (lineAt strict lines 0 e)
  else .error .valueError

/-- Does `str.splitlines` end a line at this character? -/
def isLineEnd (c : Char) : Bool :=
  c == '\n' || c == '\r' || c == '\x0b' || c == '\x0c' || c == '\x1c' || c == '\x1d' || c == '\x1e' || c == '\u0085' || c == '\u2028' || c == '\u2029'

/-- `str.splitlines`: each line with its end.  (Language semantics.) -/
def splitLinesAux : List Char → List Char → List (List Char × List Char)
  | acc, [] => if acc.isEmpty then [] else [(acc, [])]
  | acc, '\r' :: '\n' :: cs => (acc, ['\r', '\n']) :: splitLinesAux [] cs
  | acc, c :: cs => if isLineEnd c then (acc, [c]) :: splitLinesAux [] cs else splitLinesAux (acc ++ [c]) cs

/-- `text.splitlines()`. -/
def splitLines (t : List Char) : List (List Char) := (splitLinesAux [] t).map (·.1)

/-- `text.splitlines(keepends=True)`. -/
def splitLinesKeep (t : List Char) : List (List Char) := (splitLinesAux [] t).map fun p => p.1 ++ p.2

/-- `_filter` of `basic_output_filter`, output.py:54-64; the defaults are the prefixes 'pid' and 'rc' and no patterns, output.py:25-32, 48-52. -/
def outputFilter (prefixes : Option (List (List Char))) (patterns : Option (List Pat)) (output : List Char) : List Char :=
  let prefixes := prefixes.getD ["pid".toList, "rc".toList]
  let patterns := patterns.getD []
  ((splitLinesKeep output).filter fun line =>
    !(prefixes.any fun p => p.isPrefixOf line) && !(patterns.any fun p => (p.atPos line 0).isSome)).flatten

/-- `'\n'.join(lines)`. -/
def joinNl (lines : List (List Char)) : List Char := ['\n'].intercalate lines

/-- `expect_output`, output.py:115-134; `ansi` is `remove_ansi_escape_sequences`. -/
def expectOutput (ansi : List Char → List Char) (text : Option (List Char)) (lines : Option (List (List Char))) (expText expLines : Option Expect)
    (strip strict : Bool) : Res Bool :=
  if text.isSome = lines.isSome then .error .valueError
  else if expText.isSome = expLines.isSome then .error .valueError
  else match expText with
    | some e =>
      let t := match text with
        | some t => t
        | none => joinNl (lines.getD [])
      if e.buildable then
        match textMatch strict e (if strip then ansi t else t) with
        | .ok r => .ok r.isSome
        | .error x => .error x
      else .error .valueError
    | none =>
      match expLines with
      | none => .error .valueError
      | some e =>
        let ls := match lines with
          | some ls => ls
          | none => splitLines (text.getD [])
        match lineMatch strict e (if strip then ls.map ansi else ls) with
        | .ok r => .ok r.isSome
        | .error x => .error x

end Verif
