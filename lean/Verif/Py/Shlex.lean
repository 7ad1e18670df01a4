/-!
# `shlex.split`

CPython `shlex.split(s)`: POSIX mode, splitting on whitespace only, no comments.  (Library semantics, not code of `/repo`.)
The reader is written over any kind of symbol with a classification as characters, so that the specification of C43 can use it for
texts with embedded substitutions.
-/

namespace Verif
namespace Shlex

/-- `shlex.whitespace`. -/
def white (c : Char) : Bool := c == ' ' || c == '\t' || c == '\r' || c == '\n'

/-- Where the reader is: between or inside words, inside a quotation, or after a backslash (outside or inside a double quotation). -/
inductive Mode where
  | plain
  | quote (q : Char)
  | esc
  | escQuote
  deriving DecidableEq, Repr

/-- The state: the words read, and the word being read, if any. -/
structure St (α : Type) where
  mode : Mode := .plain
  words : List (List α) := []
  word : Option (List α) := none
  deriving Repr

/-- One symbol.  `cls` gives the character of a symbol; a symbol without one is an ordinary constituent of a word.
`shlex.read_token`: an escape inside a double quotation only applies to the quotation mark and the backslash, otherwise both characters
are kept; `back` is the backslash symbol to be kept. -/
def step {α : Type} (cls : α → Option Char) (back : α) (s : St α) (x : α) : St α :=
  let add (w : Option (List α)) : Option (List α) := some (w.getD [] ++ [x])
  match s.mode with
  | .plain =>
    match cls x with
    | some c =>
      if white c then
        match s.word with
        | none => s
        | some w => { s with words := s.words ++ [w], word := none }
      else if c = '\\' then { s with mode := .esc }
      else if c = '\'' ∨ c = '"' then { s with mode := .quote c, word := some (s.word.getD []) }
      else { s with word := add s.word }
    | none => { s with word := add s.word }
  | .quote q =>
    if cls x = some q then { s with mode := .plain }
    else if cls x = some '\\' ∧ q = '"' then { s with mode := .escQuote }
    else { s with word := add s.word }
  | .esc => { s with mode := .plain, word := add s.word }
  | .escQuote =>
    if cls x = some '"' ∨ cls x = some '\\' then { s with mode := .quote '"', word := add s.word }
    else { s with mode := .quote '"', word := some (s.word.getD [] ++ [back, x]) }

/-- The end of the text: an open quotation or a trailing backslash raises ValueError (`none`). -/
def finish {α : Type} (s : St α) : Option (List (List α)) :=
  match s.mode with
  | .plain => some (s.words ++ s.word.toList)
  | _ => none

/-- Split a sequence of symbols. -/
def splitBy {α : Type} (cls : α → Option Char) (back : α) (l : List α) : Option (List (List α)) :=
  finish (l.foldl (step cls back) {})

/-- `shlex.split(text)`; `none`: ValueError. -/
def split (l : List Char) : Option (List (List Char)) := splitBy some '\\' l

example : split "a 'b c'd  \"e\\\"\\f\" \\ g ''".toList = some ["a".toList, "b cd".toList, "e\"\\f".toList, " g".toList, []] := by
  decide +kernel

end Shlex
end Verif
