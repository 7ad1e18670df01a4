/-! # Specification: the lines of a text -/

namespace Verif

/-- The characters that end lines (Python's documentation of `str.splitlines`): line feed, carriage return, line tabulation, form feed, the separators of files, groups and
records, next line, and the separators of lines and paragraphs. -/
def lineEnds : List Char := ['\n', '\r', '\x0b', '\x0c', '\x1c', '\x1d', '\x1e', '\u0085', '\u2028', '\u2029']

/-- The lines of a text, each with what ends it: one of these characters, or `\r\n` together; nothing for the last line if the text does not end there. -/
inductive LinesWithEnds : List Char → List (List Char × List Char) → Prop
  | none : LinesWithEnds [] []
  | last {l : List Char} : l ≠ [] → (∀ c ∈ l, c ∉ lineEnds) → LinesWithEnds l [(l, [])]
  | line {l stop rest : List Char} {ps : List (List Char × List Char)} : (∀ c ∈ l, c ∉ lineEnds) →
      (stop = ['\r', '\n'] ∨ ∃ c ∈ lineEnds, stop = [c] ∧ (c = '\r' → rest.head? ≠ some '\n')) → LinesWithEnds rest ps →
      LinesWithEnds (l ++ stop ++ rest) ((l, stop) :: ps)

end Verif
