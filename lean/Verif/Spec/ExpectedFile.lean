import Verif.Spec.Lines

/-! # Specification: lines in a text file -/

namespace Verif

/-- A text file that has these lines: each of them, without characters that end lines, is followed by the line end of any of the usual conventions; that of the last
line, unless it is empty, may be missing. -/
inductive WrittenAs : List (List Char) → List Char → Prop
  | empty : WrittenAs [] []
  | last {l : List Char} : l ≠ [] → (∀ c ∈ l, c ∉ lineEnds) → WrittenAs [l] l
  | line {l sep rest : List Char} {ls : List (List Char)} : (∀ c ∈ l, c ∉ lineEnds) → (sep = ['\n'] ∨ sep = ['\r', '\n'] ∨ sep = ['\r'] ∧ rest.head? ≠ some '\n') →
    WrittenAs ls rest → WrittenAs (l :: ls) (l ++ sep ++ rest)

/-- The expected lines are contained, one by one and in this order, in lines of the output: with `strict` in the first ones, without gaps. -/
inductive ContainedIn (strict : Bool) : List (List Char) → List (List Char) → Prop
  | done {ls : List (List Char)} : ContainedIn strict [] ls
  | here {e l : List Char} {es ls : List (List Char)} : e <:+: l → ContainedIn strict es ls → ContainedIn strict (e :: es) (l :: ls)
  | skip {l : List Char} {es ls : List (List Char)} : strict = false → ContainedIn strict es ls → ContainedIn strict es (l :: ls)

end Verif
