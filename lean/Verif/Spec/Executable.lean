import Verif.Model.Executable

/-! # Specification of command lines and prepared executables -/

namespace Verif

/-- A symbol of a command line in a launch file: a character, or an embedded substitution. -/
inductive Sym where
  | char (c : Char)
  | sub (n : Nat)
  deriving DecidableEq, Repr

namespace Sym

/-- The character of a symbol. -/
def cls : Sym → Option Char
  | .char c => some c
  | .sub _ => none

/-- Blank, tab, carriage return or newline. -/
def isWhite : Sym → Bool
  | .char c => Shlex.white c
  | .sub _ => false

/-- A quotation mark or a backslash. -/
def isSpecial : Sym → Bool
  | .char c => c == '\'' || c == '"' || c == '\\'
  | .sub _ => false

end Sym

/-- The symbols of a piece. -/
def Piece.syms : Piece → List Sym
  | .text t => t.map .char
  | .sub n => [.sub n]

/-- The symbols of an argument or a command line. -/
def symsOf (ps : List Piece) : List Sym := ps.flatMap Piece.syms

/-- Splitting like a shell, a substitution being an ordinary part of the word it touches. -/
def shellWords (l : List Sym) : Option (List (List Sym)) := Shlex.splitBy Sym.cls (.char '\\') l

/-- The words of a sequence without quotation marks and backslashes: the maximal runs without white space. -/
inductive IsWords : List Sym → List (List Sym) → Prop
  | nil : IsWords [] []
  | white {x : Sym} {l : List Sym} {ws : List (List Sym)} : x.isWhite = true → IsWords l ws → IsWords (x :: l) ws
  | last {w : List Sym} : w ≠ [] → (∀ x ∈ w, x.isWhite = false) → IsWords w [w]
  | word {w : List Sym} {x : Sym} {l : List Sym} {ws : List (List Sym)} : w ≠ [] → (∀ y ∈ w, y.isWhite = false) → x.isWhite = true →
    IsWords l ws → IsWords (w ++ x :: l) (w :: ws)

/-- A non-empty text whose white space consists of blanks, tabs, carriage returns and newlines, the last of which, if it ends the text, is not escaped. -/
structure OrdinaryText (t : List Char) : Prop where
  nonempty : t ≠ []
  white : ∀ c ∈ t, isSpace c = true → Shlex.white c = true
  ending : endsWhite t = true → (Shlex.split t.dropLast).isSome = true

/-- A text of white space only occurs only directly after a substitution or a text that does not end in white space. -/
inductive NoLoneWhite : Bool → List Piece → Prop
  | nil {b : Bool} : NoLoneWhite b []
  | sub {b : Bool} {n : Nat} {ps : List Piece} : NoLoneWhite true ps → NoLoneWhite b (.sub n :: ps)
  | text {b : Bool} {t : List Char} {ps : List Piece} : (∃ c ∈ t, Shlex.white c = false) → NoLoneWhite (!endsWhite t) ps → NoLoneWhite b (.text t :: ps)
  | white {t : List Char} {ps : List Piece} : (∀ c ∈ t, Shlex.white c = true) → NoLoneWhite false ps → NoLoneWhite true (.text t :: ps)

/-- Elementwise relation of two lists. -/
inductive Each {α β : Type} (R : α → β → Prop) : List α → List β → Prop
  | nil : Each R [] []
  | cons {a : α} {b : β} {as : List α} {bs : List β} : R a b → Each R as bs → Each R (a :: as) (b :: bs)

/-- The last component of a path: what follows its last slash, or all of it if there is none. -/
def LastComponent (path name : String) : Prop := '/' ∉ name.toList ∧ (path = name ∨ ∃ dir : String, path = dir ++ "/" ++ name)

/-- In this context these substitutions give this text, without changing the context. -/
def Yields (O : Oracle) (c : Ctx) (s : List Sub) (v : String) : Prop := performSubs O s c = (c, .ok v)

/-- The value a sequence of assignments gives a key: the last one's. -/
def lastAssigned (l : List (String × String)) (k : String) : Option String :=
  (l.reverse.find? (·.1 == k)).map (·.2)

/-- In this context these pairs of substitutions give these pairs of texts. -/
def YieldsPair (O : Oracle) (c : Ctx) (s : List Sub × List Sub) (v : String × String) : Prop := Yields O c s.1 v.1 ∧ Yields O c s.2 v.2

/-- What the parts of an executable description are in a context. -/
structure ExeValues (O : Oracle) (c : Ctx) (e : Exe) (args : List String) (name cwd : Option String) (env addEnv : Option (List (String × String))) : Prop where
  cmd : Each (Yields O c) e.cmd args
  name : Each (Yields O c) e.name.toList name.toList
  cwd : Each (Yields O c) e.cwd.toList cwd.toList
  env : Each (Each (YieldsPair O c)) e.env.toList env.toList
  addEnv : Each (Each (YieldsPair O c)) e.addEnv.toList addEnv.toList

/-- The environment a process should have: `addEnv` over `env`, or over the context's environment if `env` is not given. -/
def envOf (c : Ctx) (env addEnv : Option (List (String × String))) (k : String) : Option String :=
  (lastAssigned (addEnv.getD []) k).or
    (match env with
    | some l => lastAssigned l k
    | none => c.env.get? k)

/-- Preparing executables one after the other, each in any context. -/
def prepareMany (O : Oracle) (rx : String → String → Res Bool) : Nat → List (Exe × Ctx) → List (Res Prepared)
  | _, [] => []
  | k, (e, c) :: rest => (e.prepare O rx k c).2.2 :: prepareMany O rx (e.prepare O rx k c).2.1 rest

/-- The names of the executables that could be prepared. -/
def preparedNames (l : List (Res Prepared)) : List String :=
  l.filterMap fun r => match r with
    | .ok p => some p.name
    | .error _ => none

end Verif
