import Verif.Model.Grammar
import Verif.Spec.Frontend
import Verif.Spec.Subst
import Verif.Spec.SubstMore

/-! # How substitutions are written in launch files

An independent description: `Frag.write` writes a list of texts and substitutions down, `Writable` says which ones can be written at all. -/

namespace Verif

/-- The characters that are escaped: the backslash, the quotation marks, the dollar sign and the parentheses. -/
def isSpecial (c : Char) : Bool := c == '\\' || c == '\'' || c == '"' || c == '$' || c == '(' || c == ')'

/-- An argument is put into quotation marks if it is empty or one of its texts has a blank. -/
def needsQuotes (a : List Frag) : Bool :=
  a.isEmpty || a.any fun f =>
    match f with
    | .text t => t.contains ' '
    | .sub _ _ => false

mutual

/-- A text with escapes; or `$(name argument …)`.  `q`: inside of quotation marks. -/
def Frag.write (q : Bool) : Frag → List Char
  | .text t => escapeAll isSpecial t
  | .sub name args => '$' :: '(' :: name ++ Frag.writeArgs q args ++ [')']

/-- Arguments, each after a blank; outside of quotation marks they are put into quotation marks if necessary. -/
def Frag.writeArgs (q : Bool) : List (List Frag) → List Char
  | [] => []
  | a :: as => (if !q && needsQuotes a then ' ' :: '"' :: Frag.writeAll true a ++ ['"'] else ' ' :: Frag.writeAll q a) ++ Frag.writeArgs q as

/-- One after the other. -/
def Frag.writeAll (q : Bool) : List Frag → List Char
  | [] => []
  | f :: fs => f.write q ++ Frag.writeAll q fs

end

/-- A text: not a substitution. -/
def Frag.isText : Frag → Bool
  | .text _ => true
  | .sub _ _ => false

/-- Does the text end with a backslash? -/
def endsBackslash (t : List Char) : Bool := t.getLast? == some '\\'

/-- `a` to `z` and `A` to `Z`. -/
def isAsciiLetter (c : Char) : Bool := ('a' ≤ c && c ≤ 'z') || ('A' ≤ c && c ≤ 'Z')

/-- An identifier: a letter, then letters, digits, `_` and `-`. -/
def isName : List Char → Bool
  | [] => false
  | c :: cs => isAsciiLetter c && cs.all fun d => isAsciiLetter d || ('0' ≤ d && d ≤ '9') || d == '_' || d == '-'

mutual

/-- Can the fragment be written?  `q`: inside of quotation marks; `r`: as part of an argument that is not in quotation marks itself. -/
def Frag.Writable (q r : Bool) : Frag → Prop
  | .text t => t ≠ [] ∧ (r = true → ' ' ∉ t)
  | .sub name args => isName name = true ∧ Frag.WritableArgs q args

/-- Can the arguments be written?  Inside of quotation marks arguments are not empty and have no blanks; the last text of an argument does not end with a
backslash, unless the argument is not in quotation marks and another one follows. -/
def Frag.WritableArgs (q : Bool) : List (List Frag) → Prop
  | [] => True
  | a :: as =>
    (if !q && needsQuotes a then Frag.WritableAll true false false a else a ≠ [] ∧ Frag.WritableAll q true (!as.isEmpty) a) ∧
      Frag.WritableArgs q as

/-- Can the list be written?  No text is next to another one, no text before a substitution ends with a backslash; `free`: the last text may end with one. -/
def Frag.WritableAll (q r free : Bool) : List Frag → Prop
  | [] => True
  | f :: fs =>
    f.Writable q r ∧
      (match f with
        | .text t =>
          (match fs with
            | [] => free = true ∨ endsBackslash t = false
            | g :: _ => g.isText = false ∧ endsBackslash t = false)
        | .sub _ _ => True) ∧
      Frag.WritableAll q r free fs

end

/-! ## Which substitutions there are -/

/-- The names of substitutions in launch files, and how many arguments each takes. -/
def arities : List (String × List Nat) :=
  [("var", [1, 2]), ("env", [1, 2]), ("anon", [1]), ("not", [1]), ("and", [2]), ("or", [2]), ("equals", [2]), ("not-equals", [2]), ("if", [2, 3]),
    ("eval", [1, 2]), ("command", [1, 2]), ("find-exec", [1]), ("file-content", [1]), ("filename", [0]), ("dirname", [0]), ("launch_log_dir", [0]),
    ("log_dir", [0])]

/-- Is there a substitution of that name that takes `n` arguments? -/
def Known (name : String) (n : Nat) : Prop := ∃ ns, (name, ns) ∈ arities ∧ n ∈ ns

mutual

/-- Every substitution is known and has a possible number of arguments; the modules of `eval` begin with a text. -/
def Frag.Valid : Frag → Prop
  | .text _ => True
  | .sub name args =>
    Known (String.ofList name) args.length ∧ Frag.ValidArgs args ∧
      (String.ofList name = "eval" → ∀ f fs, args[1]? = some (f :: fs) → f.isText = true)

/-- The same for each argument. -/
def Frag.ValidArgs : List (List Frag) → Prop
  | [] => True
  | a :: as => Frag.ValidAll a ∧ Frag.ValidArgs as

/-- The same for a list. -/
def Frag.ValidAll : List Frag → Prop
  | [] => True
  | f :: fs => f.Valid ∧ Frag.ValidAll fs

end

/-! ## What they mean -/

/-- The name of a Python module: no comma, and no white space around it. -/
def IsModuleName (m : List Char) : Prop := m ≠ [] ∧ ',' ∉ m ∧ stripChars m = m

mutual

/-- `f` stands for the text `t` in the context `c`. -/
inductive Frag.Means (O : Oracle) (c : Ctx) : Frag → String → Prop
  | text {t : List Char} : Frag.Means O c (.text t) (String.ofList t)
  /-- a launch configuration that is set, whatever the default is -/
  | var {name : List Frag} {more : List (List Frag)} {n v : String} : Frag.MeansAll O c name n → c.lc.get? n = some v → Frag.ValidArgs more →
      more.length ≤ 1 → Frag.Means O c (.sub "var".toList (name :: more)) v
  | varDefault {name d : List Frag} {n v : String} : Frag.MeansAll O c name n → c.lc.get? n = none → Frag.MeansAll O c d v →
      Frag.Means O c (.sub "var".toList [name, d]) v
  | env {name : List Frag} {n v : String} : Frag.MeansAll O c name n → c.env.get? n = some v → Frag.Means O c (.sub "env".toList [name]) v
  | envDefault {name d : List Frag} {n v : String} : Frag.MeansAll O c name n → Frag.MeansAll O c d v →
      Frag.Means O c (.sub "env".toList [name, d]) ((c.env.get? n).getD v)
  | notS {a : List Frag} {x : Bool} : Frag.MeansBool O c a x → Frag.Means O c (.sub "not".toList [a]) (if x then "false" else "true")
  | andS {l r : List Frag} {x y : Bool} : Frag.MeansBool O c l x → Frag.MeansBool O c r y →
      Frag.Means O c (.sub "and".toList [l, r]) (if x && y then "true" else "false")
  | orS {l r : List Frag} {x y : Bool} : Frag.MeansBool O c l x → Frag.MeansBool O c r y →
      Frag.Means O c (.sub "or".toList [l, r]) (if x || y then "true" else "false")
  /-- the comparison itself is described by `EqualsSpec` -/
  | equals {l r : List Frag} {t u : String} {b : Bool} : l ≠ [] → r ≠ [] → Frag.MeansAll O c l t → Frag.MeansAll O c r u →
      EqualsSpec O t u b → Frag.Means O c (.sub "equals".toList [l, r]) (if b then "true" else "false")
  | notEquals {l r : List Frag} {t u : String} {b : Bool} : l ≠ [] → r ≠ [] → Frag.MeansAll O c l t → Frag.MeansAll O c r u →
      EqualsSpec O t u b → Frag.Means O c (.sub "not-equals".toList [l, r]) (if b then "false" else "true")
  | ifTrue {a t : List Frag} {more : List (List Frag)} {v : String} : Frag.MeansBool O c a true → Frag.MeansAll O c t v → Frag.ValidArgs more →
      more.length ≤ 1 → Frag.Means O c (.sub "if".toList (a :: t :: more)) v
  | ifFalse {a t e : List Frag} {v : String} : Frag.MeansBool O c a false → Frag.ValidAll t → Frag.MeansAll O c e v →
      Frag.Means O c (.sub "if".toList [a, t, e]) v
  /-- without an else branch the result is empty -/
  | ifNothing {a t : List Frag} : Frag.MeansBool O c a false → Frag.ValidAll t → Frag.Means O c (.sub "if".toList [a, t]) ""
  | eval {e : List Frag} {t v : String} : Frag.MeansAll O c e t → O.pyEval ["math"] t = .ok v → Frag.Means O c (.sub "eval".toList [e]) v
  | evalWith {e : List Frag} {ms : List (List Char)} {t v : String} : ms ≠ [] → (∀ m ∈ ms, IsModuleName m) → Frag.MeansAll O c e t →
      O.pyEval (ms.map String.ofList) t = .ok v → Frag.Means O c (.sub "eval".toList [e, [.text ([','].intercalate ms)]]) v
  /-- the program must write nothing to stderr -/
  | command {a : List Frag} {t out : String} {words : List (List Char)} : Frag.MeansAll O c a t → Shlex.split t.toList = some words →
      O.run (words.map String.ofList) false = .ok (.done 0 out "") → Frag.Means O c (.sub "command".toList [a]) out
  | commandMode {a m : List Frag} {t out err mode : String} {words : List (List Char)} : Frag.MeansAll O c a t → Shlex.split t.toList = some words →
      Frag.MeansAll O c m mode → isStderrMode mode → (mode = "fail" → err = "") →
      O.run (words.map String.ofList) (mode = "capture") = .ok (.done 0 out err) → Frag.Means O c (.sub "command".toList [a, m]) out
  | findExec {a : List Frag} {t p : String} : Frag.MeansAll O c a t → O.which c.env t = some p → Frag.Means O c (.sub "find-exec".toList [a]) p
  | fileContent {a : List Frag} {t s : String} : Frag.MeansAll O c a t → O.readFile t = .ok s → Frag.Means O c (.sub "file-content".toList [a]) s
  | filename {p : String} : (c.locals.getCombined.1).get? "current_launch_file_path" = some (.str p) → Frag.Means O c (.sub "filename".toList []) p
  | dirname {p : String} : (c.locals.getCombined.1).get? "current_launch_file_directory" = some (.str p) → Frag.Means O c (.sub "dirname".toList []) p
  | logDir : Frag.Means O c (.sub "log_dir".toList []) O.logDir
  | launchLogDir : Frag.Means O c (.sub "launch_log_dir".toList []) O.logDir

/-- A list stands for the concatenation. -/
inductive Frag.MeansAll (O : Oracle) (c : Ctx) : List Frag → String → Prop
  | nil : Frag.MeansAll O c [] ""
  | cons {f : Frag} {fs : List Frag} {t u : String} : Frag.Means O c f t → Frag.MeansAll O c fs u → Frag.MeansAll O c (f :: fs) (t ++ u)

/-- A list that is not empty stands for a boolean. -/
inductive Frag.MeansBool (O : Oracle) (c : Ctx) : List Frag → Bool → Prop
  | mk {fs : List Frag} {t : String} {b : Bool} : fs ≠ [] → Frag.MeansAll O c fs t → textAsBool O t = some b → Frag.MeansBool O c fs b

end

end Verif
