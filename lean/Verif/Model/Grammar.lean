import Verif.Model.Frontend
import Verif.Model.Subst

/-!
# Substitutions in launch files: grammar, parser and construction

launch/share/launch/frontend/grammar.lark, launch/launch/frontend/parse_substitution.py, `instantiate_substitution` of launch/launch/frontend/expose.py
and the `parse` methods of launch/launch/substitutions/*.py.

The grammar is given as relations, one constructor for each alternative of a rule.  `Lark(h, start='template')` (parse_substitution.py:112-113) is
an Earley parser with the dynamic lexer: a terminal matches, at a position, exactly what its regular expression matches there (the
longest text, as each of them is a repetition with nothing after it), and a parse is a derivation.  This contract of the library is what is
trusted here.  `parseFrags` is a deterministic parser; Props/Grammar.lean proves that it finds exactly the derivations of the grammar, of which there is
at most one.
-/

namespace Verif

/-- Outside of quotes, or inside of single or double quotes: the prefixes of the names in grammar.lark. -/
inductive QMode where
  | unq | single | double
  deriving DecidableEq, Repr

/-- What is left to parse, and the character before it (for the look-behinds). -/
abbrev GState := Option Char × List Char

/-- A parsed text: pieces of text, with escapes replaced, and substitutions with their arguments (no arguments: the empty list). -/
inductive Frag where
  | text (t : List Char)
  | sub (name : List Char) (args : List (List Frag))
  deriving Inhabited

/-! ## Terminals -/

/-- Is the character `c` part of a STRING (`r = false`) or RSTRING (`r = true`) terminal?  grammar.lark:9-16.  `started`: the
terminal has begun before this character; `prev` and `next`: the characters around it.  The alternatives `"\\'"` and `"\\\""` are two characters long: a
quote is accepted after a backslash that belongs to the same terminal. -/
def accepts (m : QMode) (r started : Bool) (prev : Option Char) (c : Char) (next : Option Char) : Bool :=
  let escaped := started && prev == some '\\'
  if c == '$' then next != some '(' || prev == some '\\'
  else if c == '(' || c == ')' then !r || prev == some '\\'
  else if c == ' ' then !r
  else if c == '\'' then (m == .unq && !r) || m == .double || escaped
  else if c == '"' then (m == .unq && !r) || m == .single || escaped
  else true

/-- The text a terminal matches and what is left. -/
def munch (m : QMode) (r started : Bool) : Option Char → List Char → List Char × GState
  | prev, [] => ([], (prev, []))
  | prev, c :: cs =>
    if accepts m r started prev c cs.head? then (c :: (munch m r true (some c) cs).1, (munch m r true (some c) cs).2)
    else ([], (prev, c :: cs))

/-- A STRING or RSTRING terminal at a position; it has at least one character. -/
def token (m : QMode) (r : Bool) (s : GState) : Option (List Char × GState) :=
  match munch m r false s.1 s.2 with
  | ([], _) => none
  | (c :: t, s') => some (c :: t, s')

/-- A literal character. -/
def lit (c : Char) (s : GState) : Option GState :=
  match s.2 with
  | d :: cs => if d = c then some (some d, cs) else none
  | [] => none

/-- `common.LETTER`: an ASCII letter. -/
def isLetter (c : Char) : Bool := ('a' ≤ c && c ≤ 'z') || ('A' ≤ c && c ≤ 'Z')

/-- A character of an identifier after the first one, grammar.lark:7. -/
def isIdChar (c : Char) : Bool := isLetter c || ('0' ≤ c && c ≤ '9') || c == '_' || c == '-'

/-- The longest text of characters of identifiers. -/
def idTail : Option Char → List Char → List Char × GState
  | prev, [] => ([], (prev, []))
  | prev, c :: cs => if isIdChar c then (c :: (idTail (some c) cs).1, (idTail (some c) cs).2) else ([], (prev, c :: cs))

/-- IDENTIFIER, grammar.lark:7. -/
def ident (s : GState) : Option (List Char × GState) :=
  match s.2 with
  | c :: cs => if isLetter c then some (c :: (idTail (some c) cs).1, (idTail (some c) cs).2) else none
  | [] => none

/-- The quotation mark of a mode. -/
def QMode.quote : QMode → Char
  | .unq => '\x00'
  | .single => '\''
  | .double => '"'

/-! ## Rules -/

mutual

/-- `substitution`, `single_quoted_substitution`, `double_quoted_substitution`, grammar.lark:26, 40, 56, and parse_substitution.py:69-74. -/
inductive GSub : QMode → GState → Frag → GState → Prop where
  | plain {m s s1 s2 s3 s4 n} : lit '$' s = some s1 → lit '(' s1 = some s2 → ident s2 = some (n, s3) → lit ')' s3 = some s4 →
      GSub m s (.sub n []) s4
  | args {m s s1 s2 s3 s4 s5 s6 n as} : lit '$' s = some s1 → lit '(' s1 = some s2 → ident s2 = some (n, s3) → lit ' ' s3 = some s4 →
      GArgs m s4 as s5 → lit ')' s5 = some s6 → GSub m s (.sub n as) s6

/-- `arguments` and its quoted versions, grammar.lark:23-24, 37-38, 53-54, and parse_substitution.py:60-64. -/
inductive GArgs : QMode → GState → List (List Frag) → GState → Prop where
  | one {m s v s'} : GValue m s v s' → GArgs m s [v] s'
  | more {m s as s1 s2 v s3} : GArgs m s as s1 → lit ' ' s1 = some s2 → GValue m s2 v s3 → GArgs m s (as ++ [v]) s3

/-- `value` and its quoted versions, grammar.lark:21, 30, 35, 44, 49-51, and parse_substitution.py:51-55. -/
inductive GValue : QMode → GState → List Frag → GState → Prop where
  | parts {m s ps s'} : GItems m true s ps s' → ps ≠ [] → GValue m s ps s'
  | quoted {q s s1 fs s2 s3} : q ≠ .unq → lit q.quote s = some s1 → GItems q false s1 fs s2 → lit q.quote s2 = some s3 →
      GValue .unq s fs s3

/-- Any number of parts (`r = true`, grammar.lark:18-19, 32-33, 46-47) or fragments (`r = false`, grammar.lark:28, 42, 58-59), and
parse_substitution.py:41-49, 79-87. -/
inductive GItems : QMode → Bool → GState → List Frag → GState → Prop where
  | nil {m r s} : GItems m r s [] s
  | sub {m r s f s1 fs s2} : GSub m s f s1 → GItems m r s1 fs s2 → GItems m r s (f :: fs) s2
  | text {m r s t s1 fs s2} : token m r s = some (t, s1) → GItems m r s1 fs s2 → GItems m r s (.text (unescape t) :: fs) s2

end

/-- `template` for a whole text, grammar.lark:61. -/
def Template (cs : List Char) (fs : List Frag) : Prop := ∃ p, GItems .unq false (none, cs) fs (p, []) ∧ fs ≠ []

/-! ## A deterministic parser -/

mutual

/-- A substitution. -/
def pSub : Nat → QMode → GState → Option (Frag × GState)
  | 0, _, _ => none
  | n + 1, m, s =>
    (lit '$' s).bind fun s1 => (lit '(' s1).bind fun s2 => (ident s2).bind fun (name, s3) =>
      match lit ')' s3 with
      | some s4 => some (.sub name [], s4)
      | none => (lit ' ' s3).bind fun s4 => (pArgs n m s4).bind fun (as, s5) => (lit ')' s5).bind fun s6 => some (.sub name as, s6)

/-- Arguments. -/
def pArgs : Nat → QMode → GState → Option (List (List Frag) × GState)
  | 0, _, _ => none
  | n + 1, m, s => (pValue n m s).bind fun (v, s1) => (pMore n m s1).bind fun (vs, s2) => some (v :: vs, s2)

/-- Further arguments. -/
def pMore : Nat → QMode → GState → Option (List (List Frag) × GState)
  | 0, _, _ => none
  | n + 1, m, s =>
    match lit ' ' s with
    | none => some ([], s)
    | some s1 => (pValue n m s1).bind fun (v, s2) => (pMore n m s2).bind fun (vs, s3) => some (v :: vs, s3)

/-- An argument. -/
def pValue : Nat → QMode → GState → Option (List Frag × GState)
  | 0, _, _ => none
  | n + 1, m, s =>
    match m, lit '\'' s, lit '"' s with
    | .unq, some s1, _ => (pItems n .single false s1).bind fun (fs, s2) => (lit '\'' s2).bind fun s3 => some (fs, s3)
    | .unq, none, some s1 => (pItems n .double false s1).bind fun (fs, s2) => (lit '"' s2).bind fun s3 => some (fs, s3)
    | _, _, _ => (pItems n m true s).bind fun (fs, s1) => if fs.isEmpty then none else some (fs, s1)

/-- Parts or fragments, as many as possible. -/
def pItems : Nat → QMode → Bool → GState → Option (List Frag × GState)
  | 0, _, _, _ => none
  | n + 1, m, r, s =>
    match token m r s with
    | some (t, s1) => (pItems n m r s1).bind fun (fs, s2) => some (.text (unescape t) :: fs, s2)
    | none =>
      match lit '$' s with
      | none => some ([], s)
      | some _ => (pSub n m s).bind fun (f, s1) => (pItems n m r s1).bind fun (fs, s2) => some (f :: fs, s2)

end

/-- The parse of a whole text. -/
def parseFrags (cs : List Char) : Option (List Frag) :=
  match pItems (4 * cs.length + 1) .unq false (none, cs) with
  | some (f :: fs, (_, [])) => some (f :: fs)
  | _ => none

/-! ## Construction of substitutions -/

/-- `VisitError`, raised by lark's Transformer around any exception of a callback. -/
def visitError : Err := .other 1

/-- `UnexpectedCharacters` or `UnexpectedEOF`, raised by lark's parser. -/
def syntaxError : Err := .other 2

/-- `EqualsSubstitution.__init__` on a list, equals_substitution.py:67-91: an empty list is no substitution, so `str` is applied to it. -/
def equalsOperand (l : List Sub) : List Sub := if l.isEmpty then [.text "[]"] else l

/-- The modules of `eval`, python_expression.py:67-85: the first piece, which must be a text, is split at commas.  (Other substitutions are performed
with the context None; the exception they raise is taken to be AttributeError.) -/
def evalModules (l : List Sub) : Res (List Sub) :=
  match l with
  | [] => .ok []
  | .text t :: _ => .ok ((splitSep [','] 0 [] t.toList).map fun w => .text (String.ofList (stripChars w)))
  | _ :: _ => .error .attributeError

/-- `instantiate_substitution`, expose.py:46-57, with the `parse` methods and constructors of launch/launch/substitutions/*.py. -/
def instantiate (name : String) (args : List (List Sub)) : Res Sub :=
  -- launch_configuration.py:67-76
  if name = "var" then
    match args with
    | [n] => .ok (.launchConfig n none)
    | [n, d] => .ok (.launchConfig n (some d))
    | _ => .error .typeError
  -- environment_variable.py:64-72
  else if name = "env" then
    match args with
    | [n] => .ok (.envVar n none)
    | [n, d] => .ok (.envVar n (some d))
    | _ => .error .typeError
  -- anon_name.py:43-48
  else if name = "anon" then
    match args with
    | [n] => .ok (.anonName n)
    | _ => .error .typeError
  -- boolean_substitution.py:41-46, 78-83, 124-129
  else if name = "not" then
    match args with
    | [v] => .ok (.notS v)
    | _ => .error .typeError
  else if name = "and" then
    match args with
    | [l, r] => .ok (.andS l r)
    | _ => .error .typeError
  else if name = "or" then
    match args with
    | [l, r] => .ok (.orS l r)
    | _ => .error .typeError
  -- boolean_substitution.py:167, 177-180, 212, 223-226: the constructors have no keyword argument `args`
  else if name = "any" then .error .typeError
  else if name = "all" then .error .typeError
  -- equals_substitution.py:96-101, not_equals_substitution.py:28-42
  else if name = "equals" then
    match args with
    | [l, r] => .ok (.equals (equalsOperand l) (equalsOperand r))
    | _ => .error .typeError
  else if name = "not-equals" then
    match args with
    | [l, r] => .ok (.notEquals (equalsOperand l) (equalsOperand r))
    | _ => .error .typeError
  -- if_else_substitution.py:67-86
  else if name = "if" then
    match args with
    | [c, t] => .ok (.ifElse c t [.text ""])
    | [c, t, e] => .ok (.ifElse c t e)
    | _ => .error .typeError
  -- python_expression.py:40-86
  else if name = "eval" then
    match args with
    | [e] => .ok (.pyExpr e [.text "math"])
    | [e, ms] =>
      match evalModules ms with
      | .ok l => .ok (.pyExpr e l)
      | .error x => .error x
    | _ => .error .typeError
  -- command.py:68-76
  else if name = "command" then
    match args with
    | [c] => .ok (.command c [.text "fail"])
    | [c, e] => .ok (.command c e)
    | _ => .error .valueError
  -- find_executable.py:45-50
  else if name = "find-exec" then
    match args with
    | [n] => .ok (.findExec n)
    | _ => .error .attributeError
  -- file_content.py:43-49
  else if name = "file-content" then
    match args with
    | [p] => .ok (.fileContent p)
    | _ => .error .attributeError
  -- this_launch_file.py:35-40, this_launch_file_dir.py:35-40, launch_log_dir.py:36-41
  else if name = "filename" then
    match args with
    | [] => .ok .thisLaunchFile
    | _ => .error .typeError
  else if name = "dirname" then
    match args with
    | [] => .ok .thisLaunchFileDir
    | _ => .error .typeError
  else if name = "launch_log_dir" ∨ name = "log_dir" then
    match args with
    | [] => .ok .launchLogDir
    | _ => .error .typeError
  else .error .runtimeError

mutual

/-- The transformer on a fragment, parse_substitution.py:38-96: arguments first, from left to right. -/
def Frag.build : Frag → Res Sub
  | .text t => .ok (.text (String.ofList t))
  | .sub name args =>
    match Frag.buildArgs args with
    | .error e => .error e
    | .ok as => instantiate (String.ofList name) as

/-- All the arguments. -/
def Frag.buildArgs : List (List Frag) → Res (List (List Sub))
  | [] => .ok []
  | a :: as =>
    match Frag.buildAll a with
    | .error e => .error e
    | .ok x =>
      match Frag.buildArgs as with
      | .error e => .error e
      | .ok xs => .ok (x :: xs)

/-- All the fragments of a list. -/
def Frag.buildAll : List Frag → Res (List Sub)
  | [] => .ok []
  | f :: fs =>
    match f.build with
    | .error e => .error e
    | .ok x =>
      match Frag.buildAll fs with
      | .error e => .error e
      | .ok xs => .ok (x :: xs)

end

/-- `parse_substitution`, parse_substitution.py:106-116. -/
def parseSubstitution (s : String) : Res (List Sub) :=
  if s = "" then .ok [.text s]
  else match parseFrags s.toList with
    | none => .error syntaxError
    | some fs =>
      match Frag.buildAll fs with
      | .ok l => .ok l
      | .error _ => .error visitError

end Verif
