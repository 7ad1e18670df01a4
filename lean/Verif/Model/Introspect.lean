import Verif.Model.Handlers

/-!
# Descriptions of launch descriptions

launch/launch/launch_introspector.py.  Texts are lists of characters.  The texts of Python objects (`'{}'.format(x)`) are given.
-/

namespace Verif

mutual

/-- An entity as the introspector sees it (launch_introspector.py:67-75, 103-129). Substitutions are given by their descriptions. -/
inductive IEnt where
  | logInfo (msg : List (List Char))
  | emitEvent (name : List Char)
  | execute (cmd : List (List (List Char))) (cwd : Option (List (List Char))) (env : Option (List (List (List Char) × List (List Char)))) (shell : Bool)
  | register (repr : List Char) (h : IHandler)
  /-- any other action -/
  | action (repr : List Char)
  /-- an entity that is no action -/
  | entity (repr : List Char)

/-- An event handler: without a method `describe`; with a description and entities (or a single one); or with a `describe` that raises
(Model/Handlers.lean, `HandlerEntities.described`). -/
inductive IHandler where
  | plain (address : List Char)
  | many (text : List Char) (entities : List IEnt)
  | one (text : List Char) (e : IEnt)
  | fails (e : Err)

end

/-- `indent`, launch_introspector.py:35-37 -/
def indentLines (ls : List (List Char)) : List (List Char) := ls.map ("    ".toList ++ ·)

/-- `format_substitutions`, launch_introspector.py:78-81 -/
def formatSubs (l : List (List Char)) : List Char := " + ".toList.intercalate l

/-- The text of an ExecuteProcess, launch_introspector.py:109-121. -/
def formatExecute (cmd : List (List (List Char))) (cwd : Option (List (List Char))) (env : Option (List (List (List Char) × List (List Char))))
    (shell : Bool) : List Char :=
  "ExecuteProcess(cmd=[".toList ++ ", ".toList.intercalate (cmd.map formatSubs) ++ "], cwd=".toList ++
    (match cwd with | none => "None".toList | some c => ['\''] ++ formatSubs c ++ ['\'']) ++ ", env=".toList ++
    (match env with
     | none => "None".toList
     | some e => ['{'] ++ ", ".toList.intercalate (e.map fun p => formatSubs p.1 ++ ": ".toList ++ formatSubs p.2) ++ ['}']) ++
    ", shell=".toList ++ (if shell then "True" else "False").toList ++ [')']

mutual

/-- `format_action` (launch_introspector.py:103-129) and the body of the loop of `format_entities` (lines 70-74) -/
def formatEnt : IEnt → Res (List (List Char))
  | .logInfo msg => .ok ["LogInfo(".toList ++ formatSubs msg ++ [')']]
  | .emitEvent n => .ok ["EmitEvent(event='".toList ++ n ++ "')".toList]
  | .execute cmd cwd env shell => .ok [formatExecute cmd cwd env shell]
  | .register r h =>
    match formatHandler h with
    | .error e => .error e
    | .ok ls => .ok (("RegisterEventHandler('".toList ++ r ++ "'):".toList) :: indentLines ls)
  | .action r => .ok ["Action('".toList ++ r ++ "')".toList]
  | .entity r => .ok ["Unknown entity('".toList ++ r ++ "')".toList]

/-- `format_entities`, launch_introspector.py:67-75 -/
def formatEnts : List IEnt → Res (List (List Char))
  | [] => .ok []
  | e :: es =>
    match formatEnt e with
    | .error x => .error x
    | .ok l =>
      match formatEnts es with
      | .error x => .error x
      | .ok ls => .ok (l ++ ls)

/-- `format_event_handler`, launch_introspector.py:84-100 -/
def formatHandler : IHandler → Res (List (List Char))
  | .plain a => .ok ["EventHandler('".toList ++ a ++ "')".toList]
  | .many t es =>
    match formatEnts es with
    | .error x => .error x
    | .ok ls => .ok (t :: indentLines ls)
  | .one t e =>
    match formatEnt e with
    | .error x => .error x
    | .ok ls => .ok (t :: indentLines ls)
  | .fails e => .error e

end

/-- `len(line) - len(line.lstrip())` -/
def leading (l : List Char) : Nat := l.length - (l.dropWhile isSpace).length

/-- `str.replace('└', '├', 1)` -/
def replaceCorner : List Char → List Char
  | [] => []
  | c :: l => if c = '└' then '├' :: l else c :: replaceCorner l

/-- Replace the last element. -/
def modifyLast (f : List Char → List Char) (l : List (List Char)) : List (List Char) :=
  match l.getLast? with
  | none => l
  | some x => l.dropLast ++ [f x]

/-- The loop of `tree_like_indent`, launch_introspector.py:42-55; `prev` is `previous_first_non_whitespace`. -/
def treeLoop : List (List Char) → Option Nat → List (List Char) → List (List Char)
  | [], _, result => result
  | old :: ls, prev, result =>
    if "    ".toList.isPrefixOf old then
      let line := '│' :: old.drop 1
      let first := leading old
      let result' := match prev with
        | none => result
        | some p => if ((result.getLast?.getD []).contains '└') && decide (p ≤ first) then modifyLast replaceCorner result else result
      treeLoop ls (some first) (result' ++ [line.take (first - 4) ++ "└── ".toList ++ line.drop first])
    else treeLoop ls prev result

/-- `tree_like_indent`, launch_introspector.py:40-64; `result[-1]` of the empty list raises IndexError. -/
def treeLike (ls : List (List Char)) : Res (List (List Char)) :=
  let result := treeLoop ls none []
  match result.getLast? with
  | none => .error .indexError
  | some l => .ok (if l.head? = some '│' then modifyLast (fun l => ' ' :: l.drop 1) result else result)

/-- The lines of `format_launch_description` after the first, launch_introspector.py:135-140. -/
def describeLines (es : List IEnt) : Res (List (List Char)) :=
  match formatEnts es with
  | .error e => .error e
  | .ok ls => treeLike (indentLines ls)

/-- `format_launch_description`, launch_introspector.py:135-140; `repr` is the text of the launch description. -/
def formatDescription (repr : List Char) (es : List IEnt) : Res (List Char) :=
  match describeLines es with
  | .error e => .error e
  | .ok ls => .ok (repr ++ ['\n'] ++ ['\n'].intercalate ls)

end Verif
