import Verif.Model.Parse
import Verif.Spec.Scope

/-!
# Specification: what a launch file does

What the tags of a launch file mean, one after the other, without the machinery that carries it out: there are no stacks of scopes, no helper actions, no
visiting and no futures here.
-/

namespace Verif

/-- What the text of a launch file can see and change: launch configurations, environment variables, the environment at the start, the locals (they tell which launch
file is read), the source of anonymous names; and what was done: the actions executed, the messages logged and the reasons of the shutdowns asked for. -/
structure FileState where
  lc : Dict String
  env : Dict String
  envReset : Dict String
  locals : Locals
  rng : Nat
  executed : List PAct
  logged : List String
  shutdowns : List String

/-- A context in which nothing but the visible part of the world is set. -/
def FileState.ctx (w : FileState) : Ctx := { lc := w.lc, env := w.env, envReset := w.envReset, locals := w.locals, rng := w.rng }

/-- The substitutions have the value `s`, seen from `w`.  (Anonymous names may be chosen on the way: they become launch configurations.) -/
def Evals (O : Oracle) (l : List Sub) (w : FileState) (s : String) (w' : FileState) : Prop :=
  performSubs O l w.ctx = (w'.ctx, .ok s) ∧ w' = { w with lc := w'.lc, rng := w'.rng }

/-- The condition given by `if` or `unless` holds, or does not. -/
inductive Holds (O : Oracle) : Option Cond → FileState → Bool → FileState → Prop
  | always {w} : Holds O none w true w
  | ifC {l w s w' b} : Evals O l w s w' → evalConditionText s = .ok b → Holds O (some (.ifC l)) w b w'
  | unlessC {l w s w' b} : Evals O l w s w' → evalConditionText s = .ok b → Holds O (some (.unlessC l)) w (!b) w'

/-- Assign launch configurations one after the other. -/
inductive AssignsAll (O : Oracle) : List (List Sub × List Sub) → FileState → FileState → Prop
  | nil {w} : AssignsAll O [] w w
  | cons {n v l w w1 w2 w3 ns vs} : Evals O v w vs w1 → Evals O n w1 ns w2 → AssignsAll O l { w2 with lc := w2.lc.set ns vs } w3 → AssignsAll O ((n, v) :: l) w w3

/-- The names and values of pairs, one after the other. -/
inductive EvalPairs (O : Oracle) : List (List Sub × List Sub) → FileState → List (String × String) → FileState → Prop
  | nil {w} : EvalPairs O [] w [] w
  | cons {n v l w w1 w2 w3 ns vs ps} : Evals O n w ns w1 → Evals O v w1 vs w2 → EvalPairs O l w2 ps w3 → EvalPairs O ((n, v) :: l) w ((ns, vs) :: ps) w3

/-- The names of pairs, one after the other. -/
inductive EvalNames (O : Oracle) : List (List Sub × List Sub) → FileState → FileState → Prop
  | nil {w} : EvalNames O [] w w
  | cons {n v l w w1 w2 ns} : Evals O n w ns w1 → EvalNames O l w1 w2 → EvalNames O ((n, v) :: l) w w2

/-- The launch configurations given by pairs; of pairs with the same name the last counts. -/
def configsOf (ps : List (String × String)) : Dict String := ps.foldl (fun d p => d.set p.1 p.2) []

/-- An optional flag: true if it is not given. -/
def flagOf : Option PyVal → Bool
  | none => true
  | some (.bool b) => b
  | some (.str s) => s != ""
  | some (.int i) => i != 0
  | some _ => true

/-- The flag `prepend`: false unless given; a text is read as a boolean. -/
inductive Prepends (O : Oracle) : Option TVal → FileState → Bool → FileState → Prop
  | absent {w} : Prepends O none w false w
  | flag {w b} : Prepends O (some (.bool b)) w b w
  | text {l w s b w'} : l ≠ [] → Evals O l w s w' → coerceToType O s (some (.scalar .bool)) = .ok (.bool b) → Prepends O (some (.seq (l.map .sub))) w b w'

/-- The launch file that is read, with its directory, becomes known to ThisLaunchFile and ThisLaunchFileDir. -/
def FileState.reading (w : FileState) (file : String × String) : FileState :=
  { w with locals := (w.locals.extendLocals [("current_launch_file_path", .str file.1)]).extendLocals [("current_launch_file_directory", .str file.2)] }

/-- The surroundings of launch files. -/
structure Surroundings where
  /-- the actions a launch file describes -/
  files : String → Res (List PAct)
  /-- absolute path and directory of a launch file -/
  launchFile : String → String × String
  /-- the reason given with a Shutdown event -/
  reason : Option (List Sub) → String
  /-- what starting a timer or a process does to the world at once -/
  start : PKind → FileState → Option FileState

mutual
/-- Doing what a tag says. -/
inductive Does (O : Oracle) (S : Surroundings) : PAct → FileState → FileState → Prop
  | skipped {c k w w1} : Holds O c w false w1 → Does O S (.mk c k) w w1
  | done {c k w w1 w2} : Holds O c w true w1 → Performs O S k { w1 with executed := w1.executed ++ [.mk c k] } w2 → Does O S (.mk c k) w w2

/-- Doing what a tag says whose condition holds. -/
inductive Performs (O : Oracle) (S : Surroundings) : PKind → FileState → FileState → Prop
  | letLC {n v w ns vs w1 w2} : Evals O v w vs w1 → Evals O n w1 ns w2 → Performs O S (.letLC n v) w { w2 with lc := w2.lc.set ns vs }
  | argGiven {name d desc ch w v} : w.lc.get? name = some v → (∀ l, ch = some l → v ∈ l) → Performs O S (.arg name d desc ch) w w
  | argDefault {name l desc ch w v w1} : w.lc.get? name = none → Evals O l w v w1 → (∀ l, ch = some l → v ∈ l) →
    Performs O S (.arg name (some l) desc ch) w { w1 with lc := w1.lc.set name v }
  /-- a scoped group: assignments inside do not last -/
  | scopedGroup {s f k as w w1 w2} : flagOf s = true → flagOf f = true → AssignsAll O (k.getD []) w w1 → DoesAll O S as w1 w2 →
    Performs O S (.group s f k as) w { w2 with lc := w.lc, env := w.env }
  /-- a group without forwarding: only what is kept is visible inside -/
  | cleanGroup {s f k as w ps w1 w2} : flagOf s = true → flagOf f = false → EvalPairs O (k.getD []) { w with env := w.envReset } ps w1 →
    DoesAll O S as { w1 with lc := configsOf ps } w2 → Performs O S (.group s f k as) w { w2 with lc := w.lc, env := w.env }
  | openGroup {s f k as w w1 w2} : flagOf s = false → AssignsAll O (k.getD []) w w1 → DoesAll O S as w1 w2 → Performs O S (.group s f k as) w w2
  /-- an included file: its arguments are assigned, then its tags are done -/
  | includeFile {file args w loc w1 acts w3 w4 w5} : Evals O file w loc w1 → S.files loc = .ok acts →
    EvalNames O (args.getD []) (w1.reading (S.launchFile loc)) w3 → AssignsAll O (args.getD []) w3 w4 → DoesAll O S acts w4 w5 → Performs O S (.includeFile file args) w w5
  | setEnv {n v w ns vs w1 w2} : Evals O v w vs w1 → Evals O n w1 ns w2 → Performs O S (.setEnv n v) w { w2 with env := w2.env.set ns vs }
  | unsetEnv {n w ns w1} : Evals O n w ns w1 → Performs O S (.unsetEnv n) w { w1 with env := w1.env.erase ns }
  | appendEnvNew {n v p sep w ns vs b ss w1 w2 w3 w4} : Evals O n w ns w1 → Evals O v w1 vs w2 → Prepends O p w2 b w3 → Evals O (sep.getD [.text ":"]) w3 ss w4 →
    w4.env.get? ns = none → Performs O S (.appendEnv n v p sep) w { w4 with env := w4.env.set ns vs }
  | appendEnv {n v p sep w ns vs ss old w1 w2 w3 w4} : Evals O n w ns w1 → Evals O v w1 vs w2 → Prepends O p w2 false w3 → Evals O (sep.getD [.text ":"]) w3 ss w4 →
    w4.env.get? ns = some old → Performs O S (.appendEnv n v p sep) w { w4 with env := w4.env.set ns (old ++ ss ++ vs) }
  | prependEnv {n v p sep w ns vs ss old w1 w2 w3 w4} : Evals O n w ns w1 → Evals O v w1 vs w2 → Prepends O p w2 true w3 → Evals O (sep.getD [.text ":"]) w3 ss w4 →
    w4.env.get? ns = some old → Performs O S (.appendEnv n v p sep) w { w4 with env := w4.env.set ns (vs ++ ss ++ old) }
  | resetEnv {w} : Performs O S .resetEnv w { w with env := w.envReset }
  | resetAll {w} : Performs O S (.resetLC none) w { w with lc := [] }
  | resetLC {k w ps w1} : EvalPairs O k w ps w1 → Performs O S (.resetLC (some k)) w { w1 with lc := configsOf ps }
  | log {m w s w1} : Evals O m w s w1 → Performs O S (.log m) w { w1 with logged := w1.logged ++ [s] }
  | shutdown {r w} : Performs O S (.shutdown r) w { w with shutdowns := w.shutdowns ++ [S.reason r] }
  | timer {p as cs w w1} : S.start (.timer p as cs) w = some w1 → Performs O S (.timer p as cs) w w1
  | executable {x w w1} : S.start (.executable x) w = some w1 → Performs O S (.executable x) w w1

/-- One tag after the other. -/
inductive DoesAll (O : Oracle) (S : Surroundings) : List PAct → FileState → FileState → Prop
  | nil {w} : DoesAll O S [] w w
  | cons {a as w w1 w2} : Does O S a w w1 → DoesAll O S as w1 w2 → DoesAll O S (a :: as) w w2
end

end Verif
