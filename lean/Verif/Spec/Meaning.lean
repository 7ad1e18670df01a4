import Verif.Spec.Executable
import Verif.Spec.Frontend
import Verif.Spec.Typed

/-! # Specification: the actions that launch files describe -/

namespace Verif

/-- The text of an attribute, in XML or YAML. -/
def Ent.text : Ent → String → Option String
  | .xml x, n => x.attrs.get? n
  | .yaml (.dict d) _, n =>
    match Dict.get? d n with
    | some (.scalar (.str s)) => some s
    | _ => none
  | _, _ => none

/-- The attribute is given and denotes these substitutions. -/
def Denotes (F : Front) (e : Ent) (n : String) (l : List Sub) : Prop := ∃ s, e.text n = some s ∧ F.subst s = .ok l

/-- The attribute denotes these substitutions, or is absent. -/
def MayDenote (F : Front) (e : Ent) (n : String) (o : Option (List Sub)) : Prop :=
  (o = none ∧ e.text n = none) ∨ ∃ l, o = some l ∧ Denotes F e n l

/-- The nested entities with names and values, `none` if there are none of them. -/
def PairsGiven (F : Front) (e : Ent) (n : String) (o : Option (List (List Sub × List Sub))) : Prop :=
  (o = none ∧ nestedEnts e n = []) ∨
  ∃ l, o = some l ∧ nestedEnts e n ≠ [] ∧ Each2 (fun y p => Denotes F y "name" p.1 ∧ Denotes F y "value" p.2) (nestedEnts e n) l

/-- The attribute has this value: in XML its text denotes the value, in YAML it is the value. -/
def HasValue (O : Oracle) (t : ScalarTy) (n : String) : Ent → PyVal → Prop
  | .xml x, v => ∃ s, x.attrs.get? n = some s ∧ coerceToType O s (some (.scalar t)) true = .ok v
  | .yaml (.dict d) _, v => Dict.get? d n = some (.scalar v) ∧ (v.isInst t = true ∨ ∃ s, v = .str s)
  | _, _ => False

/-- The attribute is absent. -/
def Absent (n : String) : Ent → Prop
  | .xml x => x.attrs.get? n = none
  | .yaml (.dict d) _ => Dict.get? d n = none
  | _ => True

/-- The attribute has this value, or is absent. -/
def MayHave (O : Oracle) (t : ScalarTy) (n : String) (e : Ent) (o : Option PyVal) : Prop :=
  (o = none ∧ Absent n e) ∨ ∃ v, o = some v ∧ HasValue O t n e v

/-- The condition given by `if` and `unless`. -/
def CondGiven (F : Front) (e : Ent) (c : Option Cond) : Prop :=
  (c = none ∧ e.text "if" = none ∧ e.text "unless" = none) ∨
  (∃ l, c = some (.ifC l) ∧ Denotes F e "if" l ∧ e.text "unless" = none) ∨
  (∃ l, c = some (.unlessC l) ∧ Denotes F e "unless" l ∧ e.text "if" = none)

/-- The choices of an argument. -/
def ChoicesGiven (e : Ent) (o : Option (List String)) : Prop :=
  (o = none ∧ nestedEnts e "choice" = []) ∨
  ∃ l, o = some l ∧ nestedEnts e "choice" ≠ [] ∧ Each2 (fun y s => ∃ t, y.text "value" = some t ∧ s = String.ofList (unescape t.toList)) (nestedEnts e "choice") l

/-- An argument of a scalar type as an action gets it: the value of that type, or, for a text, the substitutions in it, which are performed and
converted when the action is executed (`C40_substitutions`).  A text without substitutions is not accepted. -/
inductive TypedGiven (F : Front) (ty : ScalarTy) : PyVal → TVal → Prop
  | value {v : PyVal} : IsA v ty → TypedGiven F ty v (TVal.ofValue v)
  | text {s : String} {l : List Sub} : F.subst s = .ok l → l ≠ [] → (∀ x, l ≠ [.text x]) → TypedGiven F ty (.str s) (.seq (l.map .sub))

/-- The same for an argument that may be absent. -/
def MayTyped (F : Front) (ty : ScalarTy) (v : Option PyVal) (t : Option TVal) : Prop :=
  (v = none ∧ t = none) ∨ ∃ w u, v = some w ∧ t = some u ∧ TypedGiven F ty w u

/-- The period of a timer: as above, but a text without substitutions is a number at once. -/
def PeriodGiven (F : Front) (v : PyVal) (t : TVal) : Prop :=
  TypedGiven F .float v t ∨ ∃ s x f, v = .str s ∧ F.subst s = .ok [.text x] ∧ F.O.parseFloat x = some f ∧ t = .float f

/-- A time that is not negative; texts are not accepted. -/
def NotNegative (F : Front) (o : Option PyVal) : Prop := ∀ v, o = some v → (∀ s, v ≠ .str s) ∧ ∀ f, v = .float f → F.negative f = false

/-- The symbols of a command line given by texts and other substitutions: the characters of the texts, and for each other substitution its position. -/
def commandSyms : List Sub → Nat → List Sym
  | [], _ => []
  | .text s :: l, k => s.toList.map .char ++ commandSyms l (k + 1)
  | _ :: l, k => .sub k :: commandSyms l (k + 1)

/-- What a symbol of the command line `l` stands for: a character, or the substitution at the position. -/
def Sym.means (l : List Sub) : Sym → Char ⊕ Sub
  | .char c => .inl c
  | .sub k => .inr (l.getD k (.text ""))

/-- The characters and other substitutions of an argument. -/
def flatSubs : List Sub → List (Char ⊕ Sub)
  | [] => []
  | .text s :: l => s.toList.map .inl ++ flatSubs l
  | x :: l => .inr x :: flatSubs l

/-- The action that an entity describes. -/
inductive Says (F : Front) : Ent → PAct → Prop
  | letLC {e c n v} : CondGiven F e c → e.typeName = "let" → Denotes F e "name" n → Denotes F e "value" v → Says F e (.mk c (.letLC n v))
  | arg {e c d ch} {n desc : Option String} {name : String} : CondGiven F e c → e.typeName = "arg" → e.text "name" = n → n = some name → MayDenote F e "default" d →
    e.text "description" = desc → ChoicesGiven e ch →
    Says F e (.mk c (.arg (String.ofList (unescape name.toList)) d (desc.map (fun s => String.ofList (unescape s.toList))) ch))
  | group {e c s f k as} : CondGiven F e c → e.typeName = "group" → MayHave F.O .bool "scoped" e s → MayHave F.O .bool "forwarding" e f → PairsGiven F e "keep" k →
    as.length = ((childEnts e).filter (fun y => y.typeName ≠ "keep")).length →
    (∀ p ∈ ((childEnts e).filter (fun y => y.typeName ≠ "keep")).zip as, Says F p.1 p.2) → Says F e (.mk c (.group s f k as))
  | includeFile {e c f as} : CondGiven F e c → e.typeName = "include" → Denotes F e "file" f → PairsGiven F e "arg" as → Says F e (.mk c (.includeFile f as))
  | setEnv {e c n v} : CondGiven F e c → e.typeName = "set_env" → Denotes F e "name" n → Denotes F e "value" v → Says F e (.mk c (.setEnv n v))
  | unsetEnv {e c n} : CondGiven F e c → e.typeName = "unset_env" → Denotes F e "name" n → Says F e (.mk c (.unsetEnv n))
  | appendEnv {e c n v p sep} {po : Option TVal} : CondGiven F e c → e.typeName = "append_env" → Denotes F e "name" n → Denotes F e "value" v →
    MayHave F.O .bool "prepend" e p → MayDenote F e "separator" sep → MayTyped F .bool p po →
    Says F e (.mk c (.appendEnv n v po sep))
  | resetEnv {e c} : CondGiven F e c → e.typeName = "reset_env" → Says F e (.mk c .resetEnv)
  | resetLC {e c k} : CondGiven F e c → e.typeName = "reset" → PairsGiven F e "keep" k → Says F e (.mk c (.resetLC k))
  | log {e c m} : CondGiven F e c → e.typeName = "log" → Denotes F e "message" m → Says F e (.mk c (.log m))
  | shutdown {e c r} : CondGiven F e c → e.typeName = "shutdown" →
    (r = none ∧ (e.text "reason" = none ∨ e.text "reason" = some "") ∨ ∃ l, r = some l ∧ Denotes F e "reason" l ∧ e.text "reason" ≠ some "") → Says F e (.mk c (.shutdown r))
  | timer {e c p pt as cs} {co : Option TVal} : CondGiven F e c → e.typeName = "timer" → HasValue F.O .float "period" e p → PeriodGiven F p pt →
    as.length = (childEnts e).length → (∀ p ∈ (childEnts e).zip as, Says F p.1 p.2) →
    MayHave F.O .bool "cancel_on_shutdown" e cs → MayTyped F .bool cs co →
    Says F e (.mk c (.timer pt as co))
  | executable {e c s cmd cwd name onExit pre output respawn retries delay sk st shell tty env} : CondGiven F e c → e.typeName = "executable" →
    e.text "cmd" = some s → cmdSubs F s = .ok cmd → MayDenote F e "cwd" cwd → MayDenote F e "name" name →
    (onExit = true ∧ e.text "on_exit" = some "shutdown" ∨ onExit = false ∧ e.text "on_exit" = none) → MayDenote F e "launch-prefix" pre →
    MayDenote F e "output" output → MayDenote F e "respawn" respawn → MayHave F.O .int "respawn_max_retries" e retries →
    MayHave F.O .float "respawn_delay" e delay → MayHave F.O .float "sigkill_timeout" e sk → MayHave F.O .float "sigterm_timeout" e st →
    NotNegative F delay → NotNegative F sk → NotNegative F st → MayHave F.O .bool "shell" e shell → MayHave F.O .bool "emulate_tty" e tty → PairsGiven F e "env" env →
    Says F e (.mk c (.executable (.mk cmd cwd name onExit pre output respawn retries delay sk st shell tty env)))

end Verif
