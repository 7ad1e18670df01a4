import Verif.Model.Parse

/-! # Specification of frontends -/

namespace Verif

/-! ## Escaping -/

/-- Put a backslash before every special character. -/
def escapeAll (special : Char → Bool) (s : List Char) : List Char := s.flatMap fun c => if special c then ['\\', c] else [c]

/-! ## Loading -/

/-- The first parser of a list that accepts a text, with the errors of those before it. -/
inductive FirstAccepting {α : Type} (text : String) : List (Impl α) → List Err → α → Prop
  | here {p : Impl α} {ps : List (Impl α)} {n : Nat} {a : α} : p.load text = (n, .ok a) → FirstAccepting text (p :: ps) [] a
  | later {p : Impl α} {ps : List (Impl α)} {n : Nat} {e : Err} {es : List Err} {a : α} : p.load text = (n, .error e) →
    FirstAccepting text ps es a → FirstAccepting text (p :: ps) (e :: es) a

/-! ## Reads of an entity -/

/-- One access of a parse method to its entity. -/
inductive Access where
  | attr (name : String) (ty : AttrTy) (optional canBeStr : Bool)
  | children

/-- The record of reads after an access, and the exception raised, if any. -/
def Access.run (O : Oracle) (e : Ent) (r : Reads) : Access → Reads × Option Err
  | .attr n ty o c =>
    match e.getAttr O r n ty o c with
    | (r', .ok _) => (r', none)
    | (r', .error x) => (r', some x)
  | .children =>
    match e.children r with
    | (r', .ok _) => (r', none)
    | (r', .error x) => (r', some x)

/-- The record after a whole history of accesses. -/
def Access.runAll (O : Oracle) (e : Ent) (as : List Access) : Reads := as.foldl (fun r a => (a.run O e r).1) {}

/-- An attribute of an XML element was read: by its name, or as the separator of an attribute that was read. -/
def AttrRead (x : Xml) (as : List Access) (a : String) : Prop :=
  ∃ n ty o c, Access.attr n (.value ty) o c ∈ as ∧ n ∈ x.attrs.keys ∧ (a = n ∨ a = n ++ "-sep")

/-- A nested tag of an XML element was read: as a list of nested entities, or with all children. -/
def TagRead (as : List Access) (t : String) : Prop := Access.children ∈ as ∨ ∃ o c, Access.attr t .entities o c ∈ as

/-- A key of a YAML entity was read. -/
def KeyRead (as : List Access) (k : String) : Prop := (∃ ty o c, Access.attr k ty o c ∈ as) ∨ (k = "children" ∧ Access.children ∈ as)

/-! ## The documented attributes of the tags -/

/-- Attributes by tag (besides `if` and `unless`). -/
def tagAttrs : String → List String
  | "let" => ["name", "value"]
  | "arg" => ["name", "default", "description"]
  | "group" => ["scoped", "forwarding"]
  | "include" => ["file"]
  | "set_env" => ["name", "value"]
  | "unset_env" => ["name"]
  | "append_env" => ["name", "value", "prepend", "separator"]
  | "log" => ["message"]
  | "shutdown" => ["reason"]
  | "timer" => ["period", "cancel_on_shutdown"]
  | "executable" => ["cmd", "cwd", "name", "on_exit", "launch-prefix", "output", "respawn", "respawn_max_retries", "respawn_delay",
      "sigkill_timeout", "sigterm_timeout", "shell", "emulate_tty"]
  | _ => []

/-- Nested entities by tag that are pairs of a name and a value. -/
def tagPairs : String → List String
  | "group" => ["keep"]
  | "include" => ["arg"]
  | "reset" => ["keep"]
  | "executable" => ["env"]
  | _ => []

/-- Other nested entities by tag. -/
def tagOthers : String → List String
  | "arg" => ["choice"]
  | _ => []

/-- Tags with nested actions. -/
def hasActions (tag : String) : Bool := tag = "group" || tag = "timer"

/-- The known tags. -/
def knownTags : List String :=
  ["let", "arg", "group", "include", "set_env", "unset_env", "append_env", "reset_env", "reset", "log", "shutdown", "timer", "executable"]

/-- The names given in an entity are all among the attributes `attrs` and the nested entities `nested`; with `actions`, arbitrary nested entities are
admitted (in YAML, under the key `children` or as a list). -/
def NamesWithin (attrs nested : List String) (actions : Bool) : Ent → Prop
  | .xml x => (∀ a ∈ x.attrs.keys, a ∈ attrs) ∧ (actions = false → ∀ y ∈ x.nested, y.tag ∈ nested)
  | .yaml (.dict d) _ => ∀ k ∈ Dict.keys d, k ∈ attrs ∨ k ∈ nested ∨ (actions = true ∧ k = "children")
  | .yaml (.list _) _ => actions = true
  | .yaml (.scalar _) _ => False

/-- The nested entities of a name. -/
def nestedEnts : Ent → String → List Ent
  | .xml x, n => (x.nested.filter (fun y => y.tag = n)).map .xml
  | .yaml (.dict d) _, n =>
    match Dict.get? d n with
    | some (.list l) => l.map (.yaml · n)
    | _ => []
  | _, _ => []

/-- An item of a YAML list of actions: a mapping with one key, the tag. -/
def taggedItem : Yaml → Option Ent
  | .dict [(tag, content)] => some (.yaml content tag)
  | _ => none

/-- The children of an entity: in XML the nested elements, in YAML the items of the list under the key `children` or, if the entity is a list, its items. -/
def childEnts : Ent → List Ent
  | .xml x => x.nested.map .xml
  | .yaml (.dict d) _ =>
    match Dict.get? d "children" with
    | some (.list l) => l.filterMap taggedItem
    | _ => []
  | .yaml (.list l) _ => l.filterMap taggedItem
  | .yaml (.scalar _) _ => []

/-- An entity that contains nothing but what is documented for its tag, at all levels of nested actions. -/
inductive Documented : Ent → Prop
  | mk {e : Ent} : e.typeName ∈ knownTags →
    NamesWithin (["if", "unless"] ++ tagAttrs e.typeName) (tagPairs e.typeName ++ tagOthers e.typeName) (hasActions e.typeName) e →
    (∀ n ∈ tagPairs e.typeName, ∀ y ∈ nestedEnts e n, NamesWithin ["name", "value"] [] false y) →
    (hasActions e.typeName = true → ∀ y ∈ childEnts e, (y.typeName ∈ tagPairs e.typeName → False) → Documented y) → Documented e

/-! ## List attributes -/

/-- The pieces of a text between the occurrences of a separator: the first one goes up to the first occurrence, the others are the pieces of what is after it. -/
inductive Pieces (sep : List Char) : List Char → List (List Char) → Prop
  | last {t : List Char} : (∀ a b, t ≠ a ++ sep ++ b) → Pieces sep t [t]
  | first {p rest : List Char} {ps : List (List Char)} : (∀ a b, p ++ sep ++ rest = a ++ sep ++ b → p.length ≤ a.length) → Pieces sep rest ps →
      Pieces sep (p ++ sep ++ rest) (p :: ps)

end Verif
