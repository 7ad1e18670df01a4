import Verif.Spec.Frontend
import Verif.Spec.Typed

/-! # Specification: XML and YAML files with the same content -/

namespace Verif

/-- Attributes that are texts, by tag (besides `if` and `unless`). -/
def textAttrs : String → List String
  | "let" => ["name", "value"]
  | "arg" => ["name", "default", "description"]
  | "include" => ["file"]
  | "set_env" => ["name", "value"]
  | "unset_env" => ["name"]
  | "append_env" => ["name", "value", "separator"]
  | "log" => ["message"]
  | "shutdown" => ["reason"]
  | "executable" => ["cmd", "cwd", "name", "on_exit", "launch-prefix", "output", "respawn"]
  | _ => []

/-- Attributes of other types, by tag. -/
def typedAttrs : String → List (String × ScalarTy)
  | "group" => [("scoped", .bool), ("forwarding", .bool)]
  | "append_env" => [("prepend", .bool)]
  | "timer" => [("period", .float), ("cancel_on_shutdown", .bool)]
  | "executable" => [("respawn_max_retries", .int), ("respawn_delay", .float), ("sigkill_timeout", .float), ("sigterm_timeout", .float), ("shell", .bool),
      ("emulate_tty", .bool)]
  | _ => []

/-- An attribute is the same text in both files, or absent from both. -/
def TextSame (x : Xml) (d : List (String × Yaml)) (n : String) : Prop :=
  x.attrs.get? (n ++ "-sep") = none ∧ Dict.get? d n = (x.attrs.get? n).map (fun s => .scalar (.str s))

/-- An attribute has a value of its type (or is a text that does not denote one) in YAML, and is a text that denotes it in XML, or is absent from both. -/
def TypedSame (O : Oracle) (x : Xml) (d : List (String × Yaml)) (n : String) (t : ScalarTy) : Prop :=
  x.attrs.get? (n ++ "-sep") = none ∧
  match x.attrs.get? n with
  | none => Dict.get? d n = none
  | some s => ∃ v, coerceToType O s (some (.scalar t)) true = .ok v ∧ Dict.get? d n = some (.scalar v)

/-- Nested entities with the text attributes `names`: elements in XML, a list of mappings in YAML. -/
def NestedSame (names : List String) (x : Xml) (d : List (String × Yaml)) (n : String) : Prop :=
  if (x.nested.filter (fun z => z.tag = n)) = [] then Dict.get? d n = none
  else ∃ ws : List (List (String × Yaml)), Dict.get? d n = some (.list (ws.map .dict)) ∧
    Each2 (fun z w => (∀ m ∈ names, TextSame z w m) ∧ NamesWithin names [] false (.xml z) ∧ NamesWithin names [] false (.yaml (.dict w) n))
      (x.nested.filter (fun z => z.tag = n)) ws

/-- All names in the entity are documented for its tag. -/
def NamesDocumented (e : Ent) : Prop :=
  NamesWithin (["if", "unless"] ++ (textAttrs e.typeName ++ (typedAttrs e.typeName).map (·.1))) (tagPairs e.typeName ++ tagOthers e.typeName)
    (hasActions e.typeName) e

/-- An XML element and a YAML entity of the same tag that say the same, at all levels. -/
inductive Same (O : Oracle) : Xml → Yaml → Prop
  | dict {x : Xml} {d : List (String × Yaml)} (cs : List (String × Yaml)) : NamesDocumented (.xml x) → NamesDocumented (.yaml (.dict d) x.tag) →
    (∀ n ∈ ["if", "unless"] ++ textAttrs x.tag, TextSame x d n) →
    (∀ p ∈ typedAttrs x.tag, TypedSame O x d p.1 p.2) →
    (∀ n ∈ tagPairs x.tag, NestedSame ["name", "value"] x d n) →
    (∀ n ∈ tagOthers x.tag, NestedSame ["value"] x d n) →
    (hasActions x.tag = true → Dict.get? d "children" = some (.list (cs.map (fun c => .dict [c]))) ∧
      cs.map (·.1) = (x.nested.filter (fun z => z.tag ∉ tagPairs x.tag)).map Xml.tag ∧ ∀ c ∈ cs, c.1 ∉ tagPairs x.tag) →
    (hasActions x.tag = true → ∀ p ∈ (x.nested.filter (fun z => z.tag ∉ tagPairs x.tag)).zip (cs.map (·.2)), Same O p.1 p.2) →
    Same O x (.dict d)
  /-- a tag without attributes, its actions directly as a list -/
  | list {x : Xml} (cs : List (String × Yaml)) : hasActions x.tag = true → x.attrs = [] → (∀ z ∈ x.nested, z.tag ∉ tagPairs x.tag) →
    cs.map (·.1) = x.nested.map Xml.tag → (∀ p ∈ x.nested.zip (cs.map (·.2)), Same O p.1 p.2) →
    Same O x (.list (cs.map (fun c => .dict [c])))

end Verif
