import Verif.Spec.Meaning

/-! # Specification: well-formed launch files -/

namespace Verif

/-- The attributes by tag whose values are texts (besides `if` and `unless`). -/
def tagTexts : String → List String
  | "let" => ["name", "value"]
  | "arg" => ["name", "default", "description"]
  | "include" => ["file"]
  | "set_env" => ["name", "value"]
  | "unset_env" => ["name"]
  | "append_env" => ["name", "value", "separator"]
  | "log" => ["message"]
  | "shutdown" => ["reason"]
  | "executable" => ["cmd", "cwd", "name", "on_exit", "launch-prefix", "output", "respawn"]
  | _ => []

/-- The attribute is absent or a text: so in XML always, in YAML not if it is a number, say. -/
def TextOrAbsent (n : String) (e : Ent) : Prop := Absent n e ∨ ∃ s, e.text n = some s

/-- In YAML, the nested entities of a name, if given, are a list with at least one item. -/
def NestedListed (n : String) : Ent → Prop
  | .yaml (.dict d) _ => ∀ v, Dict.get? d n = some v → ∃ y l, v = .list (y :: l)
  | _ => True

/-- Each item is a mapping with one key, the tag of an action. -/
def OneTagEach (l : List Yaml) : Prop := ∀ y ∈ l, ∃ tag content, y = .dict [(tag, content)]

/-- A YAML value that is this list of items; an empty mapping or text is as good as an empty list. -/
def ItemsAre (v : Yaml) (l : List Yaml) : Prop := v = .list l ∨ (l = [] ∧ (v = .dict [] ∨ v = .scalar (.str "")))

/-- In YAML, nested actions are given by a list under the key `children`, or the entity itself is that list. -/
def ActionsListed : Ent → Prop
  | .xml _ => True
  | .yaml (.dict d) _ => ∃ v l, Dict.get? d "children" = some v ∧ ItemsAre v l ∧ OneTagEach l
  | .yaml (.list l) _ => OneTagEach l
  | .yaml (.scalar _) _ => False

/-- The text of this attribute is not to be split: in XML it comes without the attribute for separators. -/
def NotSplit (n : String) : Ent → Prop
  | .xml x => x.attrs.get? (n ++ "-sep") = none
  | _ => True

/-- Entities whose parts are of the right kind, at all levels of nested actions. -/
inductive Formed : Ent → Prop
  | mk {e : Ent} : (∀ n ∈ ["if", "unless"] ++ tagTexts e.typeName, TextOrAbsent n e) →
    (∀ n ∈ tagPairs e.typeName ++ tagOthers e.typeName, NestedListed n e) →
    (∀ n ∈ tagOthers e.typeName, ∀ y ∈ nestedEnts e n, NotSplit "value" y) →
    (hasActions e.typeName = true → ActionsListed e) →
    (hasActions e.typeName = true → ∀ y ∈ childEnts e, y.typeName ∉ tagPairs e.typeName → Formed y) → Formed e

/-- What a launch file may contain: documented entities, of the right form, that describe these actions. -/
structure WellWritten (F : Front) (e : Ent) (a : PAct) : Prop where
  says : Says F e a
  documented : Documented e
  formed : Formed e

/-- What the root of a launch file may contain: the attribute `deprecated`, and a list of well-written actions.  (In YAML, the root is a list of actions or
a mapping with the key `children`; other keys are ignored, since nothing requires that the root was read completely.  A root that is a list must not have the
bare text `deprecated` as an item; this follows from `listed`.) -/
structure WellWrittenFile (F : Front) (e : Ent) (deprecated : Option String) (actions : List PAct) : Prop where
  root : e.typeName = "launch"
  deprecated_is : deprecated = e.text "deprecated"
  text : TextOrAbsent "deprecated" e
  listed : ActionsListed e
  single : e.text "deprecated" ≠ none → NotSplit "deprecated" e
  each : Each2 (fun y a => WellWritten F y a) (childEnts e) actions

end Verif
