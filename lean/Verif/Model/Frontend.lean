import Verif.Model.Coerce

/-!
# Frontends: escaping, loading of files, access to entities

launch/launch/frontend/parse_substitution.py, launch/launch/frontend/parser.py, launch_xml/launch_xml/entity.py, launch_yaml/launch_yaml/entity.py.
-/

namespace Verif

/-! ## Escaped characters -/

/-- `replace_escaped_characters`, launch/launch/frontend/parse_substitution.py:33-35: `re.sub(r'\\(.)', r'\1', data)`; the dot does not match a newline. -/
def unescape : List Char → List Char
  | [] => []
  | [c] => [c]
  | c :: d :: cs => if c = '\\' ∧ d ≠ '\n' then d :: unescape cs else c :: unescape (d :: cs)

/-! ## Loading -/

/-- A parser implementation: the class (named by a number), its file extensions, and its `load` on the text that is left in the file.
`load` also tells how far the file was read.  (launch_xml/launch_xml/parser.py:31-42, launch_yaml/launch_yaml/parser.py:33-61.) -/
structure Impl (α : Type) where
  cls : Nat
  exts : List String
  load : String → Nat × Res α

/-- `str.endswith`. -/
def endsWith (s t : String) : Bool := t.toList.isSuffixOf s.toList

/-- `Parser.may_parse`, parser.py:173-179. -/
def Impl.mayParse {α : Type} (p : Impl α) (filename : String) : Bool := p.exts.any (fun e => endsWith filename ("." ++ e))

/-- An open text file: its content, the position, whether it can be rewound and its name (`''` if it has none, parser.py:242). -/
structure TextFile where
  content : List Char
  pos : Nat := 0
  seekable : Bool := true
  name : String := ""
  deriving DecidableEq, Repr

/-- The text that is left. -/
def TextFile.rest (f : TextFile) : String := String.ofList (f.content.drop f.pos)

/-- `get_parsers_from_filename`, parser.py:194-205, and the others, parser.py:245-248. `reg`: the values of `frontend_parsers`, sorted by name (parser.py:107). -/
def implementations {α : Type} (reg : List (Impl α)) (filename : String) : List (Impl α) :=
  let first := reg.filter (·.mayParse filename)
  first ++ reg.filter (fun p => !(first.map (·.cls)).contains p.cls)

/-- How `Parser.load` ends: the result of a parser, InvalidFrontendLaunchFileError with the collected errors and the extension, or the exception of `seek`. -/
inductive LoadResult (α : Type) where
  | ok (a : α)
  | invalid (errors : List Err) (extension : String)
  | seekFailed
  deriving Repr

/-- The loop of parser.py:250-256: the errors collected, or the end. -/
def tryAll {α : Type} (f : TextFile) (errors : List Err) : List (Impl α) → TextFile × (List Err ⊕ LoadResult α)
  | [] => (f, .inl errors)
  | p :: ps =>
    match p.load f.rest with
    | (n, .ok a) => ({ f with pos := f.pos + n }, .inr (.ok a))
    | (n, .error e) =>
      if f.seekable then tryAll { f with pos := 0 } (errors ++ [e]) ps
      else ({ f with pos := f.pos + n }, .inr .seekFailed)

/-- `os.path.splitext(filename)[1][1:]`, parser.py:258, for names as they occur: what follows the last dot of the last component.  (A leading dot of
the component, which splitext ignores, is ignored here too.) -/
def extensionOf (filename : String) : String :=
  let base := (filename.toList.reverse.takeWhile (· != '/')).reverse
  let noLead := base.dropWhile (· == '.')
  if noLead.contains '.' then String.ofList ((noLead.reverse.takeWhile (· != '.')).reverse) else ""

/-- `Parser.load` for an open file, parser.py:217-263.  (A file given by its path is opened before, at position 0, and closed afterwards.) -/
def loadFile {α : Type} (reg : List (Impl α)) (f : TextFile) : TextFile × LoadResult α :=
  match tryAll f [] (implementations reg f.name) with
  | (f', .inr r) => (f', r)
  | (f', .inl errors) =>
    let extension := if reg.any (·.mayParse f.name) then extensionOf f.name else ""
    (f', .invalid errors extension)

/-! ## Entities -/

/-- XML elements (tag, attributes in order, nested elements). -/
inductive Xml where
  | elem (tag : String) (attrs : Dict String) (nested : List Xml)
  deriving Inhabited

namespace Xml
/-- `element.tag` -/
def tag : Xml → String
  | .elem t _ _ => t
/-- `element.attrib` -/
def attrs : Xml → Dict String
  | .elem _ a _ => a
/-- `list(element)` -/
def nested : Xml → List Xml
  | .elem _ _ n => n
end Xml

/-- YAML documents: scalars, lists, and mappings with texts as keys. -/
inductive Yaml where
  | scalar (v : PyVal)
  | list (l : List Yaml)
  | dict (d : List (String × Yaml))
  deriving Inhabited

mutual
/-- The document as a Python value, mappings being opaque. -/
def Yaml.toPyVal : Yaml → PyVal
  | .scalar v => v
  | .list l => .list (Yaml.toPyVals l)
  | .dict _ => .other 1

/-- The items of a list. -/
def Yaml.toPyVals : List Yaml → List PyVal
  | [] => []
  | y :: l => y.toPyVal :: Yaml.toPyVals l
end

/-- Entities of both frontends: an XML element, or a YAML document with the type name. -/
inductive Ent where
  | xml (e : Xml)
  | yaml (y : Yaml) (typeName : String)
  deriving Inhabited

/-- `type_name`, launch_xml/launch_xml/entity.py:45-48, launch_yaml/launch_yaml/entity.py:46-49. -/
def Ent.typeName : Ent → String
  | .xml e => e.tag
  | .yaml _ n => n

/-- What an entity object has recorded: `__read_attributes` or `__read_keys`, `__read_children`, `__children_called`. -/
structure Reads where
  attrs : List String := []
  tags : List String := []
  childrenCalled : Bool := false
  deriving DecidableEq, Repr

/-- The type asked for: a data type (`none`: YAML rules) or `List[Entity]`. -/
inductive AttrTy where
  | value (ty : Option DataTy)
  | entities
  deriving DecidableEq, Repr

/-- What `get_attr` returns. -/
inductive AttrRes where
  | none
  | value (v : PyVal)
  | ents (l : List Ent)

/-- `str.split(sep)` for a separator that is not empty. -/
def splitSep (sep : List Char) : Nat → List Char → List Char → List (List Char)
  | _, cur, [] => [cur.reverse]
  | skip + 1, cur, _ :: cs => splitSep sep skip cur cs
  | 0, cur, c :: cs =>
    if sep.isPrefixOf (c :: cs) then cur.reverse :: splitSep sep (sep.length - 1) [] cs
    else splitSep sep 0 (c :: cur) cs

/-- The conversion at launch_xml/launch_xml/entity.py:122-130: ValueError becomes TypeError. -/
def xmlTyped (O : Oracle) (v : TextOrList) (ty : Option DataTy) (canBeStr : Bool) : Res AttrRes :=
  match getTypedValue O v ty canBeStr with
  | .ok r => .ok (.value r)
  | .error .valueError => .error .typeError
  | .error e => .error e

/-- `Entity.get_attr`, launch_xml/launch_xml/entity.py:75-131. -/
def xmlGetAttr (O : Oracle) (e : Xml) (r : Reads) (name : String) (ty : AttrTy) (optional canBeStr : Bool) : Reads × Res AttrRes :=
  match ty with
  | .entities =>
    match e.nested.filter (fun x => x.tag = name) with
    | [] => (r, if optional then .ok .none else .error .attributeError)
    | l => ({ r with tags := name :: r.tags }, .ok (.ents (l.map .xml)))
  | .value ty =>
    match e.attrs.get? name with
    | none => (r, if optional then .ok .none else .error .attributeError)
    | some text =>
      match e.attrs.get? (name ++ "-sep") with
      | none => ({ r with attrs := name :: r.attrs }, xmlTyped O (.text text) ty canBeStr)
      | some sep =>
        let r := { r with attrs := (name ++ "-sep") :: r.attrs }
        if sep = "" then (r, .error .valueError)
        else ({ r with attrs := name :: r.attrs }, xmlTyped O (.list ((splitSep sep.toList 0 [] text.toList).map String.ofList)) ty canBeStr)

/-- `Entity.children`, launch_xml/launch_xml/entity.py:55-59. -/
def xmlChildren (e : Xml) (r : Reads) : Reads × Res (List Ent) :=
  ({ r with tags := e.nested.map Xml.tag }, .ok (e.nested.map .xml))

/-- `Entity.assert_entity_completely_parsed`, launch_xml/launch_xml/entity.py:61-73. -/
def xmlAssert (e : Xml) (r : Reads) : Res Unit :=
  if e.nested.any (fun x => !r.tags.contains x.tag) then .error .valueError
  else if e.attrs.keys.any (fun a => !r.attrs.contains a) then .error .valueError
  else .ok ()

/-- `sub in text` for texts. -/
def isInfix (sub : List Char) : List Char → Bool
  | [] => sub.isEmpty
  | c :: cs => sub.isPrefixOf (c :: cs) || isInfix sub cs

/-- `name in element` for a list: some item is that text. -/
def Yaml.isText (name : String) : Yaml → Bool
  | .scalar (.str s) => s = name
  | _ => false

/-- The name looked up in a YAML entity: `name not in element` and `element[name]`, launch_yaml/launch_yaml/entity.py:116-124.  Elements may also be
lists, which have no attributes (unless the name is an item, then `element[name]` raises TypeError), or texts (likewise, with substrings); other
scalars raise TypeError at `in`. -/
def yamlLookup (y : Yaml) (name : String) : Res (Option Yaml) :=
  match y with
  | .dict d => .ok (Dict.get? d name)
  | .list l => if l.any (Yaml.isText name) then .error .typeError else .ok none
  | .scalar (.str s) => if isInfix name.toList s.toList then .error .typeError else .ok none
  | .scalar _ => .error .typeError

/-- `Entity.get_attr`, launch_yaml/launch_yaml/entity.py:98-139. -/
def yamlGetAttr (y : Yaml) (r : Reads) (name : String) (ty : AttrTy) (optional canBeStr : Bool) : Reads × Res AttrRes :=
  match yamlLookup y name with
  | .error e => (r, .error e)
  | .ok none => (r, if optional then .ok .none else .error .attributeError)
  | .ok (some data) =>
    let r := { r with attrs := name :: r.attrs }
    match ty with
    | .entities =>
      match data with
      | .list [] => (r, .error .indexError)
      | .list (.dict d :: l) => (r, .ok (.ents ((.dict d :: l).map (fun c => .yaml c name))))
      | _ => (r, .error .typeError)
    | .value ty => (r, if isInstanceOf data.toPyVal ty canBeStr then .ok (.value data.toPyVal) else .error .typeError)

/-- The children, launch_yaml/launch_yaml/entity.py:75-83: `len(child)` and `child.keys()` of each item. -/
def yamlChildEnts : List Yaml → Res (List Ent)
  | [] => .ok []
  | .dict [(n, c)] :: l =>
    match yamlChildEnts l with
    | .ok es => .ok (.yaml c n :: es)
    | .error e => .error e
  | .dict _ :: _ => .error .runtimeError
  | .list [_] :: _ => .error .attributeError
  | .list _ :: _ => .error .runtimeError
  | .scalar (.str s) :: _ => .error (if s.toList.length = 1 then .attributeError else .runtimeError)
  | .scalar _ :: _ => .error .typeError

/-- `for child in children`, launch_yaml/launch_yaml/entity.py:76: the items of a list, the keys of a mapping, the characters of a text; others raise TypeError. -/
def yamlIter : Yaml → Res (List Yaml)
  | .list l => .ok l
  | .dict d => .ok (d.map fun p => .scalar (.str p.1))
  | .scalar (.str s) => .ok (s.toList.map fun c => .scalar (.str (String.singleton c)))
  | .scalar _ => .error .typeError

/-- `Entity.children`, launch_yaml/launch_yaml/entity.py:56-83.  For an element that is neither a mapping nor a list the error message itself raises
AttributeError (62: `self.element`). -/
def yamlChildren (y : Yaml) (r : Reads) : Reads × Res (List Ent) :=
  let r := { r with childrenCalled := true }
  match y with
  | .scalar _ => (r, .error .attributeError)
  | .dict d =>
    match Dict.get? d "children" with
    | none => (r, .error .valueError)
    | some c =>
      ({ r with attrs := "children" :: r.attrs },
        match yamlIter c with
        | .ok l => yamlChildEnts l
        | .error e => .error e)
  | .list l => (r, yamlChildEnts l)

/-- `Entity.assert_entity_completely_parsed`, launch_yaml/launch_yaml/entity.py:85-96. -/
def yamlAssert (y : Yaml) (r : Reads) : Res Unit :=
  match y with
  | .list _ => if r.childrenCalled then .ok () else .error .valueError
  | .dict d => if (Dict.keys d).any (fun a => !r.attrs.contains a) then .error .valueError else .ok ()
  | .scalar _ => .error .attributeError

/-- `get_attr` of either frontend. -/
def Ent.getAttr (O : Oracle) (e : Ent) (r : Reads) (name : String) (ty : AttrTy) (optional canBeStr : Bool) : Reads × Res AttrRes :=
  match e with
  | .xml x => xmlGetAttr O x r name ty optional canBeStr
  | .yaml y _ => yamlGetAttr y r name ty optional canBeStr

/-- `children` of either frontend. -/
def Ent.children (e : Ent) (r : Reads) : Reads × Res (List Ent) :=
  match e with
  | .xml x => xmlChildren x r
  | .yaml y _ => yamlChildren y r

/-- `assert_entity_completely_parsed` of either frontend. -/
def Ent.assertParsed (e : Ent) (r : Reads) : Res Unit :=
  match e with
  | .xml x => xmlAssert x r
  | .yaml y _ => yamlAssert y r

end Verif
