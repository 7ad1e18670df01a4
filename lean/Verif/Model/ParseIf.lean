import Verif.Model.Parse

/-!
# Values that may contain substitutions, for scalars and lists

launch/launch/frontend/parse_substitution.py:119-156.
-/

namespace Verif

/-- `type(value)`, which `data_types` collects (parse_substitution.py:148).  Objects that are neither scalars nor lists are kept apart by their tags. -/
inductive PyType where
  | int | float | bool | str | list
  | other (tag : Nat)
  deriving DecidableEq, Repr

/-- `type(value)`, parse_substitution.py:148. -/
def PyVal.pyType : PyVal → PyType
  | .int _ => .int
  | .float _ => .float
  | .bool _ => .bool
  | .str _ => .str
  | .list _ => .list
  | .other n => .other n

/-- `_parse_if`, parse_substitution.py:136-149: the result, and the set `data_types` afterwards (a list without repetitions). -/
def parseIfItem (F : Front) (types : List PyType) : PyVal → Res (IfSub × List PyType)
  | .str s =>
    match F.subst s with
    | .error e => .error e
    | .ok [.text t] => .ok (.val (.str t), types.insert .str)
    | .ok l => .ok (.subs l, types)
  | v => .ok (.val v, types.insert v.pyType)

/-- The list comprehension at parse_substitution.py:151. -/
def parseIfItems (F : Front) (types : List PyType) : List PyVal → Res (List IfSub × List PyType)
  | [] => .ok ([], types)
  | v :: vs =>
    match parseIfItem F types v with
    | .error e => .error e
    | .ok (r, types1) =>
      match parseIfItems F types1 vs with
      | .error e => .error e
      | .ok (rs, types2) => .ok (r :: rs, types2)

/-- What `parse_if_substitutions` returns: for a list a list, for anything else one value. -/
inductive IfOut where
  | one (r : IfSub)
  | many (rs : List IfSub)

/-- `parse_if_substitutions`, parse_substitution.py:119-156. -/
def parseIfSubstitutions (F : Front) : PyVal → Res IfOut
  | .list l =>
    match parseIfItems F [] l with
    | .error e => .error e
    | .ok (rs, types) => if types.length > 1 then .error .valueError else .ok (.many rs)
  | v =>
    match parseIfItem F [] v with
    | .error e => .error e
    | .ok (r, types) => if types.length > 1 then .error .valueError else .ok (.one r)

/-- The object given to `normalize_typed_substitution` by users of the parser. -/
def IfOut.toTVal : IfOut → TVal
  | .one r => r.toTVal
  | .many rs => .seq (rs.map IfSub.toTVal)

end Verif
