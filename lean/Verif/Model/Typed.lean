import Verif.Model.Subst

/-!
# Typed substitutions

launch/launch/utilities/type_utils.py:357-586.
-/

namespace Verif

/-- The Python objects that can be given to `normalize_typed_substitution` and `perform_typed_substitution`: scalars, substitutions, lists and
tuples of such objects, and anything else that is not iterable.  Simplification: lists and tuples are not distinguished (`seq`);
`normalize_typed_substitution` treats them alike and returns a list, only lists are given to `perform_typed_substitution`. -/
inductive TVal where
  | int (i : Int)
  | float (f : Flt)
  | bool (b : Bool)
  | str (s : String)
  | sub (s : Sub)
  | seq (l : List TVal)
  | other (tag : Nat)
  deriving Inhabited

namespace TVal

/-- The scalar as a Python value, `isinstance(x, ScalarTypesTuple)`: type_utils.py:423, 440, 550. -/
def scalar? : TVal → Option PyVal
  | .int i => some (.int i)
  | .float f => some (.float f)
  | .bool b => some (.bool b)
  | .str s => some (.str s)
  | _ => none

/-- A Python value as an object. -/
def ofScalar : PyVal → TVal
  | .int i => .int i
  | .float f => .float f
  | .bool b => .bool b
  | .str s => .str s
  | _ => .other 0

/-- `isinstance(x, Substitution)`. -/
def isSub : TVal → Bool
  | .sub _ => true
  | _ => false

/-- `isinstance(x, (Substitution, str))`. -/
def isSubOrStr : TVal → Bool
  | .sub _ | .str _ => true
  | _ => false

/-- `is_substitution`, type_utils.py:357-374.  A `str` is an iterable of `str`, hence never a substitution. -/
def isSubstitution : TVal → Bool
  | .sub _ => true
  | .seq l => !l.isEmpty && l.all isSubOrStr && l.any isSub
  | _ => false

/-- `normalize` inside `normalize_to_list_of_substitutions`, launch/launch/utilities/normalize_to_list_of_substitutions_impl.py:30-37. -/
def toSub : TVal → Res Sub
  | .sub s => .ok s
  | .str s => .ok (.text s)
  | _ => .error .typeError

/-- `normalize_to_list_of_substitutions`, normalize_to_list_of_substitutions_impl.py:25-43. -/
def toSubs : TVal → Res (List Sub)
  | .sub s => .ok [s]
  | .str s => .ok [.text s]
  | .seq l => mapRes toSub l
  | _ => .error .typeError

end TVal

/-- What `types_in_list` contains, type_utils.py:438-448. -/
inductive ItemTy where
  | scalar (t : ScalarTy)
  | substitution
  deriving DecidableEq, Repr

/-- The type recorded for an item; TypeError for other objects, type_utils.py:439-448. -/
def itemTy (x : TVal) : Res ItemTy :=
  match x.scalar? with
  | some v =>
    match v.scalarTy? with
    | some t => .ok (.scalar t)
    | none => .error .typeError
  | none => if x.isSubstitution then .ok .substitution else .error .typeError

/-- An item of the normalized list: a substitution becomes a list of substitutions, anything else stays, type_utils.py:467-503. -/
def normItem (x : TVal) : Res TVal :=
  if x.isSubstitution then
    match x.toSubs with
    | .ok l => .ok (.seq (l.map .sub))
    | .error e => .error e
  else .ok x

/-- An item of a list of floats, type_utils.py:496-503: numbers become floats. -/
def normFloatItem (O : Oracle) (x : TVal) : Res TVal :=
  if x.isSubstitution then
    match x.toSubs with
    | .ok l => .ok (.seq (l.map .sub))
    | .error e => .error e
  else match x with
    | .int i => .ok (.float (O.floatOfInt i))
    | x => .ok x

/-- Wrap a list comprehension. -/
def normItems (f : TVal → Res TVal) (l : List TVal) : Res TVal :=
  match mapRes f l with
  | .ok r => .ok (.seq r)
  | .error e => .error e

/-- The choice by the types of the items, type_utils.py:462-511.  `want`: the expected type of the items, if any. -/
def normUniform (O : Oracle) (l : List TVal) (types : List ItemTy) (want : Option ScalarTy) : Res TVal :=
  let only (ts : List ItemTy) : Bool := types.all (fun t => decide (t ∈ ts))
  -- 467: `types_in_list == {Substitution}`
  if !types.isEmpty && only [.substitution] then normItems normItem l
  else if only [.scalar .str, .substitution] then
    if want = none ∨ want = some .str then normItems normItem l else .error .typeError
  else if only [.scalar .bool, .substitution] then
    if want = none ∨ want = some .bool then normItems normItem l else .error .typeError
  else if only [.scalar .int, .substitution] then
    if want = none ∨ want = some .int then normItems normItem l else .error .typeError
  else if only [.scalar .int, .scalar .float, .substitution] then
    if want = none ∨ want = some .float then normItems (normFloatItem O) l else .error .typeError
  else .error .typeError

/-- `normalize_typed_substitution`, type_utils.py:377-511. -/
def normalizeTyped (O : Oracle) (value : TVal) (ty : Option DataTy) : Res TVal :=
  match value.scalar? with
  | some v => if isInstanceOf v ty then .ok value else .error .typeError
  | none =>
    if value.isSubstitution then
      match value.toSubs with
      | .ok l => .ok (.seq (l.map .sub))
      | .error e => .error e
    else match value with
      | .seq l =>
        match mapRes itemTy l with
        | .error e => .error e
        | .ok types =>
          match ty with
          | none => normUniform O l types none
          | some (.list t) => normUniform O l types (some t)
          | some (.scalar _) => .error .typeError
      | _ => .error .typeError

/-- The substitutions of a sequence that consists of nothing else. -/
def allSubs : List TVal → Option (List Sub)
  | [] => some []
  | .sub s :: xs =>
    match allSubs xs with
    | some ss => some (s :: ss)
    | none => none
  | _ :: _ => none

/-- `is_normalized_substitution`, type_utils.py:509-519, giving the substitutions. -/
def normalizedSubs? : TVal → Option (List Sub)
  | .seq [] => none
  | .seq l => allSubs l
  | _ => none

/-- The object as it is put into the resulting list (type_utils.py:570: `else x`).  Objects that are no scalars are kept opaque. -/
def keepItem (x : TVal) : PyVal :=
  match x.scalar? with
  | some v => v
  | none => .other 0

/-- One item of the list, type_utils.py:567-571. -/
def performItem (O : Oracle) (x : TVal) (t : Option ScalarTy) : M PyVal :=
  match normalizedSubs? x with
  | some l => M.bind (performSubs O l) fun s => M.lift (coerceToType O s (t.map .scalar))
  | none => M.pure (keepItem x)

/-- The list comprehension, type_utils.py:567-571. -/
def performItems (O : Oracle) (t : Option ScalarTy) : List TVal → M (List PyVal)
  | [] => M.pure []
  | x :: xs => M.bind (performItem O x t) fun v => M.bind (performItems O t xs) fun vs => M.pure (v :: vs)

/-- `extract_type` of the expected type and the check at type_utils.py:560-566: the member type of the expected list. -/
def memberTy : Option DataTy → Res (Option ScalarTy)
  | none => .ok none
  | some (.list t) => .ok (some t)
  | some (.scalar _) => .error .valueError

/-- The check of the resulting list, type_utils.py:572-579. -/
def checkList (ty : Option DataTy) (l : List PyVal) : Res PyVal :=
  if isInstanceOf (.list l) ty then .ok (.list l) else .error .valueError

/-- `perform_typed_substitution`, type_utils.py:522-586. -/
def performTyped (O : Oracle) (value : TVal) (ty : Option DataTy) : M PyVal :=
  match value.scalar? with
  | some v => if ty = none ∨ isInstanceOf v ty then M.pure v else M.raise .typeError
  | none =>
    match normalizedSubs? value with
    | some l => M.bind (performSubs O l) fun s => M.lift (coerceToType O s ty)
    | none =>
      match value with
      | .seq l => M.bind (M.lift (memberTy ty)) fun t => M.bind (performItems O t l) fun vs => M.lift (checkList ty vs)
      | _ => M.raise .typeError

end Verif
