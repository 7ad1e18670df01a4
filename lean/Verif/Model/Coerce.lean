import Verif.Model.Oracle

/-!
# Typed values: checks and coercions of plain values

launch/launch/utilities/type_utils.py:107-350.
-/

namespace Verif

/-- The data types accepted by the typed-substitution functions: a scalar type or a `List` of one,
launch/launch/utilities/type_utils.py:41-50.  (Invalid type objects, for which `extract_type` raises
`ValueError` at 160-161, are not representable.) -/
inductive DataTy where
  | scalar (t : ScalarTy)
  | list (t : ScalarTy)
  deriving DecidableEq, Repr, Inhabited

namespace PyVal

/-- `isinstance(x, t)` for a scalar type. `bool` is a subclass of `int` in Python. -/
def isInst (v : PyVal) (t : ScalarTy) : Bool :=
  match v, t with
  | .int _, .int => true
  | .bool _, .int => true
  | .float _, .float => true
  | .bool _, .bool => true
  | .str _, .str => true
  | _, _ => false

/-- `isinstance(x, ScalarTypesTuple)`, type_utils.py:183, 423, 440, 550. -/
def isScalar : PyVal → Bool
  | .int _ | .float _ | .bool _ | .str _ => true
  | _ => false

/-- `type(x)` restricted to the scalar types (`none`: another type). -/
def scalarTy? : PyVal → Option ScalarTy
  | .int _ => some .int
  | .float _ => some .float
  | .bool _ => some .bool
  | .str _ => some .str
  | _ => none

/-- `type(x) is str`. -/
def isStr : PyVal → Bool
  | .str _ => true
  | _ => false

end PyVal

/-- `isinstance(x, (t, str))` if `canBeStr`, else `isinstance(x, t)`. -/
def isInstOrStr (canBeStr : Bool) (v : PyVal) (t : ScalarTy) : Bool :=
  v.isInst t || (canBeStr && v.isStr)

/-- `is_instance_of_valid_type`, type_utils.py:165-183.  Lines 178-180: the member type is the exact
type of the first member that is not a `str`, or `str`; it must be a scalar type. -/
def isInstanceOfValidType (v : PyVal) (canBeStr : Bool) : Bool :=
  match v with
  | .list [] => true
  | .list l =>
    match l.find? (fun x => !x.isStr) with
    | none => l.all (fun x => isInstOrStr canBeStr x .str)
    | some x =>
      match x.scalarTy? with
      | none => false
      | some t => l.all (fun y => isInstOrStr canBeStr y t)
  | v => v.isScalar

/-- `is_instance_of`, type_utils.py:186-213. -/
def isInstanceOf (v : PyVal) (ty : Option DataTy) (canBeStr : Bool := false) : Bool :=
  match ty with
  | none => isInstanceOfValidType v canBeStr
  | some (.scalar t) => isInstOrStr canBeStr v t
  | some (.list t) =>
    match v with
    | .list l => l.all (fun x => isInstOrStr canBeStr x t)
    | _ => false

/-- `convert_as_yaml` inside `coerce_to_type`, type_utils.py:234-250. -/
def convertAsYaml (O : Oracle) (value : String) (canBeStr : Bool) : Res PyVal :=
  if value = "" then .ok (.str value)
  else match O.yaml value with
    | none => if canBeStr then .ok (.str value) else .error .valueError
    | some output =>
      if isInstanceOfValidType output canBeStr then .ok output else .error .valueError

/-- `coerce_to_type`, type_utils.py:216-294.  The argument is always a `str` here (252 cannot fail). -/
def coerceToType (O : Oracle) (value : String) (ty : Option DataTy) (canBeStr : Bool := false) :
    Res PyVal :=
  match ty with
  | none => convertAsYaml O value canBeStr
  | some (.list t) =>
    match convertAsYaml O value canBeStr with
    | .error e => .error e
    | .ok (.list l) =>
      if l.all (fun x => isInstOrStr canBeStr x t) then .ok (.list l) else .error .valueError
    | .ok _ => .error .valueError
  | some (.scalar .str) => .ok (.str value)
  | some (.scalar .int) =>
    match O.parseInt value with
    | some i => .ok (.int i)
    | none => if canBeStr then .ok (.str value) else .error .valueError
  | some (.scalar .float) =>
    match O.parseFloat value with
    | some f => .ok (.float f)
    | none => if canBeStr then .ok (.str value) else .error .valueError
  | some (.scalar .bool) =>
    let value' := if value = "1" then "true" else if value = "0" then "false" else value
    match convertAsYaml O value' canBeStr with
    | .error e => .error e
    | .ok output =>
      if isInstOrStr canBeStr output .bool then .ok output else .error .valueError

/-- List comprehension that stops at the first exception (Python evaluation order). -/
def mapRes {α β : Type} (f : α → Res β) : List α → Res (List β)
  | [] => .ok []
  | x :: xs =>
    match f x with
    | .error e => .error e
    | .ok y =>
      match mapRes f xs with
      | .error e => .error e
      | .ok ys => .ok (y :: ys)

/-- `coerce_list`, type_utils.py:297-318. -/
def coerceList (O : Oracle) (value : List String) (t : Option ScalarTy) (canBeStr : Bool := false) :
    Res PyVal :=
  match mapRes (fun s => coerceToType O s (t.map .scalar) canBeStr) value with
  | .error e => .error e
  | .ok output =>
    if isInstanceOfValidType (.list output) canBeStr then .ok (.list output) else .error .valueError

/-- The argument of `get_typed_value`: text or list of texts. -/
inductive TextOrList where
  | text (s : String)
  | list (l : List String)
  deriving DecidableEq, Repr, Inhabited

/-- `get_typed_value`, type_utils.py:321-350. -/
def getTypedValue (O : Oracle) (value : TextOrList) (ty : Option DataTy) (canBeStr : Bool := false) :
    Res PyVal :=
  match value with
  | .list l =>
    match ty with
    | none => coerceList O l none canBeStr
    | some (.list t) => coerceList O l (some t) canBeStr
    | some (.scalar _) => .error .typeError
  | .text s => coerceToType O s ty canBeStr

end Verif
