/-!
# `bytes.decode()`

The strict decoding of UTF-8, the default of `bytes.decode`.
-/

namespace Verif

/-- `bytes.decode()`: `none` is UnicodeDecodeError.  `fuel`: a bound of the number of bytes left. -/
def decodeStrictAux : Nat → List UInt8 → Option (List Char)
  | _, [] => some []
  | 0, _ :: _ => none
  | n + 1, b :: bs =>
    match (b :: bs).toByteArray.utf8DecodeChar? 0 with
    | some c => (decodeStrictAux n ((b :: bs).drop c.utf8Size)).map (c :: ·)
    | none => none

/-- See `decodeStrictAux`. -/
def decodeStrict (bs : List UInt8) : Option (List Char) := decodeStrictAux bs.length bs

end Verif
