import Verif.Model.Output

/-! # Specification of output -/

namespace Verif

/-- A text consists of these complete lines and an unterminated rest. -/
structure IsLines (text : List Char) (lines : List (List Char)) (rest : List Char) : Prop where
  text : text = lines.flatMap (· ++ ['\n']) ++ rest
  lines : ∀ l ∈ lines, '\n' ∉ l
  rest : '\n' ∉ rest

/-- The chunks received on a stream, in order. -/
def chunksOf (s : Stream) : List OutEv → List (List UInt8)
  | [] => []
  | .io s' bytes :: es => if s' = s then bytes :: chunksOf s es else chunksOf s es
  | _ :: es => chunksOf s es

/-- The UTF-8 encoding of a text. -/
def encode (t : List Char) : List UInt8 := t.flatMap String.utf8EncodeChar

/-- Events while one process runs: output only. -/
def OutEv.isIo : OutEv → Bool
  | .io _ _ => true
  | _ => false

/-- What is to be logged for a process whose whole output is `text`: its lines, then the unterminated rest unless it is empty. -/
def IsLog (text : List Char) (log : List (List Char)) : Prop :=
  ∃ ls r, IsLines text ls r ∧ log = ls ++ (if r = [] then [] else [r])

/-- What is to be logged for several processes, one after the other. -/
inductive IsLogs : List (List Char) → List (List Char) → Prop
  | nil : IsLogs [] []
  | cons {t : List Char} {log : List (List Char)} {ts : List (List Char)} {logs : List (List Char)} :
    IsLog t log → IsLogs ts logs → IsLogs (t :: ts) (log ++ logs)

end Verif
