import Verif.Model.Frontend

/-!
# Files and front ends
-/

namespace Verif

variable {α : Type}

/-- A front end that can be loaded is installed under this name. -/
def Installed (es : List (String × Option (Impl α))) (name : String) (p : Impl α) : Prop := (name, some p) ∈ es

/-- The file has one of the extensions of the front end: its name is anything, a dot, and the extension (which may contain dots). -/
def IsFor (p : Impl α) (file : String) : Prop := ∃ e ∈ p.exts, ∃ stem : String, file = stem ++ "." ++ e

end Verif
