import Verif.Model.Expose

/-!
# Specification vocabulary for names in launch files
-/

namespace Verif

/-- The method a stored entry calls. -/
def StoredMethod.calls : StoredMethod → ParseMethod
  | .plain m => m
  | .checked m => m

/-- What a name means: the method that is called for it. -/
def ParseMethods.meaning (r : ParseMethods) (kind : ExposeKind) (name : String) : Option ParseMethod :=
  ((r.map kind).get? name).map StoredMethod.calls

/-- The exposure gives the name this meaning. -/
def Exposure.Gives (e : Exposure) (kind : ExposeKind) (name : String) (m : ParseMethod) : Prop :=
  e.kind = kind ∧ e.name = name ∧ e.what.method = .ok m

/-- All uses of decorators in extensions. -/
def allExposures (xs : List Extension) : List Exposure := (xs.map Extension.exposures).flatten

/-- The extensions get along with each other and with what is exposed already: everything they expose can be exposed, and
no name is exposed twice. -/
structure Compatible (r : ParseMethods) (xs : List Extension) : Prop where
  valid : ∀ e ∈ allExposures xs, ∃ m, e.what.method = .ok m
  distinct : ((allExposures xs).map fun e => (e.kind, e.name)).Nodup
  fresh : ∀ e ∈ allExposures xs, r.meaning e.kind e.name = none

end Verif
