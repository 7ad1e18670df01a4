import Verif.Model.Subst

/-!
# Specification vocabulary for substitutions
-/

namespace Verif

mutual
/-- The substitution contains no AnonName anywhere. -/
def Sub.anonFree : Sub → Bool
  | .anonName _ => false
  | .text _ | .localVar _ | .thisLaunchFile | .thisLaunchFileDir | .launchLogDir => true
  | .launchConfig n d | .envVar n d => anonFreeAll n && anonFreeOpt d
  | .notS v | .findExec v | .fileContent v | .pathJoin v => anonFreeAll v
  | .andS a b | .orS a b | .equals a b | .notEquals a b | .pyExpr a b | .command a b =>
    anonFreeAll a && anonFreeAll b
  | .anyS as | .allS as => anonFreeLists as
  | .ifElse a b c => anonFreeAll a && anonFreeAll b && anonFreeAll c

def anonFreeAll : List Sub → Bool
  | [] => true
  | s :: ss => s.anonFree && anonFreeAll ss

def anonFreeOpt : Option (List Sub) → Bool
  | none => true
  | some ss => anonFreeAll ss

def anonFreeLists : List (List Sub) → Bool
  | [] => true
  | s :: ss => anonFreeAll s && anonFreeLists ss
end

/-- The boolean a text stands for under launch's coercion rules, if any:
`1`/`0`, or whatever YAML reads as a boolean. -/
def textAsBool (O : Oracle) (s : String) : Option Bool :=
  let s' := if s = "1" then "true" else if s = "0" then "false" else s
  if s' = "" then none
  else match O.yaml s' with
    | some (.bool b) => some b
    | _ => none

/-- YAML reads `true` and `false` as booleans (true of any YAML 1.1/1.2 parser). -/
structure YamlBools (O : Oracle) : Prop where
  t : O.yaml "true" = some (.bool true)
  f : O.yaml "false" = some (.bool false)

/-- Arguments the constructor of EqualsSubstitution distinguishes, equals_substitution.py:61-94. -/
inductive EqArg where
  /-- something `is_substitution` accepts, already normalised -/
  | subs (l : List Sub)
  | none
  | bool (b : Bool)
  /-- any other object, by its `str()` -/
  | obj (s : String)

/-- Normalisation in the constructor, equals_substitution.py:69-94. -/
def EqArg.norm : EqArg → List Sub
  | .subs l => l
  | .none => [.text ""]
  | .bool b => [.text (boolText b)]
  | .obj s => [.text s]

/-- How a boolean operand is evaluated: perform the substitutions; if the text is not a boolean (or there is no
substitution at all), or performing raised TypeError or ValueError, SubstitutionFailure is raised;
other exceptions pass. -/
def boolOperand (O : Oracle) (subs : List Sub) : M Bool := fun c =>
  if subs = [] then (c, .error .substitutionFailure)
  else match performSubs O subs c with
    | (c', .ok s) =>
      match textAsBool O s with
      | some b => (c', .ok b)
      | none => (c', .error .substitutionFailure)
    | (c', .error .typeError) => (c', .error .substitutionFailure)
    | (c', .error .valueError) => (c', .error .substitutionFailure)
    | (c', .error e) => (c', .error e)

/-- Evaluate all operands from left to right. -/
def boolOperands (O : Oracle) : List (List Sub) → M (List Bool)
  | [] => M.pure []
  | a :: as => M.bind (boolOperand O a) fun b => M.bind (boolOperands O as) fun bs => M.pure (b :: bs)

/-- The text is a spelling of a boolean: `true` or `1`, `false` or `0`, in upper or lower case. -/
inductive SpellsBool (s : String) : Bool → Prop
  | true : lowerStr s = "true".toList → SpellsBool s true
  | one : lowerStr s = "1".toList → SpellsBool s true
  | false : lowerStr s = "false".toList → SpellsBool s false
  | zero : lowerStr s = "0".toList → SpellsBool s false

/-- When EqualsSubstitution takes two texts for equal, in the terms of its documentation. -/
inductive EqualsSpec (O : Oracle) (a b : String) : Bool → Prop
  /-- two spellings of booleans are compared as booleans -/
  | bools {x y : Bool} : SpellsBool a x → SpellsBool b y → EqualsSpec O a b (decide (x = y))
  /-- otherwise two numbers are compared with `math.isclose` -/
  | nums {x y : Flt} : ¬ (∃ x y, SpellsBool a x ∧ SpellsBool b y) → O.parseFloat a = some x → O.parseFloat b = some y →
      EqualsSpec O a b (O.isClose x y)
  /-- otherwise they are compared as texts -/
  | texts : ¬ (∃ x y, SpellsBool a x ∧ SpellsBool b y) → (O.parseFloat a = none ∨ O.parseFloat b = none) →
      EqualsSpec O a b (decide (a = b))

/-- A sample environment for the examples. -/
def sampleOracle : Oracle where
  yaml s := if s = "true" then some (.bool true) else if s = "false" then some (.bool false) else none
  parseInt _ := none
  parseFloat s := if s = "nan" then some ⟨"nan"⟩ else if s = "1.0" then some ⟨"1"⟩ else none
  floatOfInt i := ⟨toString i⟩
  isClose a b := a.token == b.token && a.token != "nan"
  anonName n s := s ++ "_" ++ toString n
  pyEval _ _ := .error .valueError
  localEval _ _ := .error .attributeError
  run _ _ := .ok .fileNotFound
  which _ _ := none
  readFile _ := .error .fileNotFound
  logDir := "/log"

end Verif
