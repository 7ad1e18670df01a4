import Verif.Model.Subst

/-!
# Conditions

launch/launch/condition.py and launch/launch/conditions/*.py.
-/

namespace Verif

/-- Conditions. -/
inductive Cond where
  /-- conditions/if_condition.py:26-46 -/
  | ifC (expr : List Sub)
  /-- conditions/unless_condition.py:24-40 -/
  | unlessC (expr : List Sub)
  /-- conditions/launch_configuration_equals.py:30-81 -/
  | lcEquals (name : String) (expected : Option (List Sub))
  /-- conditions/launch_configuration_not_equals.py:26-52 -/
  | lcNotEquals (name : String) (expected : Option (List Sub))
  /-- `Condition(predicate=f)`, condition.py:31-32; the number names the predicate -/
  | pred (n : Nat)
  /-- `Condition()`: evaluates to False, condition.py:42 -/
  | noPred
  deriving Repr, Inhabited

/-- The texts compared after `strip().lower()`, evaluate_condition_expression_impl.py:42-48. -/
def evalConditionText (s : String) : Res Bool :=
  let t := stripLower s
  if t = "true".toList ∨ t = "1".toList then .ok true
  else if t = "false".toList ∨ t = "0".toList then .ok false
  else .error .invalidCondition

/-- `evaluate_condition_expression`, evaluate_condition_expression_impl.py:29-48. -/
def evalConditionExpr (O : Oracle) (e : List Sub) : M Bool :=
  M.bind (performSubs O e) fun s => M.lift (evalConditionText s)

/-- `LaunchConfigurationEquals._predicate_func`, launch_configuration_equals.py:71-81. -/
def lcEqualsEval (O : Oracle) (name : String) (expected : Option (List Sub)) : M Bool :=
  M.bind (performOpt O expected) fun e => fun c =>
    match c.lc.get? name with
    | some v => (c, .ok (some v == e))
    | none => (c, .ok e.isNone)

/-- `Condition.evaluate`, condition.py:38-42; `preds` are the user-supplied predicates. -/
def Cond.eval (O : Oracle) (preds : Nat → Ctx → Res Bool) : Cond → M Bool
  | .ifC e => evalConditionExpr O e
  | .unlessC e => M.bind (evalConditionExpr O e) fun b => M.pure (!b)
  | .lcEquals n v => lcEqualsEval O n v
  | .lcNotEquals n v => M.bind (lcEqualsEval O n v) fun b => M.pure (!b)
  | .pred n => fun c => (c, preds n c)
  | .noPred => M.pure false

/-- `self.__condition is None or self.__condition.evaluate(context)`, action.py:107. -/
def condEval (O : Oracle) (preds : Nat → Ctx → Res Bool) : Option Cond → M Bool
  | none => M.pure true
  | some cd => cd.eval O preds

end Verif
