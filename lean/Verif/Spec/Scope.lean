import Verif.Model.Visit

/-!
# Specification vocabulary for scopes
-/

namespace Verif

mutual
/-- The entity contains no unbalanced explicit Push/Pop action: inside every list of entities (of a description or a
group) the pushes and pops are matched, and none of them is conditional. -/
def Entity.balanced : Entity → Bool
  | .desc es => balancedFrom 0 0 es
  | .act _ cond kind => kind.balanced cond.isSome

def ActKind.balanced : ActKind → Bool → Bool
  | .group _ _ _ as, _ => balancedFrom 0 0 as
  | .pushLC, _ | .popLC, _ | .pushEnv, _ | .popEnv, _ => false
  | _, _ => true

/-- The list closes exactly the `d` configuration scopes and `e` environment scopes that are open before it. -/
def balancedFrom (d e : Nat) : List Entity → Bool
  | [] => d == 0 && e == 0
  | x :: xs =>
    match x, d, e with
    | .act _ none .pushLC, d, e => balancedFrom (d + 1) e xs
    | .act _ none .popLC, d + 1, e => balancedFrom d e xs
    | .act _ none .pushEnv, d, e => balancedFrom d (e + 1) xs
    | .act _ none .popEnv, d, e + 1 => balancedFrom d e xs
    | x, d, e => x.balanced && balancedFrom d e xs
end

/-- Everything user code returns or loads is balanced. -/
structure Prog.Balanced (P : Prog) : Prop where
  fn : ∀ f c es, (P.fn f c).result = .ok es → balancedFrom 0 0 es = true
  load : ∀ s l es, (P.source s).load l = .ok es → balancedFrom 0 0 es = true

/-- Perform the entries of a dictionary of substitutions in order, key then value. -/
def performPairs (O : Oracle) : List (List Sub × List Sub) → M (List (String × String))
  | [] => M.pure []
  | (k, v) :: rest =>
    M.bind (performSubs O k) fun ks => M.bind (performSubs O v) fun vs =>
      M.bind (performPairs O rest) fun ps => M.pure ((ks, vs) :: ps)

/-- The value of `k` in the dictionary built from the pairs in order: the last one wins. -/
def lastValue (pairs : List (String × String)) (k : String) : Option String :=
  pairs.reverse.lookup k

/-- Operations on the scopes of a context. -/
inductive ScopeOp where
  | pushLC | popLC | pushEnv | popEnv
  /-- arbitrary changes of the current configurations and environment -/
  | modify (f : Dict String → Dict String) (g : Dict String → Dict String)

/-- Run one operation. -/
def ScopeOp.run (c : Ctx) : ScopeOp → Ctx × Res Unit
  | .pushLC => (c.pushLC, .ok ())
  | .popLC => c.popLC
  | .pushEnv => (c.pushEnv, .ok ())
  | .popEnv => c.popEnv
  | .modify f g => ({ c with lc := f c.lc, env := g c.env }, .ok ())

/-- Run operations in order until one raises. -/
def runScope : List ScopeOp → Ctx → Ctx × Res Unit
  | [], c => (c, .ok ())
  | o :: os, c =>
    match o.run c with
    | (c', .error e) => (c', .error e)
    | (c', .ok ()) => runScope os c'

/-- Pushes and pops of configurations match, starting with `d` open scopes. -/
def lcMatched : Nat → List ScopeOp → Bool
  | d, [] => d == 0
  | d, .pushLC :: os => lcMatched (d + 1) os
  | d + 1, .popLC :: os => lcMatched d os
  | 0, .popLC :: _ => false
  | d, _ :: os => lcMatched d os

/-- Pushes and pops of the environment match, starting with `d` open scopes. -/
def envMatched : Nat → List ScopeOp → Bool
  | d, [] => d == 0
  | d, .pushEnv :: os => envMatched (d + 1) os
  | d + 1, .popEnv :: os => envMatched d os
  | 0, .popEnv :: _ => false
  | d, _ :: os => envMatched d os

/-- The visit succeeds. -/
def Outcome.succeeds {α : Type} : Outcome α → Bool
  | some (_, .ok _) => true
  | _ => false

/-- The visit ends with this exception. -/
def Outcome.raises {α : Type} (e : Err) : Outcome α → Bool
  | some (_, .error e') => e == e'
  | _ => false

end Verif
