import Verif.Spec.Scope

/-!
# Specification vocabulary for single actions
-/

namespace Verif

/-- Assign the entries one after another: perform the value, then the name, in the context as it is by then, and set
the configuration.  `c` and `c'` are related when `c'` has the resulting configurations, environment, locals
and scopes. -/
inductive Assigns (O : Oracle) : List (List Sub × List Sub) → Ctx → Ctx → Prop
  | nil {c c'} (lc : c'.lc = c.lc) (env : c'.env = c.env) (ls : c'.lcStack = c.lcStack)
      (es : c'.envStack = c.envStack) : Assigns O [] c c'
  | cons {n v rest c c0 c1 c2 c3 c' ns vs}
      (lc0 : c0.lc = c.lc) (env0 : c0.env = c.env) (loc0 : c0.locals = c.locals) (rng0 : c0.rng = c.rng)
      (ls0 : c0.lcStack = c.lcStack) (es0 : c0.envStack = c.envStack)
      (hv : performSubs O v c0 = (c1, .ok vs)) (hn : performSubs O n c1 = (c2, .ok ns))
      (h3 : c3 = { c2 with lc := c2.lc.set ns vs }) (h : Assigns O rest c3 c') :
      Assigns O ((n, v) :: rest) c c'

/-- Texts joined by a separator. -/
def joinSep (sep : String) : List String → String
  | [] => ""
  | [x] => x
  | x :: y :: l => x ++ sep ++ joinSep sep (y :: l)

/-- What `prepend` of AppendEnvironmentVariable means: a bool is itself, substitutions are performed and must read as a bool. -/
inductive PrependIs (O : Oracle) : Bool ⊕ List Sub → Ctx → Ctx → Bool → Prop
  | value (b : Bool) (c : Ctx) : PrependIs O (.inl b) c c b
  | text {s c c' t b} (hs : performSubs O s c = (c', .ok t)) (hb : coerceToType O t (some (.scalar .bool)) = .ok (.bool b)) :
      PrependIs O (.inr s) c c' b

end Verif
