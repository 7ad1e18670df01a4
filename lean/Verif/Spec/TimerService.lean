import Verif.Model.TimerService

/-! # What is meant by the surroundings of an action -/

namespace Verif

/-- `context.locals.name`: what is visible under a name (for instance `current_launch_file_directory`, the value of `$(dirname)`). -/
def Ctx.sees (c : Ctx) (name : String) : Option LVal := c.locals.getCombined.1.get? name

/-- The numbers of the timers' handler and functions are not those of the service, the timers' functions are not the handler's, and the
handler's action is no timer. -/
structure Timers.Proper (T : Timers) : Prop where
  handler : T.handler ≠ includeHandler ∧ T.handler ≠ shutdownHandler
  opq : T.opq ≠ 0
  code : ∀ n i, T.timerAt n = some i → n ≠ 0 ∧ n ≠ T.opq
  helper : ∀ i, T.helper ≠ T.ident i

/-- Everything in `d` is visible in `c` as it is in `d`. -/
def Ctx.SeesAll (c : Ctx) (d : Dict LVal) : Prop := ∀ name v, d.get? name = some v → c.sees name = some v

/-- `c` is a context during the processing that leads from `a` to `b`: what was executed and logged before is a beginning of what was
executed and logged in `c`, and so on. -/
structure Ctx.Between (a c b : Ctx) : Prop where
  executed : a.trace <+: c.trace ∧ c.trace <+: b.trace
  logged : a.logged <+: c.logged ∧ c.logged <+: b.logged

end Verif
