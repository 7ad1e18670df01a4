import Verif.Lemmas.Run

/-!
# The invariant behind the number of Shutdown events
-/

namespace Verif

/-- Shutdown events emitted by the service in this run, coroutines that will emit one, and a scheduled emission
of another thread. -/
def Svc.announcements (s : Svc) : Nat :=
  s.own + s.coros + (if s.stage = .scheduled then 1 else 0)

structure ShutInv (n : Nat) (s : Svc) : Prop where
  bound : s.announcements ≤ n + 1
  fresh : s.pc ≠ .off → s.shutting = false → s.announcements ≤ n
  loop : s.loop = true → s.pc ≠ .off

/-- Steps that change none of the counters. -/
theorem ShutInv.quiet {n : Nat} {s s' : Svc} (h : ShutInv n s) (h1 : s'.announcements = s.announcements)
    (h2 : s'.pc ≠ .off → s.pc ≠ .off) (h3 : s.shutting = true → s'.pc ≠ .off → s'.shutting = true)
    (h4 : s'.loop = true → s'.pc ≠ .off) : ShutInv n s' := by
  refine ⟨by rw [h1]; exact h.bound, fun hp hs => ?_, h4⟩
  rw [h1]
  refine h.fresh (h2 hp) ?_
  cases hsh : s.shutting with
  | false => rfl
  | true => rw [h3 hsh hp] at hs; cases hs

theorem ShutInv.request {n : Nat} {s : Svc} (h : ShutInv n s) (hp : s.pc ≠ .off) (r : String) (b : Bool) :
    ShutInv n (s.request r b) := by
  unfold Svc.request
  cases hs : s.shutting with
  | true =>
    simp only [if_true]
    exact ⟨h.bound, fun _ hf => (by cases hf), h.loop⟩
  | false =>
    have := h.fresh hp hs
    refine ⟨?_, fun _ hf => (by cases hf), h.loop⟩
    simp only [Svc.announcements, Svc.setFlags, Svc.emitShutdown, Bool.false_eq_true, if_false] at this ⊢
    omega

/-- The number of calls of `shutdown()` in other threads. -/
def threadCalls (ls : List Label) : Nat := ls.count .threadShutdown

theorem ShutInv.step {P : Prog} {O : Oracle} {n : Nat} {s s' : Svc} {l : Label} (h : ShutInv n s)
    (hl : ∀ w, l ≠ .start w) (hs : s.step P O l = some s') : ShutInv (n + threadCalls [l]) s' := by
  have up : ∀ {m : Nat} {x : Svc}, ShutInv n x → n ≤ m → ShutInv m x := fun hx hm =>
    ⟨Nat.le_trans hx.bound (by omega), fun a b => Nat.le_trans (hx.fresh a b) hm, hx.loop⟩
  cases l with
  | start w => exact absurd rfl (hl w)
  | check =>
    refine up ?_ (by omega)
    simp only [Svc.step] at hs
    split at hs
    · rename_i hpc
      have hne : s.prune.pc ≠ .off := by show s.pc ≠ .off; rw [hpc]; simp
      have hp : ShutInv n s.prune := ⟨h.bound, h.fresh, h.loop⟩
      simp only [Option.some.injEq] at hs; subst hs
      unfold Svc.check
      simp only
      split
      · exact hp.request hne _ _
      · split
        · exact hp.quiet rfl (fun _ => hne) (fun h _ => h) (fun _ => by simp)
        · exact hp.quiet rfl (fun _ => hne) (fun h _ => h) (fun _ => by simp)
    · cases hs
  | process fuel =>
    refine up ?_ (by omega)
    simp only [Svc.step] at hs
    split at hs
    · obtain ⟨e, q, p, r, hq, hp, rfl⟩ := process_inv hs
      obtain ⟨hm, _, _⟩ := handleAll_facts _ hp
      exact h.quiet rfl id (fun hsh _ => hm.shutting hsh) h.loop
    · cases hs
  | wake =>
    refine up ?_ (by omega)
    simp only [Svc.step] at hs
    split at hs
    · rename_i fs hpc
      have hne : s.pc ≠ .off := by rw [hpc]; simp
      unfold Svc.wake at hs
      simp only at hs
      split at hs
      · cases hs
      · split at hs
        · simp only [Option.some.injEq] at hs; subst hs
          exact h.quiet rfl (fun _ => hne) (fun h _ => h) (fun _ => by simp)
        · split at hs
          · simp only [Option.some.injEq] at hs; subst hs
            have hr := h.request hne "Caught exception in launch" false
            exact hr.quiet rfl (fun _ => by unfold Svc.request; split <;> exact hne)
              (fun h _ => h) (fun _ => by simp)
          · simp only [Option.some.injEq] at hs; subst hs
            exact h.quiet rfl (fun _ => hne) (fun h _ => h) (fun _ => by simp)
    · cases hs
  | cancel =>
    refine up ?_ (by omega)
    simp only [Svc.step] at hs
    split at hs
    · rename_i hpc
      have hne : s.pc ≠ .off := by intro h0; rw [h0] at hpc; cases hpc
      simp only [Option.some.injEq] at hs; subst hs
      exact h.quiet rfl (fun _ => hne) (fun h _ => h) (fun _ => by simp)
    · cases hs
  | sigint =>
    refine up ?_ (by omega)
    simp only [Svc.step] at hs
    split at hs
    · rename_i hpc
      have hne : s.pc ≠ .off := by intro h0; rw [h0] at hpc; cases hpc
      simp only [Option.some.injEq] at hs; subst hs
      split
      · exact h
      · have hr := h.request hne "ctrl-c (SIGINT)" true
        exact ⟨hr.bound, hr.fresh, hr.loop⟩
    · cases hs
  | shutdownLoop =>
    refine up ?_ (by omega)
    simp only [Svc.step] at hs
    split at hs
    · simp only [Option.some.injEq] at hs; subst hs
      split
      · rename_i hlp
        cases hsh : s.shutting with
        | true => simp only [if_true]; exact ⟨h.bound, fun _ hf => (by cases hf), h.loop⟩
        | false =>
          have := h.fresh (h.loop hlp) hsh
          refine ⟨?_, fun _ hf => (by cases hf), h.loop⟩
          simp only [Svc.announcements, Svc.setFlags, Bool.false_eq_true, if_false] at this ⊢
          omega
      · exact h
    · cases hs
  | shutdownSync =>
    refine up ?_ (by omega)
    simp only [Svc.step] at hs
    split at hs
    · simp only [Option.some.injEq] at hs; subst hs
      split
      · rename_i hlp
        exact h.request (h.loop hlp) _ _
      · exact h
    · cases hs
  | awaitShutdown =>
    refine up ?_ (by omega)
    simp only [Svc.step] at hs
    split at hs
    · cases hs
    · rename_i hc
      simp only [Option.some.injEq] at hs; subst hs
      simp only [Bool.or_eq_true, decide_eq_true_eq, not_or] at hc
      refine h.quiet ?_ id (fun h _ => h) h.loop
      show s.own + 1 + (s.coros - 1) + (if s.stage = .scheduled then 1 else 0) =
        s.own + s.coros + (if s.stage = .scheduled then 1 else 0)
      omega
  | threadShutdown =>
    simp only [Svc.step] at hs
    split at hs
    · rename_i hst
      simp only [Option.some.injEq] at hs; subst hs
      have h1 : threadCalls [Label.threadShutdown] = 1 := rfl
      rw [h1]
      split
      · rename_i hlp
        cases hsh : s.shutting with
        | true =>
          simp only [if_true]
          exact up (m := n + 1) (⟨h.bound, fun _ hf => (by cases hf), h.loop⟩ : ShutInv n s.setFlags) (by omega)
        | false =>
          have hf := h.fresh (h.loop hlp) hsh
          simp only [Svc.announcements, hst] at hf
          refine ⟨?_, fun _ _ => ?_, h.loop⟩ <;>
            (simp only [Svc.announcements, Bool.false_eq_true, if_false, if_true] ; simp at hf ; omega)
      · exact up h (by omega)
    · cases hs
  | threadEmit =>
    refine up ?_ (by omega)
    simp only [Svc.step] at hs
    split at hs
    · rename_i hc
      simp only [Bool.and_eq_true, decide_eq_true_eq] at hc
      simp only [Option.some.injEq] at hs; subst hs
      refine h.quiet ?_ id (fun h _ => h) h.loop
      simp [Svc.announcements, Svc.emitShutdown, hc.1]
      omega
    · cases hs
  | threadFlags =>
    refine up ?_ (by omega)
    simp only [Svc.step] at hs
    split at hs
    · rename_i hst
      simp only [Option.some.injEq] at hs; subst hs
      refine h.quiet ?_ id (fun _ _ => rfl) h.loop
      simp [Svc.announcements, Svc.setFlags, hst]
    · cases hs
  | finish =>
    refine up ?_ (by omega)
    simp only [Svc.step] at hs
    split at hs
    · simp only [Option.some.injEq] at hs; subst hs
      exact h.quiet rfl (fun h => absurd rfl h) (fun _ h => absurd rfl h) (fun h => by cases h)
    · cases hs
  | emit e =>
    refine up ?_ (by omega)
    simp only [Svc.step] at hs
    split at hs
    · cases hs
    · simp only [Option.some.injEq] at hs; subst hs
      exact h.quiet rfl id (fun h _ => h) h.loop
  | futureDone f r =>
    refine up ?_ (by omega)
    simp only [Svc.step] at hs
    split at hs
    · cases hs
    · simp only [Option.some.injEq] at hs; subst hs
      exact h.quiet rfl id (fun h _ => h) h.loop
  | callback i =>
    refine up ?_ (by omega)
    simp only [Svc.step] at hs
    split at hs
    · cases hs
    · split at hs
      · simp only [Option.some.injEq] at hs; subst hs
        exact h.quiet rfl id (fun h _ => h) h.loop
      · cases hs
  | loopException =>
    refine up ?_ (by omega)
    simp only [Svc.step] at hs
    split at hs
    · simp only [Option.some.injEq] at hs; subst hs
      exact h.quiet rfl id (fun h _ => h) h.loop
    · cases hs

theorem ShutInv.steps {P : Prog} {O : Oracle} : ∀ (ls : List Label) (n : Nat) (s s' : Svc), ShutInv n s →
    (∀ w, .start w ∉ ls) → s.steps P O ls = some s' → ShutInv (n + threadCalls ls) s'
  | [], n, s, s', h, _, hs => by simp [Svc.steps] at hs; rw [← hs]; exact h
  | l :: ls, n, s, s', h, hl, hs => by
    simp only [Svc.steps] at hs
    cases h1 : s.step P O l with
    | none => rw [h1] at hs; cases hs
    | some s1 =>
      rw [h1] at hs
      have hi := ShutInv.step (l := l) h (fun w hw => hl w (by simp [hw])) h1
      have := ShutInv.steps ls _ s1 s' hi (fun w hw => hl w (by simp [hw])) hs
      have e : n + threadCalls [l] + threadCalls ls = n + threadCalls (l :: ls) := by
        simp only [threadCalls, List.count_cons, List.count_nil]; omega
      rw [← e]; exact this

/-- The loop is only set during a run. -/
theorem loop_running {P : Prog} {O : Oracle} {s s' : Svc} {l : Label} (h : s.loop = true → s.pc ≠ .off)
    (hs : s.step P O l = some s') : s'.loop = true → s'.pc ≠ .off := by
  cases l with
  | start w =>
    simp only [Svc.step] at hs
    split at hs
    · simp only [Option.some.injEq] at hs; subst hs
      unfold Svc.start
      split
      · intro h; cases h
      · intro _; simp
    · cases hs
  | _ =>
    have key : ∀ l, (∀ w, l ≠ .start w) → s.step P O l = some s' → s'.loop = true → s'.pc ≠ .off :=
      fun l hl hs => (ShutInv.step (n := s.announcements + 1) (l := l)
        ⟨by omega, fun _ _ => by omega, h⟩ hl hs).loop
    exact key _ (fun w hw => by cases hw) hs

theorem loop_running_reach {P : Prog} {O : Oracle} {env : Dict String} {ls : List Label} {s : Svc}
    (h : (Svc.init env).Reaches P O ls s) : s.loop = true → s.pc ≠ .off :=
  steps_induct (R := fun s => s.loop = true → s.pc ≠ .off) (fun _ _ _ h hs => loop_running h hs) ls _ _
    (fun h => by cases h) h

end Verif
