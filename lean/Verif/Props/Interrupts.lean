import Verif.Spec.Interrupts

/-! # C120: KeyboardInterrupt does not change the result of a run -/

namespace Verif

theorem propagate_log (ts : List TaskEnd) : ∀ (e : Option LoopExc) (log : List TaskEnd),
    propagate ts e log = ((propagate ts e []).1, log ++ (propagate ts e []).2) := by
  induction ts with
  | nil => intro e log; simp [propagate]
  | cons t ts ih =>
    intro e log
    cases t <;> cases e <;> simp only [propagate, List.append_nil, List.nil_append]
    all_goals first
      | exact ih _ _
      | (rw [ih _ (log ++ [_]), ih _ [_]]; simp)

theorem propagate_subset (ts : List TaskEnd) : ∀ (e : Option LoopExc), ∀ t ∈ (propagate ts e []).2, t ∈ ts := by
  induction ts with
  | nil => intro e t h; simp [propagate] at h
  | cons s ts ih =>
    intro e t h
    cases s <;> cases e <;> simp only [propagate, List.nil_append] at h
    all_goals first
      | exact List.mem_cons_of_mem _ (ih _ _ h)
      | (rw [propagate_log] at h
         simp only [List.cons_append, List.nil_append, List.mem_cons] at h
         rcases h with h | h
         · exact h ▸ List.mem_cons_self
         · exact List.mem_cons_of_mem _ (ih _ _ h))
      | cases h

/-- What the loop over the completed tasks raises: CancelledError if some task was cancelled, otherwise the first exception. -/
theorem propagate_some (ts : List TaskEnd) : ∀ (e : LoopExc) (log : List TaskEnd),
    (propagate ts (some e) log).1 = if .cancelled ∈ ts then some .cancelled else some e := by
  induction ts with
  | nil => intro e log; simp [propagate]
  | cons t ts ih => intro e log; cases t <;> simp [propagate, ih]

theorem propagate_quiet (ts : List TaskEnd) (hf : ∀ m, TaskEnd.failed m ∉ ts) (log : List TaskEnd) :
    (propagate ts none log).1 = if .cancelled ∈ ts then some .cancelled else if .interrupt ∈ ts then some .interrupt else none := by
  induction ts with
  | nil => simp [propagate]
  | cons t ts ih =>
    have ih := ih (fun m h => hf m (List.mem_cons_of_mem _ h))
    cases t with
    | ok => simp [propagate, ih]
    | cancelled => simp [propagate]
    | interrupt => simp [propagate, propagate_some]
    | failed m => exact absurd List.mem_cons_self (hf m)

theorem propagate_bad (ts : List TaskEnd) (hi : .interrupt ∉ ts) (hb : .cancelled ∈ ts ∨ ∃ m, .failed m ∈ ts) (log : List TaskEnd) :
    (propagate ts none log).1 = some .cancelled ∨ ∃ m, .failed m ∈ ts ∧ (propagate ts none log).1 = some (.failed m) := by
  induction ts with
  | nil => simp at hb
  | cons t ts ih =>
    cases t with
    | ok =>
      simp only [propagate]
      rcases ih (fun h => hi (List.mem_cons_of_mem _ h)) (by simpa using hb) with h | ⟨m, h, h'⟩
      · exact .inl h
      · exact .inr ⟨m, List.mem_cons_of_mem _ h, h'⟩
    | cancelled => exact .inl (by simp [propagate])
    | interrupt => exact absurd List.mem_cons_self hi
    | failed m =>
      simp only [propagate, propagate_some]
      by_cases h : TaskEnd.cancelled ∈ ts
      · exact .inl (by simp [h])
      · exact .inr ⟨m, List.mem_cons_self, by simp [h]⟩

theorem propagate_mem (ts : List TaskEnd) : ∀ (e : Option LoopExc) (log : List TaskEnd) (x : LoopExc), (propagate ts e log).1 = some x →
    e = some x ∨ match x with | .cancelled => .cancelled ∈ ts | .interrupt => .interrupt ∈ ts | .failed m => .failed m ∈ ts := by
  induction ts with
  | nil => intro e log x h; exact .inl h
  | cons t ts ih =>
    intro e log x h
    cases t <;> cases e <;> simp only [propagate] at h
    all_goals first
      | (cases h; exact .inr List.mem_cons_self)
      | (rcases ih _ _ _ h with h | h
         · first
             | exact .inl h
             | (cases h; exact .inr List.mem_cons_self)
             | cases h
         · refine .inr ?_
           cases x <;> exact List.mem_cons_of_mem _ h)

/-- The two runs agree, up to logged KeyboardInterrupts. -/
structure SameRun (a b : AsyncRun) : Prop where
  shutting : a.shutting = b.shutting
  reasons : a.reasons = b.reasons
  code : a.code = b.code
  pc : a.pc = b.pc
  logged : a.logged.filter (· ≠ .interrupt) = b.logged.filter (· ≠ .interrupt)

theorem SameRun.request {a b : AsyncRun} (h : SameRun a b) (r : String) : SameRun (a.request r) (b.request r) := by
  obtain ⟨h1, h2, h3, h4, h5⟩ := h
  constructor <;> simp_all [AsyncRun.request]

theorem SameRun.caught {a b : AsyncRun} (h : SameRun a b) (e : LoopExc) : SameRun (a.caught e) (b.caught e) := by
  cases e with
  | interrupt => exact h
  | cancelled => obtain ⟨h1, h2, h3, h4, h5⟩ := h; constructor <;> simp_all [AsyncRun.caught]
  | failed m =>
    obtain ⟨h1, h2, h3, h4, h5⟩ := h.request (AsyncRun.failureReason m)
    constructor <;> simp_all [AsyncRun.caught]

theorem AsyncRun.completed_eq (a : AsyncRun) (ts : List TaskEnd) :
    a.completed ts =
      match (propagate ts none []).1 with
      | none => { a with logged := a.logged ++ (propagate ts none []).2 }
      | some e => ({ a with logged := a.logged ++ (propagate ts none []).2 } : AsyncRun).caught e := by
  unfold AsyncRun.completed
  rw [propagate_log]
  cases (propagate ts none []).1 <;> rfl

theorem SameRun.log {a b : AsyncRun} (h : SameRun a b) {l l' : List TaskEnd}
    (hl : l.filter (· ≠ .interrupt) = l'.filter (· ≠ .interrupt)) :
    SameRun { a with logged := a.logged ++ l } { b with logged := b.logged ++ l' } := by
  obtain ⟨h1, h2, h3, h4, h5⟩ := h
  constructor <;> simp_all [List.filter_append]

theorem quiet_log (ts : List TaskEnd) (e : Option LoopExc) (hf : ∀ m, TaskEnd.failed m ∉ ts) :
    (propagate ts e []).2.filter (· ≠ .interrupt) = [] := by
  induction ts generalizing e with
  | nil => simp [propagate]
  | cons t ts ih =>
    have ih := fun e => ih e (fun m h => hf m (List.mem_cons_of_mem _ h))
    cases t with
    | failed m => exact absurd List.mem_cons_self (hf m)
    | ok => simpa [propagate] using ih e
    | cancelled => simp [propagate]
    | interrupt =>
      cases e with
      | none => simpa [propagate] using ih _
      | some e =>
        simp only [propagate, List.nil_append]
        rw [propagate_log]
        simpa using ih (some e)

theorem filter_absent {ts : List TaskEnd} (h : .interrupt ∉ ts) : ts.filter (· ≠ .interrupt) = ts := by
  rw [List.filter_eq_self]
  intro t ht
  simp only [decide_eq_true_eq]
  intro e
  exact h (e ▸ ht)

theorem SameRun.completed {a b : AsyncRun} (h : SameRun a b) (ts : List TaskEnd) (hq : .interrupt ∈ ts → ∀ m, .failed m ∉ ts) :
    SameRun (a.completed ts) (b.completed (ts.filter (· ≠ .interrupt))) := by
  by_cases hi : TaskEnd.interrupt ∈ ts
  · have hf := hq hi
    have hf' : ∀ m, TaskEnd.failed m ∉ ts.filter (· ≠ .interrupt) := fun m hm => hf m (List.mem_filter.1 hm).1
    have hl := h.log ((quiet_log ts none hf).trans (quiet_log _ none hf').symm)
    rw [AsyncRun.completed_eq, AsyncRun.completed_eq, propagate_quiet ts hf, propagate_quiet _ hf']
    by_cases hc : TaskEnd.cancelled ∈ ts
    · have hc' : TaskEnd.cancelled ∈ ts.filter (· ≠ .interrupt) := List.mem_filter.2 ⟨hc, by simp⟩
      simp only [hc, hc', if_true]
      exact hl.caught .cancelled
    · have hc' : TaskEnd.cancelled ∉ ts.filter (· ≠ .interrupt) := fun hm => hc (List.mem_filter.1 hm).1
      have hi' : TaskEnd.interrupt ∉ ts.filter (· ≠ .interrupt) := fun hm => by simpa using (List.mem_filter.1 hm).2
      simp only [hc, hc', hi, hi', if_true, if_false]
      exact hl
  · rw [filter_absent hi, AsyncRun.completed_eq, AsyncRun.completed_eq]
    have hl := h.log (l := (propagate ts none []).2) rfl
    cases (propagate ts none []).1 with
    | none => exact hl
    | some e => exact hl.caught e

/-- The two calls of `run` agree. -/
structure SameMain (a b : MainRun) : Prop where
  task : SameRun a.task b.task
  result : a.result = b.result

theorem SameRun.step {a b : AsyncRun} (w : Bool) (h : SameRun a b) (l : AsyncLabel) (h1 : ∀ ts, l ≠ .completed ts)
    (h2 : ∀ ts, l ≠ .completedThenInterrupt ts) : SameRun (a.step w l) (b.step w l) := by
  unfold AsyncRun.step
  rw [h.pc]
  split
  · exact h
  · cases l with
    | idle =>
      simp only [h.shutting]
      split
      · exact h.request _
      · split
        · obtain ⟨h1, h2, h3, h4, h5⟩ := h; constructor <;> simp_all
        · exact h
    | completed ts => exact absurd rfl (h1 ts)
    | completedThenInterrupt ts => exact absurd rfl (h2 ts)
    | raise e => exact h.caught e
    | loopError => obtain ⟨h1, h2, h3, h4, h5⟩ := h; constructor <;> simp_all
    | shutdownCall => exact h.request _
    | shutdownEvent => obtain ⟨h1, h2, h3, h4, h5⟩ := h; constructor <;> simp_all

theorem SameMain.step {a b : MainRun} (w : Bool) (h : SameMain a b) (l : MainLabel) (h1 : ∀ ts, l ≠ .inner (.completed ts))
    (h2 : ∀ ts, l ≠ .inner (.completedThenInterrupt ts)) : SameMain (a.step w l) (b.step w l) := by
  unfold MainRun.step
  rw [h.result]
  split
  · exact h
  · cases l with
    | inner l => exact ⟨h.task.step w l (fun ts e => h1 ts (by rw [e])) (fun ts e => h2 ts (by rw [e])), rfl⟩
    | interrupted => exact h
    | finish =>
      dsimp only
      rw [h.task.pc]
      split
      · exact ⟨h.task, by rw [h.task.code]⟩
      · exact h

theorem SameMain.completed {a b : MainRun} (w : Bool) (h : SameMain a b) (ts : List TaskEnd) (hq : .interrupt ∈ ts → ∀ m, .failed m ∉ ts) :
    SameMain (a.step w (.inner (.completed ts))) (b.step w (.inner (.completed (ts.filter (· ≠ .interrupt))))) := by
  unfold MainRun.step
  rw [h.result]
  split
  · exact h
  · refine ⟨?_, rfl⟩
    unfold AsyncRun.step
    simp only [h.task.pc]
    split
    · exact h.task
    · exact h.task.completed ts hq

theorem SameMain.interrupt {a b : MainRun} (w : Bool) (h : SameMain a b) : SameMain (a.step w (.inner (.raise .interrupt))) b := by
  unfold MainRun.step AsyncRun.step
  split
  · exact h
  · dsimp only
    split
    · exact ⟨h.task, h.result⟩
    · exact ⟨h.task, h.result⟩

theorem sameMain_foldl (w : Bool) (h : List MainLabel) (hu : Undisturbed h) : ∀ {a b : MainRun}, SameMain a b →
    SameMain (h.foldl (MainRun.step w) a) ((withoutInterrupts h).foldl (MainRun.step w) b) := by
  induction h with
  | nil => intro a b hs; exact hs
  | cons l h ih =>
    intro a b hs
    have hl := hu l List.mem_cons_self
    have ih := fun {a b} => @ih (fun x hx => hu x (List.mem_cons_of_mem _ hx)) a b
    unfold withoutInterrupts at *
    rw [List.foldl_cons, List.filterMap_cons]
    cases l with
    | interrupted =>
      refine ih ?_
      unfold MainRun.step
      split
      · exact hs
      · exact hs
    | finish => exact ih (hs.step w _ (by intro; simp) (by intro; simp))
    | inner l =>
      cases l with
      | completed ts => exact ih (hs.completed w ts hl)
      | completedThenInterrupt ts => exact hl.elim
      | raise e =>
        cases e with
        | interrupt => exact ih (hs.interrupt w)
        | cancelled => exact ih (hs.step w _ (by intro; simp) (by intro; simp))
        | failed m => exact ih (hs.step w _ (by intro; simp) (by intro; simp))
      | idle => exact ih (hs.step w _ (by intro; simp) (by intro; simp))
      | loopError => exact ih (hs.step w _ (by intro; simp) (by intro; simp))
      | shutdownCall => exact ih (hs.step w _ (by intro; simp) (by intro; simp))
      | shutdownEvent => exact ih (hs.step w _ (by intro; simp) (by intro; simp))

/-- However often and whenever Ctrl-C raises KeyboardInterrupt in the event loop, in `run_async` or in tasks, `run` does what it would do without: it returns at the same
place with the same return code, and has requested the same shutdowns, for the same reasons, and logged the same failures.  Partial: except when another
task fails in the same round, or while a failure is dealt with; see `C120_masked_violated` and `C120_hang_violated`. -/
theorem C120_interrupts_ignored_partial (whenIdle : Bool) (h : List MainLabel) (hu : Undisturbed h) :
    (MainRun.run whenIdle h).result = (MainRun.run whenIdle (withoutInterrupts h)).result ∧
    (MainRun.run whenIdle h).task.reasons = (MainRun.run whenIdle (withoutInterrupts h)).task.reasons ∧
    (MainRun.run whenIdle h).task.shutting = (MainRun.run whenIdle (withoutInterrupts h)).task.shutting ∧
    (∀ m, .failed m ∈ (MainRun.run whenIdle h).task.logged ↔ .failed m ∈ (MainRun.run whenIdle (withoutInterrupts h)).task.logged) := by
  have hs := sameMain_foldl whenIdle h hu (a := {}) (b := {}) ⟨⟨rfl, rfl, rfl, rfl, rfl⟩, rfl⟩
  refine ⟨hs.result, hs.task.reasons, hs.task.shutting, fun m => ?_⟩
  have hm : ∀ l : List TaskEnd, .failed m ∈ l ↔ .failed m ∈ l.filter (· ≠ .interrupt) := fun l => by simp [List.mem_filter]
  rw [hm, hm (MainRun.run whenIdle (withoutInterrupts h)).task.logged]
  unfold MainRun.run
  rw [hs.task.logged]

example : Undisturbed [.interrupted, .inner (.completed [.interrupt, .ok]), .inner (.completed [.failed "x"]), .inner (.raise .interrupt), .inner .idle, .interrupted,
    .finish] ∧
    (MainRun.run true [.interrupted, .inner (.completed [.interrupt, .ok]), .inner (.completed [.failed "x"]), .inner (.raise .interrupt), .inner .idle, .interrupted,
      .finish]).result = some 1 := by
  refine ⟨?_, by decide +kernel⟩
  intro l hl
  simp only [List.mem_cons, List.not_mem_nil, or_false] at hl
  rcases hl with rfl | rfl | rfl | rfl | rfl | rfl | rfl <;> simp

/-- Nothing happens once the coroutine has ended. -/
theorem main_step_ended (w : Bool) (r : MainRun) (l : MainLabel) (h : r.task.pc ≠ .looping) : (r.step w l).task = r.task := by
  unfold MainRun.step
  split
  · rfl
  · cases l with
    | inner l => simp [AsyncRun.step, h]
    | interrupted => rfl
    | finish => dsimp only; split <;> rfl

theorem caught_code (a : AsyncRun) (e : LoopExc) : (a.caught e).code = a.code ∨ (a.caught e).code = 1 := by
  cases e <;> simp [AsyncRun.caught]

theorem caught_pc (a : AsyncRun) (e : LoopExc) : (a.caught e).pc = a.pc ∨ (a.caught e).pc = .returned := by
  cases e <;> simp [AsyncRun.caught, AsyncRun.request]

theorem completed_code (a : AsyncRun) (ts : List TaskEnd) :
    (a.completed ts).code = a.code ∨ ((a.completed ts).code = 1 ∧ (.cancelled ∈ ts ∨ ∃ m, .failed m ∈ ts)) := by
  rw [AsyncRun.completed_eq]
  cases h : (propagate ts none []).1 with
  | none => exact .inl rfl
  | some e =>
    rcases propagate_mem ts none [] e h with h | h
    · cases h
    · cases e with
      | interrupt => exact .inl rfl
      | cancelled => exact .inr ⟨rfl, .inl h⟩
      | failed m => exact .inr ⟨rfl, .inr ⟨m, h⟩⟩

theorem step_code (w : Bool) (a : AsyncRun) (l : AsyncLabel) :
    (a.step w l).code = a.code ∨ ((a.step w l).code = 1 ∧ l.IsFailure) := by
  unfold AsyncRun.step
  split
  · exact .inl rfl
  · cases l with
    | idle => dsimp only; split; · exact .inl rfl
              · split <;> exact .inl rfl
    | completed ts => exact completed_code a ts
    | raise e => cases e <;> simp [AsyncRun.caught, AsyncLabel.IsFailure]
    | completedThenInterrupt ts =>
      dsimp only
      split
      · exact .inl rfl
      · exact completed_code a ts
    | loopError => exact .inr ⟨rfl, trivial⟩
    | shutdownCall => exact .inl rfl
    | shutdownEvent => exact .inl rfl

theorem main_code (w : Bool) (h : List MainLabel) : ∀ r : MainRun, (∀ c, r.result = some c → c = r.task.code) → r.task.code = 0 ∨ r.task.code = 1 →
    let r' := h.foldl (MainRun.step w) r
    (∀ c, r'.result = some c → c = r'.task.code) ∧ (r'.task.code = 0 ∨ r'.task.code = 1) ∧
    (r.task.code = 1 → r'.task.code = 1) ∧ (r'.task.code = r.task.code ∨ ∃ l, .inner l ∈ h ∧ l.IsFailure) := by
  induction h with
  | nil => intro r hr hc; exact ⟨hr, hc, id, .inl rfl⟩
  | cons l h ih =>
    intro r hr hc
    have key : (∀ c, (r.step w l).result = some c → c = (r.step w l).task.code) ∧
        ((r.step w l).task.code = r.task.code ∨ ((r.step w l).task.code = 1 ∧ ∃ x, l = .inner x ∧ x.IsFailure)) := by
      unfold MainRun.step
      split
      · exact ⟨hr, .inl rfl⟩
      next hn =>
      · have hn : r.result = none := by simpa using hn
        cases l with
        | inner x =>
          refine ⟨fun c hc => by simp [hn] at hc, ?_⟩
          rcases step_code w r.task x with h | h
          · exact .inl h
          · exact .inr ⟨h.1, x, rfl, h.2⟩
        | interrupted => exact ⟨hr, .inl rfl⟩
        | finish =>
          dsimp only
          split
          · exact ⟨fun c hc => by cases hc; rfl, .inl rfl⟩
          · exact ⟨hr, .inl rfl⟩
    have hc' : (r.step w l).task.code = 0 ∨ (r.step w l).task.code = 1 := by
      rcases key.2 with h | h
      · rw [h]; exact hc
      · exact .inr h.1
    obtain ⟨i1, i2, i3, i4⟩ := ih (r.step w l) key.1 hc'
    refine ⟨i1, i2, fun h1 => i3 ?_, ?_⟩
    · rcases key.2 with h | h
      · rw [h]; exact h1
      · exact h.1
    · rcases i4 with i4 | ⟨x, hx, hf⟩
      · rcases key.2 with h | ⟨_, x, hx, hf⟩
        · exact .inl (i4.trans h)
        · exact .inr ⟨x, hx ▸ List.mem_cons_self, hf⟩
      · exact .inr ⟨x, List.mem_cons_of_mem _ hx, hf⟩

/-- `run` returns 0 or 1; if it returns 1, something has failed or was cancelled: KeyboardInterrupt alone never makes it 1. -/
theorem C120_one_only_after_failure (whenIdle : Bool) (h : List MainLabel) (c : Nat) (hr : (MainRun.run whenIdle h).result = some c) :
    c = 0 ∨ (c = 1 ∧ ∃ l, .inner l ∈ h ∧ l.IsFailure) := by
  obtain ⟨h1, h2, _, h4⟩ := main_code whenIdle h {} (by simp) (.inl rfl)
  have hc := h1 c hr
  rcases h4 with h4 | h4
  · exact .inl (hc.trans h4)
  · rcases h2 with h2 | h2
    · exact .inl (hc.trans h2)
    · exact .inr ⟨hc.trans h2, h4⟩

example : (MainRun.run true [.inner (.completed [.interrupt]), .inner .idle, .inner .idle, .finish]).result = some 0 := by decide +kernel

theorem failure_code (w : Bool) (a : AsyncRun) (l : AsyncLabel) (hp : a.pc = .looping) (hf : l.IsFailure) (hu : Undisturbed [.inner l]) :
    (a.step w l).code = 1 ∧ ((a.step w l).shutting = true ∨ (a.step w l).pc = .returned ∨ l = .loopError) := by
  have hu := hu _ List.mem_cons_self
  simp only [AsyncRun.step, hp, ne_eq, not_true_eq_false, if_false]
  cases l with
  | idle => exact hf.elim
  | completed ts =>
    simp only at hu
    dsimp only
    rw [AsyncRun.completed_eq]
    by_cases hi : TaskEnd.interrupt ∈ ts
    · have hq := hu hi
      have hc : TaskEnd.cancelled ∈ ts := by
        rcases hf with h | ⟨m, h⟩
        · exact h
        · exact absurd h (hq m)
      rw [propagate_quiet ts hq]
      simp [hc, AsyncRun.caught]
    · rcases propagate_bad ts hi hf [] with h | ⟨m, _, h⟩ <;> rw [h] <;> simp [AsyncRun.caught, AsyncRun.request]
  | raise e => cases e <;> simp_all [AsyncRun.caught, AsyncLabel.IsFailure, AsyncRun.request]
  | completedThenInterrupt ts => exact hu.elim
  | loopError => simp
  | shutdownCall => exact hf.elim
  | shutdownEvent => exact hf.elim

theorem main_step_inner (w : Bool) (r : MainRun) (l : AsyncLabel) (hn : r.result = none) :
    r.step w (.inner l) = { r with task := r.task.step w l } := by
  simp [MainRun.step, hn]

/-- As long as the coroutine goes on, `run` has not returned. -/
theorem looping_none (w : Bool) (h : List MainLabel) (hl : (MainRun.run w h).task.pc = .looping) : (MainRun.run w h).result = none := by
  have key : ∀ (h : List MainLabel) (r : MainRun), (r.result.isSome → r.task.pc = .returned) →
      ((h.foldl (MainRun.step w) r).result.isSome → (h.foldl (MainRun.step w) r).task.pc = .returned) := by
    intro h
    induction h with
    | nil => intro r hr; exact hr
    | cons x h ih =>
      intro r hr
      refine ih _ ?_
      unfold MainRun.step
      split
      · exact hr
      next hx =>
      · cases x with
        | inner x => exact fun h => absurd h hx
        | interrupted => exact hr
        | finish =>
          dsimp only
          split
          · next hp => exact fun _ => hp
          · exact hr
  cases hres : (MainRun.run w h).result with
  | none => rfl
  | some v =>
    have := key h {} (by simp) (by unfold MainRun.run at hres; simp [hres])
    unfold MainRun.run at hl
    rw [hl] at this
    cases this

/-- If something fails or is cancelled while the run goes on, and no KeyboardInterrupt is raised in the same round, then a call of `run` that returns returns 1. -/
theorem C120_failure_counts_partial (whenIdle : Bool) (pre post : List MainLabel) (l : AsyncLabel)
    (hl : (MainRun.run whenIdle pre).task.pc = .looping) (hf : l.IsFailure) (hu : Undisturbed [.inner l]) (c : Nat)
    (hr : (MainRun.run whenIdle (pre ++ .inner l :: post)).result = some c) : c = 1 := by
  have hn := looping_none whenIdle pre hl
  obtain ⟨f1, _⟩ := failure_code whenIdle _ l hl hf hu
  unfold MainRun.run at *
  rw [List.foldl_append, List.foldl_cons, main_step_inner _ _ _ hn] at hr
  obtain ⟨j1, _, j3, _⟩ := main_code whenIdle post
    { (List.foldl (MainRun.step whenIdle) {} pre) with task := (List.foldl (MainRun.step whenIdle) {} pre).task.step whenIdle l }
    (by simp [hn]) (.inr f1)
  exact (j1 c hr).trans (j3 f1)

example : (MainRun.run true [.interrupted]).task.pc = .looping ∧ (AsyncLabel.completed [.ok, .failed "x"]).IsFailure ∧
    (MainRun.run true ([.interrupted] ++ .inner (.completed [.ok, .failed "x"]) :: [.inner .idle, .finish])).result = some 1 :=
  ⟨by decide +kernel, .inr ⟨"x", by decide +kernel⟩, by decide +kernel⟩

/-- If something fails while the run goes on, and no KeyboardInterrupt is raised in the same round, the launch is being shut down or the run ends, at once.  (What
comes to the exception handler of the event loop only changes the return code.) -/
theorem C120_failure_shuts_down_partial (whenIdle : Bool) (pre : List MainLabel) (l : AsyncLabel)
    (hl : (MainRun.run whenIdle pre).task.pc = .looping) (hf : l.IsFailure) (hu : Undisturbed [.inner l]) (hn : l ≠ .loopError) :
    (MainRun.run whenIdle (pre ++ [.inner l])).task.shutting = true ∨ (MainRun.run whenIdle (pre ++ [.inner l])).task.pc = .returned := by
  have hres := looping_none whenIdle pre hl
  obtain ⟨_, h⟩ := failure_code whenIdle _ l hl hf hu
  unfold MainRun.run at *
  rw [List.foldl_append, List.foldl_cons, List.foldl_nil, main_step_inner _ _ _ hres]
  rcases h with h | h | h
  · exact .inl h
  · exact .inr h
  · exact absurd h hn

example : (MainRun.run true ([.interrupted] ++ [.inner (.completed [.ok, .failed "x"])])).task.reasons =
    ["Caught exception in launch (see debug for traceback): x"] := by decide +kernel

/-- A failure is overlooked if KeyboardInterrupt was raised in a task that completed in the same round and comes first: `run` returns 0, and the launch is not shut down
because of the failure. -/
theorem C120_masked_violated (m : String) :
    (MainRun.run true [.inner (.completed [.interrupt, .failed m]), .inner .idle, .inner .idle, .finish]).result = some 0 ∧
    (MainRun.run true [.inner (.completed [.interrupt, .failed m]), .inner .idle, .inner .idle, .finish]).task.reasons = ["idle"] ∧
    (MainRun.run true [.inner (.completed [.failed m, .interrupt]), .inner .idle, .finish]).result = some 1 := by
  refine ⟨rfl, rfl, rfl⟩

/-- If KeyboardInterrupt is raised while `run_async` awaits the emission of the Shutdown event for a failure, `run` never returns, whatever happens afterwards. -/
theorem C120_hang_violated (whenIdle : Bool) (m : String) (h : List MainLabel) :
    (MainRun.run whenIdle (.inner (.completedThenInterrupt [.failed m]) :: h)).result = none := by
  have key : ∀ (h : List MainLabel) (r : MainRun), r.task.pc = .raised → r.result = none → (h.foldl (MainRun.step whenIdle) r).result = none := by
    intro h
    induction h with
    | nil => intro r _ hr; exact hr
    | cons l h ih =>
      intro r hp hr
      refine ih _ ?_ ?_
      · rw [main_step_ended whenIdle r l (by rw [hp]; decide)]; exact hp
      · unfold MainRun.step
        rw [hr]
        simp only [Option.isSome_none, Bool.false_eq_true, if_false]
        cases l with
        | inner l => rfl
        | interrupted => exact hr
        | finish => simp [hp, hr]
  exact key h _ rfl rfl

theorem request_reasons (a : AsyncRun) (r : String) (h : a.reasons = [] ∨ (a.shutting = true ∧ a.reasons.length = 1)) :
    (a.request r).shutting = true ∧ ((a.request r).reasons = a.reasons ∨ (a.reasons = [] ∧ (a.request r).reasons = [r])) := by
  refine ⟨rfl, ?_⟩
  unfold AsyncRun.request
  by_cases hs : a.shutting = true
  · simp [hs]
  · rcases h with h | h
    · simp [hs, h]
    · exact absurd h.1 hs

/-- Every reason for a shutdown this run gives is one of these. -/
def GivenReason (whenIdle : Bool) (h : List MainLabel) (r : String) : Prop :=
  (r = "idle" ∧ whenIdle = true ∧ .inner .idle ∈ h) ∨ (r = "LaunchService.shutdown() called" ∧ .inner .shutdownCall ∈ h) ∨
  ∃ l m, .inner l ∈ h ∧ l.Shows m ∧ r = "Caught exception in launch (see debug for traceback): " ++ m

theorem caught_reasons (a : AsyncRun) (e : LoopExc) (h : a.reasons = [] ∨ (a.shutting = true ∧ a.reasons.length = 1)) :
    (a.shutting = true → (a.caught e).shutting = true) ∧
    ((a.caught e).reasons = a.reasons ∨
      ((a.caught e).shutting = true ∧ ∃ m, e = .failed m ∧ (a.caught e).reasons = [AsyncRun.failureReason m])) := by
  cases e with
  | interrupt => exact ⟨id, .inl rfl⟩
  | cancelled => exact ⟨id, .inl rfl⟩
  | failed m =>
    obtain ⟨h1, h2⟩ := request_reasons a (AsyncRun.failureReason m) h
    refine ⟨fun _ => h1, ?_⟩
    rcases h2 with h2 | h2
    · exact .inl h2
    · exact .inr ⟨h1, m, rfl, h2.2⟩

theorem completed_reasons (a : AsyncRun) (ts : List TaskEnd) (h : a.reasons = [] ∨ (a.shutting = true ∧ a.reasons.length = 1)) :
    (a.shutting = true → (a.completed ts).shutting = true) ∧
    ((a.completed ts).reasons = a.reasons ∨
      ((a.completed ts).shutting = true ∧ ∃ m, .failed m ∈ ts ∧ (a.completed ts).reasons = [AsyncRun.failureReason m])) := by
  rw [AsyncRun.completed_eq]
  cases hp : (propagate ts none []).1 with
  | none => exact ⟨id, .inl rfl⟩
  | some e =>
    obtain ⟨h1, h2⟩ := caught_reasons { a with logged := a.logged ++ (propagate ts none []).2 } e h
    refine ⟨h1, ?_⟩
    rcases h2 with h2 | ⟨hs, m, he, hr⟩
    · exact .inl h2
    · subst he
      rcases propagate_mem ts none [] _ hp with h | h
      · cases h
      · exact .inr ⟨hs, m, h, hr⟩

theorem step_reasons (w : Bool) (a : AsyncRun) (l : AsyncLabel) (h : a.reasons = [] ∨ (a.shutting = true ∧ a.reasons.length = 1)) :
    (a.shutting = true → (a.step w l).shutting = true) ∧
    ((a.step w l).reasons = a.reasons ∨ ((a.step w l).shutting = true ∧ ∃ r, (a.step w l).reasons = [r] ∧ GivenReason w [.inner l] r)) := by
  unfold AsyncRun.step
  split
  · exact ⟨id, .inl rfl⟩
  · cases l with
    | idle =>
      dsimp only
      split
      next hc =>
        obtain ⟨h1, h2⟩ := request_reasons a "idle" h
        refine ⟨fun _ => h1, ?_⟩
        rcases h2 with h2 | h2
        · exact .inl h2
        · exact .inr ⟨h1, _, h2.2, .inl ⟨rfl, by simp at hc; exact hc.2, List.mem_cons_self⟩⟩
      next =>
        split
        · exact ⟨id, .inl rfl⟩
        · exact ⟨id, .inl rfl⟩
    | completed ts =>
      obtain ⟨h1, h2⟩ := completed_reasons a ts h
      refine ⟨h1, ?_⟩
      rcases h2 with h2 | ⟨hs, m, hm, hr⟩
      · exact .inl h2
      · exact .inr ⟨hs, _, hr, .inr (.inr ⟨_, m, List.mem_cons_self, hm, rfl⟩)⟩
    | raise e =>
      obtain ⟨h1, h2⟩ := caught_reasons a e h
      refine ⟨h1, ?_⟩
      rcases h2 with h2 | ⟨hs, m, hm, hr⟩
      · exact .inl h2
      · exact .inr ⟨hs, _, hr, .inr (.inr ⟨_, m, List.mem_cons_self, hm, rfl⟩)⟩
    | completedThenInterrupt ts =>
      dsimp only
      split
      next m log hp =>
        obtain ⟨h1, h2⟩ := request_reasons { a with logged := log } (AsyncRun.failureReason m) h
        refine ⟨fun _ => h1, ?_⟩
        rcases h2 with h2 | h2
        · exact .inl h2
        · refine .inr ⟨h1, _, h2.2, .inr (.inr ⟨_, m, List.mem_cons_self, ?_, rfl⟩)⟩
          rcases propagate_mem ts none a.logged (.failed m) (by rw [hp]) with h | h
          · cases h
          · exact h
      next =>
        obtain ⟨h1, h2⟩ := completed_reasons a ts h
        refine ⟨h1, ?_⟩
        rcases h2 with h2 | ⟨hs, m, hm, hr⟩
        · exact .inl h2
        · exact .inr ⟨hs, _, hr, .inr (.inr ⟨_, m, List.mem_cons_self, hm, rfl⟩)⟩
    | loopError => exact ⟨id, .inl rfl⟩
    | shutdownCall =>
      obtain ⟨h1, h2⟩ := request_reasons a "LaunchService.shutdown() called" h
      refine ⟨fun _ => h1, ?_⟩
      rcases h2 with h2 | h2
      · exact .inl h2
      · exact .inr ⟨h1, _, h2.2, .inr (.inl ⟨rfl, List.mem_cons_self⟩)⟩
    | shutdownEvent => exact ⟨fun _ => rfl, .inl rfl⟩

theorem GivenReason.mono {w : Bool} {h h' : List MainLabel} {r : String} (hs : ∀ l ∈ h, l ∈ h') (hg : GivenReason w h r) : GivenReason w h' r := by
  rcases hg with ⟨h1, h2, h3⟩ | ⟨h1, h2⟩ | ⟨l, m, h1, h2, h3⟩
  · exact .inl ⟨h1, h2, hs _ h3⟩
  · exact .inr (.inl ⟨h1, hs _ h2⟩)
  · exact .inr (.inr ⟨l, m, hs _ h1, h2, h3⟩)

theorem main_reasons (w : Bool) (h : List MainLabel) : ∀ r : MainRun, (r.task.reasons = [] ∨ (r.task.shutting = true ∧ r.task.reasons.length = 1)) →
    (h.foldl (MainRun.step w) r).task.reasons = r.task.reasons ∨ ∃ x, (h.foldl (MainRun.step w) r).task.reasons = [x] ∧ GivenReason w h x := by
  induction h with
  | nil => intro r _; exact .inl rfl
  | cons l h ih =>
    intro r hr
    have key : (r.task.shutting = true → (r.step w l).task.shutting = true) ∧
        ((r.step w l).task.reasons = r.task.reasons ∨
          ((r.step w l).task.shutting = true ∧ ∃ x, (r.step w l).task.reasons = [x] ∧ GivenReason w [l] x)) := by
      unfold MainRun.step
      split
      · exact ⟨id, .inl rfl⟩
      · cases l with
        | inner l => exact step_reasons w r.task l hr
        | interrupted => exact ⟨id, .inl rfl⟩
        | finish => dsimp only; split <;> exact ⟨id, .inl rfl⟩
    have hr' : (r.step w l).task.reasons = [] ∨ ((r.step w l).task.shutting = true ∧ (r.step w l).task.reasons.length = 1) := by
      rcases key.2 with h | ⟨hs, x, hx, _⟩
      · rw [h]
        rcases hr with hr | hr
        · exact .inl hr
        · exact .inr ⟨key.1 hr.1, hr.2⟩
      · exact .inr ⟨hs, by rw [hx]; rfl⟩
    rw [List.foldl_cons]
    rcases ih _ hr' with h1 | ⟨x, hx, hg⟩
    · rw [h1]
      rcases key.2 with h | ⟨_, x, hx, hg⟩
      · exact .inl h
      · exact .inr ⟨x, hx, hg.mono (by simp)⟩
    · exact .inr ⟨x, hx, hg.mono (fun l hl => List.mem_cons_of_mem _ hl)⟩

/-- The loop of `run` itself requests at most one shutdown, and gives as its reason that it is idle, that `shutdown` was called, or the message of something that has failed. -/
theorem C120_one_reason (whenIdle : Bool) (h : List MainLabel) :
    (MainRun.run whenIdle h).task.reasons = [] ∨ ∃ r, (MainRun.run whenIdle h).task.reasons = [r] ∧ GivenReason whenIdle h r :=
  main_reasons whenIdle h {} (.inl rfl)

example : (MainRun.run true [.inner (.completed [.failed "a"]), .inner (.completed [.failed "b"]), .inner .shutdownCall, .inner .idle]).task.reasons =
    ["Caught exception in launch (see debug for traceback): a"] := by decide +kernel

/-- `run` returns as soon as the service is idle after a shutdown was requested, however often it was interrupted. -/
theorem C120_returns (whenIdle : Bool) (pre : List MainLabel) (hl : (MainRun.run whenIdle pre).task.pc = .looping)
    (hs : (MainRun.run whenIdle pre).task.shutting = true) (i j : Nat) :
    (MainRun.run whenIdle (pre ++ List.replicate i .interrupted ++ [.inner .idle] ++ List.replicate j .interrupted ++ [.finish])).result =
      some (MainRun.run whenIdle pre).task.code := by
  have hr := looping_none whenIdle pre hl
  have key : ∀ (n : Nat) (r : MainRun), (List.replicate n MainLabel.interrupted).foldl (MainRun.step whenIdle) r = r := by
    intro n
    induction n with
    | zero => intro r; rfl
    | succ n ih =>
      intro r
      rw [List.replicate_succ, List.foldl_cons, ih]
      unfold MainRun.step
      split <;> rfl
  unfold MainRun.run at *
  simp only [List.foldl_append, key, List.foldl_cons, List.foldl_nil]
  simp [MainRun.step, AsyncRun.step, hr, hl, hs]

example : (MainRun.run true [.inner .idle]).task.shutting = true := by decide +kernel

theorem propagate_logged (ts : List TaskEnd) (hc : .cancelled ∉ ts) :
    (∀ e log, (propagate ts (some e) log).2 = log ++ ts.filter (· ≠ .ok)) ∧ ∀ log, (propagate ts none log).2 = log ++ (ts.filter (· ≠ .ok)).tail := by
  induction ts with
  | nil => simp [propagate]
  | cons t ts ih =>
    obtain ⟨h1, h2⟩ := ih (fun h => hc (List.mem_cons_of_mem _ h))
    cases t with
    | cancelled => exact absurd List.mem_cons_self hc
    | ok => exact ⟨fun e log => by simpa [propagate] using h1 e log, fun log => by simpa [propagate] using h2 log⟩
    | interrupt => exact ⟨fun e log => by simp [propagate, h1], fun log => by simp [propagate, h1]⟩
    | failed m => exact ⟨fun e log => by simp [propagate, h1], fun log => by simp [propagate, h1]⟩

/-- No failure is lost without a trace: of the exceptions of the tasks that completed in a round, the first one is dealt with and all others are logged, in their order, unless a
task was cancelled. -/
theorem C120_others_logged (whenIdle : Bool) (pre : List MainLabel) (ts : List TaskEnd) (hl : (MainRun.run whenIdle pre).task.pc = .looping) (hc : .cancelled ∉ ts) :
    (MainRun.run whenIdle (pre ++ [.inner (.completed ts)])).task.logged = (MainRun.run whenIdle pre).task.logged ++ (ts.filter (· ≠ .ok)).tail := by
  have hres := looping_none whenIdle pre hl
  unfold MainRun.run at *
  rw [List.foldl_append, List.foldl_cons, List.foldl_nil, main_step_inner _ _ _ hres]
  simp only [AsyncRun.step, hl, ne_eq, not_true_eq_false, if_false]
  unfold AsyncRun.completed
  have := (propagate_logged ts hc).2 (List.foldl (MainRun.step whenIdle) {} pre).task.logged
  generalize propagate ts none _ = r at *
  obtain ⟨e, log⟩ := r
  cases e with
  | none => exact this
  | some e => cases e <;> exact this

example : (MainRun.run true ([] ++ [.inner (.completed [.ok, .failed "a", .interrupt, .ok, .failed "b"])])).task.logged = [.interrupt, .failed "b"] := by decide +kernel

end Verif
