import Verif.Lemmas.Run
import Verif.Lemmas.EventLocals
import Verif.Props.Scope

/-!
# Events, handlers and locals: C20–C24

`(Svc.init env).Reaches P O ls s`: the service reaches `s` by the steps `ls` (calls of the user, signals, other
threads, completed futures, passes of the run loop, in any order), for any program `P`.
-/

namespace Verif

/-! ## C20 Events are handled in emission order, one at a time -/

/-- At any time the events taken for processing followed by the queued ones are exactly the emitted ones in
the order of their emission: nothing is dropped, duplicated or reordered, before, during or between runs. -/
theorem C20_fifo (P : Prog) (O : Oracle) (env : Dict String) (ls : List Label) (s : Svc)
    (h : (Svc.init env).Reaches P O ls s) : s.handled ++ s.ctx.queue = s.ctx.emitted := by
  obtain ⟨⟨q, t, h1, h2, h3⟩, _⟩ := steps_mono h
  have e0 : (Svc.init env).ctx.emitted = [] := rfl
  have e1 : (Svc.init env).ctx.queue = [] := rfl
  have e2 : (Svc.init env).handled = [] := rfl
  rw [e0] at h1; rw [e2] at h2; rw [e1] at h3
  rw [h1, h2]
  simpa using h3

/-- The `n`-th emitted event is the `n`-th one that is processed, whatever happens after its emission. -/
theorem C20_nth_emitted_nth_handled (P : Prog) (O : Oracle) (env : Dict String) (ls ls' : List Label) (s s' : Svc)
    (h : (Svc.init env).Reaches P O ls s) (h' : s.Reaches P O ls' s') (n : Nat) (e : Event)
    (he : s.ctx.emitted[n]? = some e) (hn : n < s'.handled.length) : s'.handled[n]? = some e := by
  have hr : (Svc.init env).Reaches P O (ls ++ ls') s' := by
    unfold Svc.Reaches at *
    rw [steps_append, h]; exact h'
  have hf := C20_fifo P O env _ s' hr
  obtain ⟨⟨q, t, h1, _, _⟩, _⟩ := steps_mono h'
  have hlt : n < s.ctx.emitted.length := by
    rcases Nat.lt_or_ge n s.ctx.emitted.length with hl | hl
    · exact hl
    · rw [List.getElem?_eq_none hl] at he; cases he
  have : s'.ctx.emitted[n]? = some e := by rw [h1, List.getElem?_append_left hlt]; exact he
  rw [← hf, List.getElem?_append_left hn] at this
  exact this

/-- Events emitted through the service are put behind all earlier ones. -/
theorem C20_emit_is_last (P : Prog) (O : Oracle) (s s' : Svc) (e : Event) (h : s.step P O (.emit e) = some s') :
    s'.ctx.emitted = s.ctx.emitted ++ [e] := by
  simp only [Svc.step] at h
  split at h
  · cases h
  · simp only [Option.some.injEq] at h; subst h; rfl

/-- Events are taken one at a time, each time the first of the queue, and only while running. -/
theorem C20_one_at_a_time (P : Prog) (O : Oracle) (s s' : Svc) (l : Label) (h : s.step P O l = some s') :
    s'.handled = s.handled ∨
      ∃ fuel e, l = .process fuel ∧ s.ctx.queue.head? = some e ∧ s'.handled = s.handled ++ [e] ∧
        s.pc.isWaiting = true := by
  cases l with
  | process fuel =>
    simp only [Svc.step] at h
    split at h
    · rename_i hc
      obtain ⟨e, q, p, r, hq, _, rfl⟩ := process_inv h
      simp only [Bool.and_eq_true] at hc
      exact .inr ⟨fuel, e, rfl, by rw [hq]; rfl, rfl, hc.1⟩
    · cases h
  | start w =>
    left; simp only [Svc.step] at h
    split at h
    · simp only [Option.some.injEq] at h; subst h; unfold Svc.start; split <;> rfl
    · cases h
  | check =>
    left; simp only [Svc.step] at h
    split at h
    · simp only [Option.some.injEq] at h; subst h
      unfold Svc.check Svc.request
      simp only
      repeat' split
      all_goals rfl
    · cases h
  | wake =>
    left; simp only [Svc.step] at h
    split at h
    · unfold Svc.wake Svc.request at h
      simp only at h
      repeat' split at h
      all_goals first | (cases h; done) | (simp only [Option.some.injEq] at h; subst h; rfl)
    · cases h
  | callback i =>
    left; simp only [Svc.step] at h
    repeat' split at h
    all_goals first | (cases h; done) | (simp only [Option.some.injEq] at h; subst h; rfl)
  | _ =>
    left
    simp only [Svc.step, Svc.request] at h
    repeat' split at h
    all_goals first | (cases h; done) | (simp only [Option.some.injEq] at h; subst h; first | rfl | (split <;> first | rfl | (split <;> rfl)))

/-- A program for examples: description 0 registers handler 2, which handles user event 7 once by registering
handler 3 (for the same event) and emitting user event 8; handler 4 fails on user event 9; function 1
creates a future. -/
def svcProg : Prog :=
  { matchesEv := fun h e => ((h == 2 || h == 3) && e == .user 7) || (h == 4 && e == .user 9) || (h == 5 && e == .user 8)
    once := fun h => h == 2
    callback := fun h _ _ =>
      if h = 2 then { effects := [.register 3 false, .emit (.user 8)] }
      else if h = 3 then { effects := [.extendLocals [("n", .obj 3)]], result := .ok [.act (.user 9) none (.logInfo [])] }
      else if h = 4 then { result := .error .valueError }
      else { result := .ok [.act (.user 5) none (.custom 1 [] [])] }
    fn := fun n _ => if n = 1 then { effects := [.newFuture] } else {}
    description := fun _ => [.act (.user 1) none (.registerHandler 2 (some [])), .act (.user 2) none (.emitEvent (.user 7)),
      .act (.user 3) none (.emitEvent (.user 7))] }

/-- Two passes of the run loop, each processing one event. -/
def twoEvents : List Label := [.emit (.includeDesc 0), .start true, .check, .process 9, .wake, .check, .process 9, .wake]

/-- The events processed and queued, and the callbacks run, of the state reached (if it is). -/
def observe (P : Prog) (ls : List Label) : Option (List Event × List Event × List (Event × Nat)) :=
  ((Svc.init []).steps P sampleOracle ls).map fun s => (s.handled, s.ctx.queue, s.calls)

example : observe svcProg twoEvents =
    some ([.includeDesc 0, .user 7], [.user 7, .user 8], [(.includeDesc 0, 0), (.user 7, 2)]) := by decide +kernel

/-! ## C21 Handlers of an event are those registered when it is dequeued -/

/-- If the processing of an event does not raise, the handlers whose callbacks are run are exactly those of the handlers
registered when it was dequeued that match it, in the order of the list at that time, each once. -/
theorem C21_handlers_at_dequeue (P : Prog) (O : Oracle) (fuel : Nat) (s s' : Svc) (e : Event) (q : List Event)
    (hq : s.ctx.queue = e :: q) (h : s.step P O (.process fuel) = some s') (hok : s'.task = .done true) :
    s'.calls = s.calls ++ (s.ctx.handlers.filter (P.withService.matchesEv · e)).map (fun k => (e, k)) := by
  simp only [Svc.step] at h
  split at h
  · obtain ⟨e', q', p, r, hq', hp, rfl⟩ := process_inv h
    rw [hq] at hq'
    simp only [List.cons.injEq] at hq'
    obtain ⟨rfl, rfl⟩ := hq'
    obtain ⟨_, _, h3⟩ := handleAll_facts _ hp
    cases r with
    | error err => simp at hok
    | ok u => exact (h3 rfl).1
  · cases h

/-- If it raises, the callbacks run are a beginning of that list. -/
theorem C21_prefix_on_error (P : Prog) (O : Oracle) (fuel : Nat) (s s' : Svc) (e : Event) (q : List Event)
    (hq : s.ctx.queue = e :: q) (h : s.step P O (.process fuel) = some s') :
    ∃ t, t <+: (s.ctx.handlers.filter (P.withService.matchesEv · e)).map (fun k => (e, k)) ∧
      s'.calls = s.calls ++ t := by
  simp only [Svc.step] at h
  split at h
  · obtain ⟨e', q', p, r, hq', hp, rfl⟩ := process_inv h
    rw [hq] at hq'
    simp only [List.cons.injEq] at hq'
    obtain ⟨rfl, rfl⟩ := hq'
    exact (handleAll_facts _ hp).2.1
  · cases h

/-- Most recently registered first, those registered with `append=True` last in order of registration. -/
theorem C21_registration_order (c : Ctx) (hs : List (Nat × Bool)) :
    (c.registerAll hs).handlers = ((hs.filter (fun h => !h.2)).map (·.1)).reverse ++ c.handlers ++
      (hs.filter (·.2)).map (·.1) := by
  unfold Ctx.registerAll
  induction hs generalizing c with
  | nil => simp
  | cons h hs ih =>
    obtain ⟨k, b⟩ := h
    rw [List.foldl_cons, ih]
    cases b <;> simp [Ctx.registerHandler]

/-- Callbacks are run in no other way: a step other than the processing of an event runs none. -/
theorem C21_only_processing (P : Prog) (O : Oracle) (s s' : Svc) (l : Label) (h : s.step P O l = some s')
    (hl : ∀ fuel, l ≠ .process fuel) : s'.calls = s.calls := by
  cases l with
  | process fuel => exact absurd rfl (hl fuel)
  | start w =>
    simp only [Svc.step] at h
    split at h
    · simp only [Option.some.injEq] at h; subst h; unfold Svc.start; split <;> rfl
    · cases h
  | check =>
    simp only [Svc.step] at h
    split at h
    · simp only [Option.some.injEq] at h; subst h
      unfold Svc.check Svc.request
      simp only
      repeat' split
      all_goals rfl
    · cases h
  | wake =>
    simp only [Svc.step] at h
    split at h
    · unfold Svc.wake Svc.request at h
      simp only at h
      repeat' split at h
      all_goals first | (cases h; done) | (simp only [Option.some.injEq] at h; subst h; rfl)
    · cases h
  | callback i =>
    simp only [Svc.step] at h
    repeat' split at h
    all_goals first | (cases h; done) | (simp only [Option.some.injEq] at h; subst h; rfl)
  | _ =>
    simp only [Svc.step, Svc.request] at h
    repeat' split at h
    all_goals first | (cases h; done) | (simp only [Option.some.injEq] at h; subst h; first | rfl | (split <;> first | rfl | (split <;> rfl)))

/-- Handler 2, being run for the first event 7, registers handler 3 for the same event; handler 3 sees only the second one. -/
example : observe svcProg (twoEvents ++ [.check, .process 9]) =
    some ([.includeDesc 0, .user 7, .user 7], [.user 8],
      [(.includeDesc 0, 0), (.user 7, 2), (.user 7, 3)]) := by decide +kernel

/-- Handlers 2, 3 (for one event) and 4 are registered for event 7 so that 2 is offered it first and 4 last; handler 2
unregisters handler 3. -/
def unregProg : Prog :=
  { matchesEv := fun h e => (h == 2 || h == 3 || h == 4) && e == .user 7
    once := fun h => h == 3
    callback := fun h _ _ => if h = 2 then { effects := [.unregister 3] } else {}
    description := fun _ => [.act (.user 1) none (.registerHandler 4 (some [])), .act (.user 2) none (.registerHandler 3 (some [])),
      .act (.user 3) none (.registerHandler 2 (some [])), .act (.user 4) none (.emitEvent (.user 7))] }

/-- The property fails for a handler for one event that another handler of the same event unregisters meanwhile: it
is not run, its own attempt to unregister raises, the processing ends in failure and handler 4, which was registered all the time,
does not see the event. -/
theorem C21_unregistered_once_violated :
    ((Svc.init []).steps unregProg sampleOracle twoEvents).map (fun s => (s.handled, s.calls, s.evFailed)) =
      some ([.includeDesc 0, .user 7], [(.includeDesc 0, 0), (.user 7, 2)], true) := by decide +kernel

/-- With a handler that is not for one event it does hold. -/
example : ((Svc.init []).steps { unregProg with once := fun _ => false } sampleOracle twoEvents).map
    (fun s => (s.handled, s.calls, s.evFailed)) =
      some ([.includeDesc 0, .user 7], [(.includeDesc 0, 0), (.user 7, 2), (.user 7, 3), (.user 7, 4)], false) := by
  decide +kernel

/-! ## C22 handle_once handlers fire at most once -/

/-- Over the whole life of the service (several runs included) the callback of a handler created with
`handle_once=True` is run at most as often as the handler was registered; registrations that are still in place are
not used up. -/
theorem C22_at_most_once_per_registration (P : Prog) (O : Oracle) (env : Dict String) (ls : List Label) (s : Svc)
    (h : (Svc.init env).Reaches P O ls s) (k : Nat) (hk : 2 ≤ k) (ho : P.once k = true) :
    (s.calls.filter (fun x => x.2 == k)).length + s.ctx.handlers.count k ≤ s.ctx.registered.count k := by
  have hm := (steps_mono h).once k (by
    have h1 : ¬ (k = includeHandler ∨ k = shutdownHandler) := by
      simp [includeHandler, shutdownHandler]; omega
    simp only [Prog.withService, if_neg h1, ho])
  have e1 : runs (Svc.init env).calls k = 0 := rfl
  have e2 : (Svc.init env).ctx.handlers.count k = (Svc.init env).ctx.registered.count k := by
    simp [Svc.init, Ctx.registerHandler, includeHandler, shutdownHandler, List.count_cons]
    omega
  have e3 : runs s.calls k = (s.calls.filter (fun x => x.2 == k)).length := by
    simp only [runs, List.count_eq_length_filter, List.filter_map, List.length_map]
    rfl
  omega

/-- Registered once, it is run for at most one event, and after that it is not registered any more. -/
theorem C22_once (P : Prog) (O : Oracle) (env : Dict String) (ls : List Label) (s : Svc)
    (h : (Svc.init env).Reaches P O ls s) (k : Nat) (hk : 2 ≤ k) (ho : P.once k = true)
    (hr : s.ctx.registered.count k ≤ 1) :
    (s.calls.filter (fun x => x.2 == k)).length ≤ 1 ∧
      ((∃ e, (e, k) ∈ s.calls) → k ∉ s.ctx.handlers) := by
  have hm := C22_at_most_once_per_registration P O env ls s h k hk ho
  refine ⟨by omega, fun ⟨e, he⟩ hmem => ?_⟩
  have h1 : 0 < (s.calls.filter (fun x => x.2 == k)).length :=
    List.length_pos_of_mem (List.mem_filter.mpr ⟨he, by simp⟩)
  have h2 : 0 < s.ctx.handlers.count k := List.count_pos_iff.mpr hmem
  omega

/-- In the sample run handler 2 (`handle_once`) is registered once, is offered two events and is run for one. -/
example : ((Svc.init []).steps svcProg sampleOracle (twoEvents ++ [.check, .process 9])).map
    (fun s => (s.ctx.registered.count 2, s.calls.filter (fun x => x.2 == 2))) = some (1, [(.user 7, 2)]) := by
  decide +kernel

/-! ## C23 Event locals are visible exactly while the event is handled -/

/-- After an event was processed without an exception the locals and their saved frames are what they were. -/
theorem C23_locals_restored (P : Prog) (O : Oracle) (fuel : Nat) (s s' : Svc)
    (h : s.step P O (.process fuel) = some s') (hok : s'.task = .done true) :
    s'.ctx.locals.cur = s.ctx.locals.cur ∧ s'.ctx.locals.stack = s.ctx.locals.stack := by
  simp only [Svc.step] at h
  split at h
  · obtain ⟨e', q', p, r, hq', hp, rfl⟩ := process_inv h
    obtain ⟨_, _, h3⟩ := handleAll_facts _ hp
    cases r with
    | error err => simp at hok
    | ok u => exact ⟨(h3 rfl).2.1, (h3 rfl).2.2.1⟩
  · cases h

/-- While an event is handled, all user code (callbacks of handlers, functions of the visited actions at any
depth, user-defined conditions) is run only in contexts whose `locals.event` is that event: what it would do in any other context
(`Q` differs from `P` there) does not matter.  Assumed: user code does not itself replace the local `event`. -/
theorem C23_event_visible (P Q : Prog) (O : Oracle) (fuel : Nat) (e : Event) (s : Proc) (hw : s.ctx.locals.cur.Wf)
    (hP : P.KeepsEvent) (hQ : SameWhile (.event e) P Q) :
    processEvent Q O fuel e s = processEvent P O fuel e s :=
  handleAll_same hQ hP O fuel s.ctx.handlers s hw

/-- The handlers of the service meet the assumption if the user's code does. -/
theorem C23_service_keeps_event (P : Prog) (hP : P.KeepsEvent) : P.withService.KeepsEvent := by
  constructor
  · intro n c e he
    simp only [Prog.withService] at he
    split at he
    · split at he <;> simp at he
    · exact hP.fn n c e he
  · intro h ev c e he
    simp only [Prog.withService] at he
    split at he
    · simp at he
    · split at he
      · simp at he
      · exact hP.callback h ev c e he

example : svcProg.KeepsEvent := by
  constructor
  · intro n c e he
    simp only [svcProg] at he
    split at he <;> simp at he
    subst he; trivial
  · intro h ev c e he
    simp only [svcProg] at he
    repeat' split at he
    all_goals simp at he
    · rcases he with rfl | rfl <;> trivial
    · subst he; simp [Effect.keepsEvent, NoEvent, Dict.keys]

/-- An instance: a program whose function raises unless it sees user event 7, next to one where it never raises. -/
example : SameWhile (.event (.user 7)) { fn := fun _ _ => {} }
    { fn := fun _ c => if c.localEvent = some (.event (.user 7)) then {} else { result := .error .runtimeError } } :=
  ⟨rfl, fun _ _ _ => rfl, fun _ c h => by simp [h], fun _ _ _ _ => rfl⟩

/-- When a handler raises, its frame is not popped: the event stays visible in the locals afterwards. -/
theorem C23_after_exception_leak :
    ((Svc.init []).steps { svcProg with description := fun _ => [.act (.user 1) none (.registerHandler 4 (some []))] }
        sampleOracle [.emit (.includeDesc 0), .emit (.user 9), .start true, .check, .process 9, .wake, .check,
          .process 9, .wake]).map (fun s => (s.evFailed, s.ctx.locals.stack.length, s.ctx.localEvent)) =
      some (true, 1, some (.event (.user 9))) := by decide +kernel

/-! ## C24 Locals shadow globals consistently -/

theorem get?_update_ofDict (d e : Dict LVal) (k : String) : (d.update e).get? k = (Scope.ofDict e k).or (d.get? k) := by
  induction e generalizing d with
  | nil => simp [Dict.update, Scope.ofDict]
  | cons p e ih =>
    show ((d.set p.1 p.2).update e).get? k = _
    rw [ih, Dict.get?_set]
    simp only [Scope.ofDict]
    cases Scope.ofDict e k with
    | some v => simp
    | none =>
      by_cases hk : p.1 = k
      · simp [hk]
      · have hk' : ¬ k = p.1 := fun h => hk h.symm
        simp [hk, hk']

/-- The model's state and the intended one agree. -/
structure LocalsRel (l : Locals) (s : Scopes) : Prop where
  globals : ∀ k, l.globals.get? k = s.globals k
  cur : ∀ k, l.cur.get? k = s.cur k
  curWf : l.cur.Wf
  saved : l.stack.map (fun d => fun k => d.get? k) = s.saved
  savedWf : ∀ d ∈ l.stack, d.Wf
  cache : l.cache = none ∨ l.cache = some (l.globals.update l.cur)

theorem LocalsRel.run {l : Locals} {s : Scopes} (h : LocalsRel l s) (op : LocalsOp) : LocalsRel (op.run l) (s.run op) := by
  cases op with
  | push =>
    refine ⟨h.globals, h.cur, h.curWf, ?_, ?_, h.cache⟩
    · show (fun k => l.cur.get? k) :: l.stack.map (fun d => fun k => d.get? k) = s.cur :: s.saved
      rw [h.saved]
      congr 1
      funext k; exact h.cur k
    · intro d hd
      simp [LocalsOp.run, Locals.push] at hd
      rcases hd with rfl | hd
      · exact h.curWf
      · exact h.savedWf d hd
  | pop =>
    have hs := h.saved
    simp only [LocalsOp.run, Locals.pop, Scopes.run]
    cases hst : l.stack with
    | nil => rw [hst] at hs; simp at hs; rw [hs]; exact h
    | cons f fs =>
      rw [hst] at hs; simp at hs; rw [← hs]
      exact ⟨h.globals, fun _ => rfl, h.savedWf f (by simp [hst]), rfl,
        fun d hd => h.savedWf d (by simp [hst, hd]), .inl rfl⟩
  | extendGlobals d =>
    refine ⟨fun k => ?_, h.cur, h.curWf, h.saved, h.savedWf, .inl rfl⟩
    show (l.globals.update d).get? k = _
    rw [get?_update_ofDict, h.globals]; rfl
  | extendLocals d =>
    refine ⟨h.globals, fun k => ?_, h.curWf.update d, h.saved, h.savedWf, .inl rfl⟩
    show (l.cur.update d).get? k = _
    rw [get?_update_ofDict, h.cur]; rfl
  | read =>
    simp only [LocalsOp.run, Scopes.run, Locals.getCombined]
    rcases h.cache with hc | hc
    · rw [hc]; exact ⟨h.globals, h.cur, h.curWf, h.saved, h.savedWf, .inr rfl⟩
    · rw [hc]; exact h

/-- After any sequence of operations, `context.locals` is the globals overridden by the current locals, as computed by
the specification `Scopes` (which knows no cache and where pop forgets exactly what was added since the
matching push). -/
theorem C24_locals_shadow_globals (ops : List LocalsOp) (k : String) :
    (ops.foldl LocalsOp.run {}).getCombined.1.get? k =
      (let s := ops.foldl Scopes.run {}; s.globals.over s.cur) k := by
  have hrel : ∀ (ops : List LocalsOp) (l : Locals) (s : Scopes), LocalsRel l s →
      LocalsRel (ops.foldl LocalsOp.run l) (ops.foldl Scopes.run s) := by
    intro ops
    induction ops with
    | nil => intro l s h; exact h
    | cons o ops ih => intro l s h; exact ih _ _ (h.run o)
  have h := hrel ops {} {} ⟨fun _ => rfl, fun _ => rfl, Dict.wf_nil, rfl, by simp, .inl rfl⟩
  generalize ops.foldl LocalsOp.run {} = l at h ⊢
  generalize ops.foldl Scopes.run {} = s at h ⊢
  have key : l.getCombined.1 = l.globals.update l.cur := by
    unfold Locals.getCombined
    rcases h.cache with hc | hc <;> rw [hc]
  rw [key, Dict.get?_update _ _ _ h.curWf, h.cur, h.globals]
  rfl

/-- A pop without a push raises RuntimeError and changes nothing. -/
theorem C24_pop_empty (l : Locals) (h : l.stack = []) : l.pop = .error .runtimeError := by
  unfold Locals.pop; rw [h]

/-- The cache does not go stale: reading, then extending the globals, then reading again. -/
example : ([.extendLocals [("a", .obj 1)], .read, .extendGlobals [("a", .obj 2), ("b", .obj 3)], .push,
    .extendLocals [("b", .obj 4)], .read, .pop].foldl LocalsOp.run {}).getCombined.1.get? "b" = some (.obj 3) := by
  decide +kernel

end Verif
