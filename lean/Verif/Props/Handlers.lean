import Verif.Spec.Handlers
import Verif.Props.Events

/-!
# C80–C83: handlers of the events of actions, process matchers, opaque coroutines
-/

namespace Verif

/-! ## C80 A handler for the events of an action is run for exactly these -/

theorem make_fields {α : Type} {ec : EvClass} {ac : ActClass} {m : ActionMatcher} {on : OnEvent α} {h : OnAction α}
    (e : OnAction.make ec ac m on = .ok h) : h.evCls = ec ∧ h.actCls = ac ∧ h.matcher = m ∧ m.accepted ac = true := by
  unfold OnAction.make at e
  split at e
  · rename_i ha
    split at e
    · cases e; exact ⟨rfl, rfl, rfl, ha⟩
    · split at e <;> cases e; exact ⟨rfl, rfl, rfl, ha⟩
    · split at e <;> cases e; exact ⟨rfl, rfl, rfl, ha⟩
    · cases e; exact ⟨rfl, rfl, rfl, ha⟩
  · cases e

theorem matches_target {α : Type} {ec : EvClass} {ac : ActClass} {a : ActObj} {on : OnEvent α} {h : OnAction α}
    (hm : OnAction.make ec ac (.action a none) on = .ok h) (e : ActEvent) :
    h.matchesEvent e = if e.isInstance ec then e.action.map (fun b => b.id == a.id) else .ok false := by
  obtain ⟨h1, h2, h3, h4⟩ := make_fields hm
  simp only [ActionMatcher.accepted, Option.isSome_none, Bool.or_false] at h4
  simp only [OnAction.matchesEvent, h1, h2, h3, ActionMatcher.call, h4, if_true]
  cases e.isInstance ec <;> rfl

theorem matches_callable {α : Type} {ec : EvClass} {ac : ActClass} {f : ActObj → Res Bool} {on : OnEvent α} {h : OnAction α}
    (hm : OnAction.make ec ac (.callable f) on = .ok h) (e : ActEvent) :
    h.matchesEvent e = if e.isInstance ec then e.action.bind f else .ok false := by
  obtain ⟨h1, h2, h3, h4⟩ := make_fields hm
  simp only [OnAction.matchesEvent, h1, h3, ActionMatcher.call]
  cases e.isInstance ec <;> rfl

theorem matches_all {α : Type} {ec : EvClass} {ac : ActClass} {on : OnEvent α} {h : OnAction α}
    (hm : OnAction.make ec ac .none on = .ok h) (e : ActEvent) : h.matchesEvent e = .ok (e.isInstance ec) := by
  obtain ⟨h1, h2, h3, h4⟩ := make_fields hm
  simp only [OnAction.matchesEvent, h1, h3, ActionMatcher.call]
  cases e.isInstance ec <;> rfl

/-- C80: a handler with a target action matches exactly the events of that action, and matching never raises: exits, starts, completions
and output. -/
theorem C80_target {α : Type} (a : ActObj) (on : OnEvent α) (h : OnAction α) (e : ActEvent) :
    (onProcessExit (.action a none) on = .ok h → ∃ b, h.matchesEvent e = .ok b ∧ (b = true ↔ e.ExitOf a)) ∧
    (onProcessStart (.action a none) on = .ok h → ∃ b, h.matchesEvent e = .ok b ∧ (b = true ↔ e.StartOf a)) ∧
    (onExecutionComplete (.action a none) on = .ok h → ∃ b, h.matchesEvent e = .ok b ∧ (b = true ↔ e.CompletionOf a)) := by
  refine ⟨fun hm => ?_, fun hm => ?_, fun hm => ?_⟩ <;> rw [matches_target hm] <;> cases e <;>
    simp [ActEvent.isInstance, ActEvent.action, ActEvent.ExitOf, ActEvent.StartOf, ActEvent.CompletionOf, Except.map]

/-- C80, output and input. -/
theorem C80_target_io {α : Type} (a : ActObj) (i o r : Option (ActEvent → Res (Ret α))) (h : OnAction α) (e : ActEvent)
    (hm : onProcessIO (.action a none) i o r = .ok h) : ∃ b, h.matchesEvent e = .ok b ∧ (b = true ↔ e.IoOf a) := by
  rw [matches_target hm]
  cases e <;> simp [ActEvent.isInstance, ActEvent.action, ActEvent.IoOf, Except.map]

/-- C80: with a function as target, exactly the events of the actions that the function accepts; it is asked for no others. -/
theorem C80_function {α : Type} (f : ActObj → Res Bool) (on : OnEvent α) (h : OnAction α) (e : ActEvent) :
    (onProcessExit (.callable f) on = .ok h →
      (∀ a code, e = .exited a code → h.matchesEvent e = f a) ∧ ((∀ a code, e ≠ .exited a code) → h.matchesEvent e = .ok false)) ∧
    (onProcessStart (.callable f) on = .ok h →
      (∀ a, e = .started a → h.matchesEvent e = f a) ∧ ((∀ a, e ≠ .started a) → h.matchesEvent e = .ok false)) ∧
    (onExecutionComplete (.callable f) on = .ok h →
      (∀ a, e = .complete a → h.matchesEvent e = f a) ∧ ((∀ a, e ≠ .complete a) → h.matchesEvent e = .ok false)) := by
  refine ⟨fun hm => ?_, fun hm => ?_, fun hm => ?_⟩ <;> rw [matches_callable hm] <;> cases e <;>
    simp [ActEvent.isInstance, ActEvent.action, Except.bind]

/-- C80: without a target, the events of every action. -/
theorem C80_no_target {α : Type} (on : OnEvent α) (h : OnAction α) (e : ActEvent) :
    (onProcessExit .none on = .ok h → ∃ b, h.matchesEvent e = .ok b ∧ (b = true ↔ ∃ a, e.ExitOf a)) ∧
    (onProcessStart .none on = .ok h → ∃ b, h.matchesEvent e = .ok b ∧ (b = true ↔ ∃ a, e.StartOf a)) ∧
    (onExecutionComplete .none on = .ok h → ∃ b, h.matchesEvent e = .ok b ∧ (b = true ↔ ∃ a, e.CompletionOf a)) := by
  refine ⟨fun hm => ?_, fun hm => ?_, fun hm => ?_⟩ <;> rw [matches_all hm] <;> refine ⟨_, rfl, ?_⟩ <;> cases e <;>
    simp [ActEvent.isInstance, ActEvent.ExitOf, ActEvent.StartOf, ActEvent.CompletionOf] <;> exact ⟨_, rfl⟩

/-- C80: an action can be the target of OnProcessExit and of OnExecutionComplete if it can have such events; something that is neither an action
nor callable is a type error, and every callable object is accepted. -/
theorem C80_accepted_partial {α : Type} (a : ActObj) (f : ActEvent → Res (Ret α)) :
    ((∃ h, onProcessExit (.action a none) (.callable f) = .ok h) ↔ a.cls = .executeLocal ∨ a.cls = .executeProcess) ∧
    (∃ h, onExecutionComplete (.action a none) (.callable f) = .ok h) ∧
    (∀ g, ∃ h, onProcessExit (.action a (some g)) (.callable f) = .ok h) ∧ (∀ g, ∃ h, onProcessStart (.callable g) (.callable f) = .ok h) ∧
    onProcessExit .other (.callable f) = .error .typeError ∧ onProcessStart .other (.callable f) = .error .typeError ∧
    onExecutionComplete .other (.callable f) = .error .typeError := by
  obtain ⟨i, c⟩ := a
  cases c <;> simp [onProcessExit, onExecutionComplete, onProcessStart, OnAction.make, ActionMatcher.accepted, ActClass.isA]

/-- C80 fails for OnProcessStart: an ExecuteLocal action, which emits ProcessStarted events like any other, is rejected as target. -/
theorem C80_start_of_local_violated {α : Type} (i : Nat) (on : OnEvent α) :
    onProcessStart (.action ⟨i, .executeLocal⟩ none) on = .error .typeError := by
  simp [onProcessStart, OnAction.make, ActionMatcher.accepted, ActClass.isA]

/-- C80 in a run: while the service handles an event, the callback of a registered handler for the exits of an action is run if and
only if the event is such an exit.  `decode` says which events the numbered events of the service are. -/
theorem C80_runs {α : Type} (P : Prog) (O : Oracle) (fuel : Nat) (s s' : Svc) (n : Nat) (q : List Event) (decode : Nat → ActEvent)
    (hq : s.ctx.queue = .user n :: q) (hs : s.step P O (.process fuel) = some s') (hok : s'.task = .done true)
    (k : Nat) (h : OnAction α) (a : ActObj) (on : OnEvent α) (hh : onProcessExit (.action a none) on = .ok h)
    (hk : P.withService.matchesEv k (.user n) = true ↔ h.matchesEvent (decode n) = .ok true) :
    ∃ new, s'.calls = s.calls ++ new ∧ ((.user n, k) ∈ new ↔ k ∈ s.ctx.handlers ∧ (decode n).ExitOf a) := by
  refine ⟨_, C21_handlers_at_dequeue P O fuel s s' _ q hq hs hok, ?_⟩
  obtain ⟨b, hb, hiff⟩ := (C80_target a on h (decode n)).1 hh
  simp only [List.mem_map, List.mem_filter, Prod.mk.injEq, true_and]
  constructor
  · rintro ⟨k', ⟨hmem, hm⟩, rfl⟩
    rw [hk, hb, Except.ok.injEq] at hm
    exact ⟨hmem, hiff.1 hm⟩
  · rintro ⟨hmem, he⟩
    refine ⟨k, ⟨hmem, ?_⟩, rfl⟩
    rw [hk, hb, hiff.2 he]

/-- Handler 2 of `svcProg` as a handler of the exits of action 3: event 7 is such an exit, event 8 is not. -/
example : (∃ s s', (Svc.init []).steps svcProg sampleOracle (twoEvents.take 5 ++ [.check]) = some s ∧ s.ctx.queue = [.user 7, .user 7] ∧
      2 ∈ s.ctx.handlers ∧ s.step svcProg sampleOracle (.process 9) = some s' ∧ s'.task = .done true) ∧
    (∀ n, n = 7 ∨ n = 8 → (svcProg.withService.matchesEv 2 (.user n) = true ↔
      OnAction.matchesEvent (α := Nat) ⟨.exited, .executeLocal, .action ⟨3, .executeProcess⟩ none, [.entity 1], none⟩
        (if n = 7 then .exited ⟨3, .executeProcess⟩ 0 else .exited ⟨4, .executeProcess⟩ 0) = .ok true)) ∧
    onProcessExit (.action ⟨3, .executeProcess⟩ none) (.iterable [.entity 1]) =
      .ok (⟨.exited, .executeLocal, .action ⟨3, .executeProcess⟩ none, [.entity 1], none⟩ : OnAction Nat) := by
  refine ⟨?_, ?_, rfl⟩
  · have h : (((Svc.init []).steps svcProg sampleOracle (twoEvents.take 5 ++ [.check])).bind fun s =>
      (s.step svcProg sampleOracle (.process 9)).map fun s' => (s.ctx.queue, s.ctx.handlers.contains 2, s'.task)) =
      some ([.user 7, .user 7], true, .done true) := by decide +kernel
    rw [Option.bind_eq_some_iff] at h
    obtain ⟨s, hs, h⟩ := h
    rw [Option.map_eq_some_iff] at h
    obtain ⟨s', hs', h⟩ := h
    simp only [Prod.mk.injEq, List.contains_iff_mem] at h
    exact ⟨s, s', hs, h.1, h.2.1, hs', h.2.2⟩
  · rintro n (rfl | rfl) <;> simp [OnAction.matchesEvent, ActEvent.isInstance, ActionMatcher.call, ActClass.isA, ActEvent.action, Except.map,
      Prog.withService, svcProg, includeHandler, shutdownHandler]

/-! ## C81 A handler returns what it was given -/

theorem visited_go_entities {α : Type} (l : List (Item α)) (h : l.all Item.isEntity = true) :
    ∃ xs : List α, l = xs.map .entity ∧ visited.go l = (xs, .ok ()) := by
  induction l with
  | nil => exact ⟨[], rfl, rfl⟩
  | cons x l ih =>
    simp only [List.all_cons, Bool.and_eq_true] at h
    obtain ⟨xs, rfl, hv⟩ := ih h.2
    cases x with
    | entity y => exact ⟨y :: xs, rfl, by simp [visited.go, hv]⟩
    | pyNone => simp [Item.isEntity] at h
    | bad => simp [Item.isEntity] at h

theorem visited_go_map {α : Type} (xs : List α) : visited.go (xs.map Item.entity) = (xs, .ok ()) := by
  induction xs with
  | nil => rfl
  | cons x xs ih => simp [visited.go, ih]

/-- C81: a handler that was created with a non-empty list of entities has all of them visited in order, at every event; one created with
an entity has it visited; one created with a function returns what the function returns. -/
theorem C81_entities_partial {α : Type} (ec : EvClass) (ac : ActClass) (m : ActionMatcher) (h : OnAction α) (e : ActEvent) :
    (∀ xs : List α, xs ≠ [] → OnAction.make ec ac m (.iterable (xs.map .entity)) = .ok h → h.handle e = .ok (.many (xs.map .entity)) ∧
      visited (.many (xs.map .entity)) = (xs, .ok ())) ∧
    (∀ x : α, OnAction.make ec ac m (.single (.entity x)) = .ok h → (h.handle e).map visited = .ok ([x], .ok ())) ∧
    (∀ f, OnAction.make ec ac m (.callable f) = .ok h → h.handle e = f e) := by
  refine ⟨fun xs hne hm => ?_, fun x hm => ?_, fun f hm => ?_⟩
  · have hall : (xs.map Item.entity).all Item.isEntity = true := by simp [Item.isEntity]
    unfold OnAction.make at hm
    split at hm
    · simp only [hall, if_true, Except.ok.injEq] at hm
      subst hm
      exact ⟨by simp [OnAction.handle, hne], visited_go_map xs⟩
    · cases hm
  · unfold OnAction.make at hm
    split at hm
    · simp only [Except.ok.injEq] at hm
      subst hm
      simp [OnAction.handle, Except.map, visited, visited.go]
    · cases hm
  · unfold OnAction.make at hm
    split at hm
    · simp only [Except.ok.injEq] at hm
      subst hm
      simp [OnAction.handle]
    · cases hm

/-- C81: a list with something that is not an entity is a type error when the handler is made. -/
theorem C81_checked {α : Type} (ec : EvClass) (ac : ActClass) (m : ActionMatcher) (l : List (Item α)) (x : Item α) (hx : x ∈ l)
    (hb : ∀ a, x ≠ .entity a) : OnAction.make ec ac m (.iterable l) = .error .typeError := by
  have hb : x.isEntity = false := by
    cases x with
    | entity a => exact absurd rfl (hb a)
    | pyNone => rfl
    | bad => rfl
  unfold OnAction.make
  split
  · simp only
    rw [if_neg]
    intro h
    rw [List.all_eq_true] at h
    simp [h x hx] at hb
  · rfl

/-- C81 fails for the empty list: the handler is made, and handling any event raises AttributeError.  (This is what a process with `on_exit=[]`
registers, execute_local.py:692-697.) -/
theorem C81_empty_list_violated {α : Type} (a : ActObj) (ha : a.cls = .executeProcess) (e : ActEvent) :
    ∃ h : OnAction α, onProcessExit (.action a none) (.iterable []) = .ok h ∧ h.handle e = .error .attributeError := by
  refine ⟨⟨.exited, .executeLocal, .action a none, [], none⟩, ?_, ?_⟩
  · simp [onProcessExit, OnAction.make, ActionMatcher.accepted, ha, ActClass.isA]
  · simp [OnAction.handle]

/-- C81 fails for iterators: whatever they yield, handling any event raises AttributeError. -/
theorem C81_iterator_violated {α : Type} (ec : EvClass) (ac : ActClass) (m : ActionMatcher) (xs : List α) (h : OnAction α) (e : ActEvent)
    (hm : OnAction.make ec ac m (.iterator (xs.map .entity)) = .ok h) : h.handle e = .error .attributeError := by
  have hall : (xs.map Item.entity).all Item.isEntity = true := by simp [Item.isEntity]
  unfold OnAction.make at hm
  split at hm
  · simp only [hall, if_true, Except.ok.injEq] at hm
    subst hm
    simp [OnAction.handle]
  · cases hm

/-- C81: None in the place of entities is visited as nothing (`ExecuteLocal` without `on_exit`). -/
theorem C81_none {α : Type} (ec : EvClass) (ac : ActClass) (m : ActionMatcher) (h : OnAction α) (e : ActEvent)
    (hm : OnAction.make ec ac m (.single .pyNone) = .ok h) : (h.handle e).map visited = .ok ([], .ok ()) := by
  unfold OnAction.make at hm
  split at hm
  · simp only [Except.ok.injEq] at hm
    subst hm
    simp [OnAction.handle, Except.map, visited, visited.go]
  · cases hm

/-- C81: of the three functions of OnProcessIO exactly the one for the stream is called, with the event; without one nothing is visited. -/
theorem C81_streams {α : Type} (m : ActionMatcher) (i o r : Option (ActEvent → Res (Ret α))) (h : OnAction α) (a : ActObj) (text : String)
    (hm : onProcessIO m i o r = .ok h) :
    h.handle (.io a 0 text) = (match i with | some f => f (.io a 0 text) | none => .ok (.one .pyNone)) ∧
    h.handle (.io a 1 text) = (match o with | some f => f (.io a 1 text) | none => .ok (.one .pyNone)) ∧
    h.handle (.io a 2 text) = (match r with | some f => f (.io a 2 text) | none => .ok (.one .pyNone)) := by
  have := fun e => (C81_entities_partial .io .executeLocal m h e).2.2 _ hm
  simp only [this]
  cases i <;> cases o <;> cases r <;> simp [ioDispatch]

/-- C81: of what a handler returned, the entities are visited in order, up to the first object that is neither an entity nor None; None is skipped wherever it is. -/
theorem C81_visited {α : Type} (l r : List (Item α)) (hl : Item.bad ∉ l) :
    visited (.many l) = (l.filterMap (fun x => match x with | .entity y => some y | _ => none), .ok ()) ∧
    visited (.many (l ++ .bad :: r)) = (l.filterMap (fun x => match x with | .entity y => some y | _ => none), .error .runtimeError) := by
  induction l with
  | nil => exact ⟨rfl, rfl⟩
  | cons x l ih =>
    obtain ⟨h1, h2⟩ := ih (fun h => hl (List.mem_cons_of_mem _ h))
    simp only [visited] at h1 h2 ⊢
    cases x with
    | bad => exact absurd List.mem_cons_self hl
    | pyNone => simp [visited.go, h1, h2]
    | entity y => simp [visited.go, h1, h2]

example : visited (.many [.entity 7, .pyNone, .entity 8, .bad, .entity 9]) = ([7, 8], .error .runtimeError) :=
  (C81_visited [.entity 7, .pyNone, .entity 8] [.entity 9] (by simp)).2

example : ∃ h : OnAction Nat, onProcessExit (.action ⟨3, .executeProcess⟩ none) (.iterable [.entity 7, .entity 8]) = .ok h ∧
    h.matchesEvent (.exited ⟨3, .executeProcess⟩ 1) = .ok true ∧ h.matchesEvent (.exited ⟨4, .executeProcess⟩ 1) = .ok false ∧
    h.matchesEvent (.started ⟨3, .executeProcess⟩) = .ok false ∧ h.handle (.exited ⟨3, .executeProcess⟩ 1) = .ok (.many [.entity 7, .entity 8]) :=
  ⟨⟨.exited, .executeLocal, .action ⟨3, .executeProcess⟩ none, [.entity 7, .entity 8], none⟩, rfl, rfl, rfl, rfl, rfl⟩

/-! ## C82 Process matchers -/

theorem run_concat (l : List DetailsStep) (x : DetailsStep) : DetailsSt.run (l ++ [x]) = (DetailsSt.run l).step x := by
  simp [DetailsSt.run, List.foldl_append]

theorem lastPid_concat (l : List DetailsStep) (x : DetailsStep) :
    lastPid (l ++ [x]) = match x with | .connect p => some p | _ => lastPid l := by
  cases x <;> simp [lastPid, List.filterMap_append]

/-- An action that was executed once has one dictionary, with the id of the process started last. -/
theorem run_once {l : List DetailsStep} {name : String} {cmd : List String} (h : ExecutedOnce l name cmd) :
    DetailsSt.run l = { made := [⟨name, cmd, lastPid l⟩], used := some 0 } := by
  obtain ⟨r, rfl, hr⟩ := h
  suffices ∀ r : List DetailsStep, (∀ n c, .prepare n c ∉ r) →
      DetailsSt.run (.prepare name cmd :: .begin :: r.reverse) =
        { made := [⟨name, cmd, lastPid (.prepare name cmd :: .begin :: r.reverse)⟩], used := some 0 } by
    have := this r.reverse (by simpa using hr)
    rwa [List.reverse_reverse] at this
  intro r hr
  induction r with
  | nil => simp [DetailsSt.run, DetailsSt.step, lastPid]
  | cons x r ih =>
    have ih := ih (fun n c h => hr n c (List.mem_cons_of_mem _ h))
    rw [show (DetailsStep.prepare name cmd :: .begin :: (x :: r).reverse) =
      (.prepare name cmd :: .begin :: r.reverse) ++ [x] by simp, run_concat, ih, lastPid_concat]
    cases x with
    | prepare n c => exact absurd (List.mem_cons_self) (hr n c)
    | begin => simp [DetailsSt.step]
    | connect p => simp [DetailsSt.step]

/-- C82: for an action that was executed once, a matcher for a process id accepts exactly the id of the process started last, once there is
one; matchers for names and executables compare with the name and the executable the action was prepared with
(an empty command has no executable: IndexError). -/
theorem C82_executed_once_partial (l : List DetailsStep) (name : String) (cmd : List String) (h : ExecutedOnce l name cmd) :
    (∀ p, lastPid l = some p → ∀ pid, matchesPid pid (DetailsSt.run l).current = .ok (decide (p = pid))) ∧
    (∀ n, matchesName n (DetailsSt.run l).current = .ok (decide (name = n))) ∧
    (∀ x exe args, cmd = exe :: args → ∃ b, matchesExecutable x (DetailsSt.run l).current = .ok b ∧ (b = true ↔ x.toList <:+ exe.toList)) ∧
    (cmd = [] → ∀ x, matchesExecutable x (DetailsSt.run l).current = .error .indexError) := by
  rw [run_once h]
  refine ⟨fun p hp pid => ?_, fun n => ?_, fun x exe args hc => ?_, fun hc x => by subst hc; rfl⟩
  · simp [DetailsSt.current, matchesPid, hp]; rfl
  · simp [DetailsSt.current, matchesName]; rfl
  · subst hc
    exact ⟨_, rfl, by simp [List.isSuffixOf_iff_suffix]⟩

/-- C82: whatever happened to the action before, after it is prepared and its process started, the matchers see that process. -/
theorem C82_started (l : List DetailsStep) (name : String) (cmd : List String) (p : Nat) (pid : Nat) (n : String) :
    matchesPid pid (DetailsSt.run (l ++ [.prepare name cmd, .begin, .connect p])).current = .ok (decide (p = pid)) ∧
    matchesName n (DetailsSt.run (l ++ [.prepare name cmd, .begin, .connect p])).current = .ok (decide (name = n)) := by
  have h : (DetailsSt.run (l ++ [.prepare name cmd, .begin, .connect p])).current = some ⟨name, cmd, some p⟩ := by
    rw [show l ++ [DetailsStep.prepare name cmd, .begin, .connect p] = ((l ++ [.prepare name cmd]) ++ [.begin]) ++ [.connect p] by simp, run_concat, run_concat,
      run_concat]
    generalize DetailsSt.run l = s
    simp [DetailsSt.step, DetailsSt.current, List.getLast?_eq_getElem?, List.getElem?_modify]
  rw [h]
  exact ⟨by simp [matchesPid]; rfl, by simp [matchesName]; rfl⟩

/-- After an earlier process of another name. -/
example : matchesPid 9 (DetailsSt.run ([.prepare "a-1" ["a"], .begin, .connect 4] ++ [.prepare "b-1" ["b"], .begin, .connect 9])).current = .ok true :=
  (C82_started _ "b-1" ["b"] 9 9 "").1

/-- C82: an action that was not executed is matched by none of them. -/
theorem C82_not_executed (pid : Nat) (s : String) :
    matchesPid pid (DetailsSt.run []).current = .ok false ∧ matchesName s (DetailsSt.run []).current = .ok false ∧
    matchesExecutable s (DetailsSt.run []).current = .ok false := ⟨rfl, rfl, rfl⟩

/-- C82: an action is matched by `matches_action` of itself only. -/
theorem C82_action (target a : ActObj) : matchesAction target a = true ↔ a.id = target.id := by simp [matchesAction]

/-- C82 fails between the execution of the action and the start of its process: a matcher for a process id raises KeyError. -/
theorem C82_not_started_violated (l : List DetailsStep) (name : String) (cmd : List String) (h : ExecutedOnce l name cmd)
    (hl : lastPid l = none) (pid : Nat) : matchesPid pid (DetailsSt.run l).current = .error .keyError := by
  rw [run_once h]
  simp [DetailsSt.current, matchesPid, hl]

/-- C82 fails for an action that is executed again, although this second execution is rejected (execute_local.py:651-657): the running process is no
longer found by its name, and looking for its id raises KeyError. -/
theorem C82_executed_again_violated (l : List DetailsStep) (name name' : String) (cmd cmd' : List String) (h : ExecutedOnce l name cmd)
    (hn : name' ≠ name) (pid : Nat) :
    matchesName name (DetailsSt.run (l ++ [.prepare name' cmd'])).current = .ok false ∧
    matchesPid pid (DetailsSt.run (l ++ [.prepare name' cmd'])).current = .error .keyError := by
  rw [run_concat, run_once h]
  simp [DetailsSt.step, DetailsSt.current, matchesName, matchesPid, hn]

example : ExecutedOnce [.prepare "ls-1" ["/bin/ls", "."], .begin, .connect 12, .begin, .connect 15] "ls-1" ["/bin/ls", "."] ∧
    lastPid [.prepare "ls-1" ["/bin/ls", "."], .begin, .connect 12, .begin, .connect 15] = some 15 ∧
    ExecutedOnce [.prepare "ls-1" ["/bin/ls", "."], .begin] "ls-1" ["/bin/ls", "."] ∧
    lastPid [.prepare "ls-1" ["/bin/ls", "."], .begin] = none ∧ "ls".toList <:+ "/bin/ls".toList := by
  refine ⟨⟨[.connect 12, .begin, .connect 15], rfl, by simp⟩, by decide, ⟨[], rfl, by simp⟩, by decide, by decide⟩

/-! ## C83 The coroutine of an OpaqueCoroutine is cancelled at shutdown -/

theorem co_run_concat (l : List CoLabel) (x : CoLabel) : CoAct.run (l ++ [x]) = (CoAct.run l).step x := by
  simp [CoAct.run, List.foldl_append]

theorem list_rev_ind {α : Type} {motive : List α → Prop} (nil : motive []) (concat : ∀ l x, motive l → motive (l ++ [x])) (l : List α) : motive l := by
  rw [← List.reverse_reverse l]
  induction l.reverse with
  | nil => exact nil
  | cons x l ih => rw [List.reverse_cons]; exact concat _ _ ih

theorem onShutdown_fold (a : CoAct) (n : Nat) :
    (List.replicate n ()).foldl (fun a _ => a.onShutdown) a =
      if n = 0 then a else a.onShutdown := by
  have idem : ∀ a : CoAct, a.onShutdown.onShutdown = a.onShutdown := by
    intro a
    unfold CoAct.onShutdown
    cases hc : a.current with
    | none => simp [hc]
    | some k =>
      simp only [CoAct.mk.injEq, and_true]
      apply List.ext_getElem?
      intro i
      simp only [List.getElem?_modify]
      by_cases hi : k = i
      · subst hi
        cases a.tasks[k]? with
        | none => rfl
        | some t => cases t <;> simp [CoTask.cancel]
      · simp [hi]
  induction n generalizing a with
  | zero => rfl
  | succ n ih =>
    rw [List.replicate_succ, List.foldl_cons, ih]
    split
    · rfl
    · simp [idem]

/-- As many tasks and handlers as executions; the latest task is the current one. -/
theorem co_shape (l : List CoLabel) : (CoAct.run l).tasks.length = CoAct.executions l ∧ (CoAct.run l).handlers = CoAct.executions l ∧
    (CoAct.run l).current = if CoAct.executions l = 0 then none else some (CoAct.executions l - 1) := by
  induction l using list_rev_ind with
  | nil => decide
  | concat l x ih =>
    obtain ⟨h1, h2, h3⟩ := ih
    rw [co_run_concat]
    have he : CoAct.executions (l ++ [x]) = CoAct.executions l + if x = .execute then 1 else 0 := by
      cases x <;> simp [CoAct.executions, List.countP_append]
    rw [he]
    cases x with
    | execute => simp [CoAct.step, h1, h2]
    | finish k => simp [CoAct.step, h1, h2, h3]
    | shutdown =>
      simp only [CoAct.step, onShutdown_fold]
      split
      · simp [h1, h2, h3]
      · unfold CoAct.onShutdown
        split <;> simp [h1, h2, h3]

/-- C83: when a Shutdown event is handled, the coroutine that the action started last is cancelled, unless it has ended; nothing runs
afterwards if the action was executed once. -/
theorem C83_cancelled_partial (l : List CoLabel) (h : CoAct.executions l = 1) :
    (CoAct.run (l ++ [.shutdown])).tasks = (CoAct.run l).tasks.map CoTask.cancel ∧ CoTask.running ∉ (CoAct.run (l ++ [.shutdown])).tasks := by
  obtain ⟨h1, h2, h3⟩ := co_shape l
  rw [h] at h1 h2 h3
  have ht : ∃ t, (CoAct.run l).tasks = [t] := List.length_eq_one_iff.1 h1
  obtain ⟨t, ht⟩ := ht
  have key : (CoAct.run (l ++ [.shutdown])).tasks = [t.cancel] := by
    rw [co_run_concat]
    simp only [CoAct.step, onShutdown_fold, h2]
    simp only [Nat.one_ne_zero, if_false, Nat.sub_self] at h3 ⊢
    simp only [CoAct.onShutdown, h3, ht]
    rfl
  rw [key, ht]
  refine ⟨rfl, ?_⟩
  cases t <;> simp [CoTask.cancel]

/-- C83: a task that was cancelled or has ended stays so. -/
theorem C83_stays (l r : List CoLabel) (k : Nat) (t : CoTask) (h : (CoAct.run l).tasks[k]? = some t) (ht : t ≠ .running) :
    (CoAct.run (l ++ r)).tasks[k]? = some t := by
  induction r using list_rev_ind with
  | nil => simpa using h
  | concat r x ih =>
    rw [← List.append_assoc, co_run_concat]
    cases x with
    | execute =>
      simp only [CoAct.step]
      rw [List.getElem?_append_left (List.getElem?_eq_some_iff.1 ih).1]
      exact ih
    | finish j =>
      simp only [CoAct.step, List.getElem?_modify, ih]
      split <;> simp [ht]
    | shutdown =>
      simp only [CoAct.step, onShutdown_fold]
      split
      · exact ih
      · unfold CoAct.onShutdown
        split
        · simp only [List.getElem?_modify, ih]
          split
          · cases t <;> simp_all [CoTask.cancel]
          · rfl
        · exact ih

/-- C83: nobody but a Shutdown event cancels it. -/
theorem C83_only_then (l : List CoLabel) (h : CoLabel.shutdown ∉ l) : CoTask.cancelled ∉ (CoAct.run l).tasks := by
  induction l using list_rev_ind with
  | nil => decide
  | concat l x ih =>
    have ih := ih (fun hm => h (List.mem_append_left _ hm))
    rw [co_run_concat]
    cases x with
    | execute => simpa [CoAct.step] using ih
    | finish k =>
      simp only [CoAct.step]
      intro hm
      obtain ⟨i, hi, he⟩ := List.getElem_of_mem hm
      rw [List.getElem_modify] at he
      split at he
      · split at he
        · cases he
        · exact ih (he ▸ List.getElem_mem _)
      · exact ih (he ▸ List.getElem_mem _)
    | shutdown => exact absurd (List.mem_append_right _ List.mem_cons_self) h

/-- C83 fails for an action that is executed twice: only the latest coroutine is cancelled. -/
theorem C83_executed_twice_violated : (CoAct.run [.execute, .execute, .shutdown]).tasks = [.running, .cancelled] := by decide

/-- C83 fails for an action that is executed after the Shutdown event was handled. -/
theorem C83_executed_late_violated : (CoAct.run [.shutdown, .execute]).tasks = [.running] := by decide

example : CoAct.executions [.execute] = 1 ∧ (CoAct.run [.execute, .shutdown]).tasks = [.cancelled] ∧
    (CoAct.run [.execute, .finish 0, .shutdown]).tasks = [.finished] := by decide

end Verif
