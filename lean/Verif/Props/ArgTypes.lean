import Verif.Spec.ArgTypes

namespace Verif

/-! ## C126 Checks of the types of arguments -/

theorem instanceOf_iff (C : PyClasses) (o : PyThing) (c : Nat) : InstanceOf C o c ↔ C.sub (C.typeOf o) c = true := by
  cases o <;> rfl

theorem anyArgument_classes (C : PyClasses) (o : PyThing) (cs : List Nat) :
    (anyArgument C o (cs.map .cls) = .ok true ↔ ∃ c ∈ cs, InstanceOf C o c) ∧ ((∃ c ∈ cs, InstanceOf C o c) ∨ anyArgument C o (cs.map .cls) = .ok false) := by
  induction cs with
  | nil => simp [anyArgument]
  | cons c cs ih =>
    simp only [List.map_cons, anyArgument, checkArgument, isInst, Bool.or_self, List.mem_cons, exists_eq_or_imp, instanceOf_iff]
    simp only [instanceOf_iff] at ih
    cases h : C.sub (C.typeOf o) c
    · simpa using ih
    · simp

mutual
theorem isInst_sound (C : PyClasses) (o : PyThing) : ∀ t : TypeArg, (∃ e, isInst C o t = .error e ∧ e = .typeError) ∨ (isInst C o t = .ok false) ∨
    (isInst C o t = .ok true ∧ ∃ c, Mentions t c ∧ InstanceOf C o c)
  | .cls c => by
    cases h : C.sub (C.typeOf o) c
    · exact .inr (.inl (by simp [isInst, h]))
    · exact .inr (.inr ⟨by simp [isInst, h], c, .cls c, (instanceOf_iff C o c).mpr h⟩)
  | .other => .inl ⟨_, rfl, rfl⟩
  | .tuple l => by
    simp only [isInst]
    rcases isInstAny_sound C o l with h | h | ⟨h, t, ht, c, hm, hc⟩
    · exact .inl h
    · exact .inr (.inl h)
    · exact .inr (.inr ⟨h, c, .tuple l t c ht hm, hc⟩)

theorem isInstAny_sound (C : PyClasses) (o : PyThing) : ∀ l : List TypeArg, (∃ e, isInstAny C o l = .error e ∧ e = .typeError) ∨ (isInstAny C o l = .ok false) ∨
    (isInstAny C o l = .ok true ∧ ∃ t ∈ l, ∃ c, Mentions t c ∧ InstanceOf C o c)
  | [] => .inr (.inl rfl)
  | t :: ts => by
    rcases isInst_sound C o t with ⟨e, h, he⟩ | h | ⟨h, c, hm, hc⟩
    · exact .inl ⟨e, by simp only [isInstAny, h], he⟩
    · rcases isInstAny_sound C o ts with ⟨e, h2, he⟩ | h2 | ⟨h2, u, hu, c, hm, hc⟩
      · exact .inl ⟨e, by simp only [isInstAny, h, h2], he⟩
      · exact .inr (.inl (by simp only [isInstAny, h, h2]))
      · exact .inr (.inr ⟨by simp only [isInstAny, h, h2], u, List.mem_cons_of_mem _ hu, c, hm, hc⟩)
    · exact .inr (.inr ⟨by simp only [isInstAny, h], t, List.mem_cons_self .., c, hm, hc⟩)
end

theorem anyArgument_sound (C : PyClasses) (o : PyThing) : ∀ l : List TypeArg, (anyArgument C o l = .error .typeError) ∨ (anyArgument C o l = .ok false) ∨
    (anyArgument C o l = .ok true ∧ ∃ t ∈ l, ∃ c, Mentions t c ∧ InstanceOf C o c)
  | [] => .inr (.inl rfl)
  | t :: ts => by
    have hk : (checkArgument C o t = .error .typeError) ∨ (checkArgument C o t = .ok false) ∨ (checkArgument C o t = .ok true ∧ ∃ c, Mentions t c ∧ InstanceOf C o c) := by
      rcases isInst_sound C o t with ⟨e, h, rfl⟩ | h | ⟨h, c, hm, hc⟩
      · exact .inl (by simp only [checkArgument, h])
      · cases t with
        | cls c =>
          have : C.sub (C.typeOf o) c = false := by simpa [isInst] using h
          exact .inr (.inl (by simp [checkArgument, isInst, this]))
        | tuple l => exact .inr (.inl (by simp only [checkArgument, h]))
        | other => cases h
      · refine .inr (.inr ⟨?_, c, hm, hc⟩)
        cases t <;> simp [checkArgument, h]
    rcases hk with h | h | ⟨h, c, hm, hc⟩
    · exact .inl (by simp only [anyArgument, h])
    · rcases anyArgument_sound C o ts with h2 | h2 | ⟨h2, u, hu, c, hm, hc⟩
      · exact .inl (by simp only [anyArgument, h, h2])
      · exact .inr (.inl (by simp only [anyArgument, h, h2]))
      · exact .inr (.inr ⟨by simp only [anyArgument, h, h2], u, List.mem_cons_of_mem _ hu, c, hm, hc⟩)
    · exact .inr (.inr ⟨by simp only [anyArgument, h], t, List.mem_cons_self .., c, hm, hc⟩)

/-- C126.  With a list of classes, the check passes exactly if the argument is an instance of one of them, and raises TypeError otherwise. -/
theorem C126_classes (C : PyClasses) (o : PyThing) (cs : List Nat) :
    ((∃ c ∈ cs, InstanceOf C o c) → ensureArgumentType C o (.iterable (cs.map .cls)) true true = .ok ()) ∧
    ((¬ ∃ c ∈ cs, InstanceOf C o c) → ensureArgumentType C o (.iterable (cs.map .cls)) true true = .error .typeError) := by
  obtain ⟨h1, h2⟩ := anyArgument_classes C o cs
  constructor
  · intro h
    simp [ensureArgumentType, TypesArg.list, h1.mpr h]
  · intro h
    rcases h2 with h2 | h2
    · exact absurd h2 h
    · simp [ensureArgumentType, TypesArg.list, h2]

/-- C126.  So it is with a single class that cannot be iterated over. -/
theorem C126_class_partial (C : PyClasses) (o : PyThing) (c : Nat) (hc : C.members c = none) :
    (InstanceOf C o c → ensureArgumentType C o (.type c) true true = .ok ()) ∧
    (¬ InstanceOf C o c → ensureArgumentType C o (.type c) true true = .error .typeError) := by
  have h := C126_classes C o [c]
  have e : ensureArgumentType C o (.type c) true true = ensureArgumentType C o (.iterable ([c].map .cls)) true true := by
    simp [ensureArgumentType, TypesArg.list, hc]
  rw [e]
  exact ⟨fun hi => h.1 ⟨c, by simp, hi⟩, fun hi => h.2 fun ⟨d, hd, hh⟩ => hi (by rw [List.mem_singleton.mp hd] at hh; exact hh)⟩

/-- C126.  Whatever is given, the check passes or raises TypeError, and if it passes, the argument is an instance of a class that was given. -/
theorem C126_sound (C : PyClasses) (o : PyThing) (types : TypesArg) (n r : Bool) :
    ensureArgumentType C o types n r = .error .typeError ∨
    (ensureArgumentType C o types n r = .ok () ∧ n = true ∧ r = true ∧
      ((∃ c, types = .type c ∧ InstanceOf C o c) ∨ ∃ l t c, types = .iterable l ∧ t ∈ l ∧ Mentions t c ∧ InstanceOf C o c)) := by
  unfold ensureArgumentType
  cases hl : types.list C with
  | none => exact .inl rfl
  | some l =>
    cases n
    · exact .inl rfl
    cases r
    · exact .inl rfl
    rcases anyArgument_sound C o l with h | h | ⟨h, t, ht, d, hm, hd⟩
    · exact .inl (by simp [h])
    · exact .inl (by simp [h])
    · refine .inr ⟨by simp [h], rfl, rfl, ?_⟩
      cases types with
      | neither => cases hl
      | iterable l' => cases hl; exact .inr ⟨l, t, d, rfl, ht, hm, hd⟩
      | type c =>
        refine .inl ⟨c, rfl, ?_⟩
        cases hmem : C.members c with
        | none =>
          simp only [TypesArg.list, hmem, Option.some.injEq] at hl
          subst hl
          rw [List.mem_singleton.mp ht] at hm
          cases hm
          exact hd
        | some k =>
          simp only [TypesArg.list, hmem, Option.some.injEq] at hl
          subst hl
          rw [(List.mem_replicate.mp ht).2] at hm
          cases hm

mutual
theorem isInst_complete (C : PyClasses) (o : PyThing) : ∀ t : TypeArg, OnlyTypes t → ∃ b, isInst C o t = .ok b ∧ ((∃ c, Mentions t c ∧ InstanceOf C o c) → b = true)
  | .cls c, _ => ⟨_, rfl, fun ⟨d, hm, hd⟩ => by cases hm; exact (instanceOf_iff C o c).mp hd⟩
  | .other, h => by cases h
  | .tuple l, h => by
    have hl : ∀ t ∈ l, OnlyTypes t := by cases h; assumption
    obtain ⟨b, hb, hc⟩ := isInstAny_complete C o l hl
    refine ⟨b, by simpa only [isInst] using hb, ?_⟩
    rintro ⟨c, hm, hi⟩
    cases hm with
    | tuple _ t _ ht hm => exact hc ⟨t, ht, c, hm, hi⟩

theorem isInstAny_complete (C : PyClasses) (o : PyThing) : ∀ l : List TypeArg, (∀ t ∈ l, OnlyTypes t) →
    ∃ b, isInstAny C o l = .ok b ∧ ((∃ t ∈ l, ∃ c, Mentions t c ∧ InstanceOf C o c) → b = true)
  | [], _ => ⟨false, rfl, by rintro ⟨t, ht, _⟩; cases ht⟩
  | t :: ts, h => by
    obtain ⟨b, hb, hc⟩ := isInst_complete C o t (h t (List.mem_cons_self ..))
    obtain ⟨b', hb', hc'⟩ := isInstAny_complete C o ts fun u hu => h u (List.mem_cons_of_mem _ hu)
    cases b with
    | true => exact ⟨true, by simp only [isInstAny, hb], fun _ => rfl⟩
    | false =>
      refine ⟨b', by simp only [isInstAny, hb, hb'], ?_⟩
      rintro ⟨u, hu, hx⟩
      rcases List.mem_cons.mp hu with rfl | hu
      · exact absurd (hc hx) (by simp)
      · exact hc' ⟨u, hu, hx⟩
end

/-- C126.  With tuples of classes among the types, nested as they may be, the check passes exactly if the argument is an instance of a class that occurs in them. -/
theorem C126_nested (C : PyClasses) (o : PyThing) (l : List TypeArg) (hl : ∀ t ∈ l, OnlyTypes t) :
    ensureArgumentType C o (.iterable l) true true = .ok () ↔ ∃ t ∈ l, ∃ c, Mentions t c ∧ InstanceOf C o c := by
  constructor
  · intro h
    rcases C126_sound C o (.iterable l) true true with h' | ⟨-, -, -, ⟨c, hc, -⟩ | ⟨l', t, c, he, ht, hm, hi⟩⟩
    · rw [h] at h'; cases h'
    · cases hc
    · cases he; exact ⟨t, ht, c, hm, hi⟩
  · intro h
    have key : ∀ l : List TypeArg, (∀ t ∈ l, OnlyTypes t) → (∃ t ∈ l, ∃ c, Mentions t c ∧ InstanceOf C o c) → anyArgument C o l = .ok true := by
      intro l
      induction l with
      | nil => rintro _ ⟨t, ht, _⟩; cases ht
      | cons t ts ih =>
        rintro hl ⟨u, hu, hx⟩
        obtain ⟨b, hb, hc⟩ := isInst_complete C o t (hl t (List.mem_cons_self ..))
        cases hk : checkArgument C o t with
        | error e =>
          unfold checkArgument at hk
          rw [hb] at hk
          cases t <;> cases hk
        | ok v =>
          cases v with
          | true => simp only [anyArgument, hk]
          | false =>
            simp only [anyArgument, hk]
            refine ih (fun x hx => hl x (List.mem_cons_of_mem _ hx)) ?_
            rcases List.mem_cons.mp hu with rfl | hu
            · have := hc hx
              subst this
              unfold checkArgument at hk
              rw [hb] at hk
              cases u <;> simp at hk
            · exact ⟨u, hu, hx⟩
    simp [ensureArgumentType, TypesArg.list, key l hl h]

/-- C126.  `is_a` tells whether an object is an instance of a class; anything but a class as second argument is a RuntimeError. -/
theorem C126_is_a (C : PyClasses) (o : PyThing) (t : TypeArg) :
    (∀ c, t = .cls c → ∃ b, isA C o t = .ok b ∧ (b = true ↔ InstanceOf C o c)) ∧ ((∀ c, t ≠ .cls c) → isA C o t = .error .runtimeError) := by
  constructor
  · rintro c rfl
    exact ⟨_, rfl, (instanceOf_iff C o c).symm⟩
  · intro h
    cases t with
    | cls c => exact absurd rfl (h c)
    | tuple l => rfl
    | other => rfl

/-- C126.  `is_a_subclass` tells whether an object is an instance of a class or a subclass of it. -/
theorem C126_is_a_subclass (C : PyClasses) (o : PyThing) (c : Nat) :
    ∃ b, isASubclass C o (.cls c) = .ok b ∧ (b = true ↔ InstanceOf C o c ∨ SubclassOf C o c) := by
  cases h : C.sub (C.typeOf o) c
  · cases o with
    | inst d => exact ⟨false, by simp [isASubclass, isA, isInst, h], by simp [instanceOf_iff, h, SubclassOf]⟩
    | cls d => exact ⟨C.sub d c, by simp [isASubclass, isA, isInst, h], by simp [instanceOf_iff, h, SubclassOf]⟩
  · exact ⟨true, by simp [isASubclass, isA, isInst, h], by simp [instanceOf_iff, h]⟩

/-- C126.  OpaqueFunction accepts exactly callables with iterables or None as positional arguments and dictionaries or None as keyword arguments; everything else is a
TypeError when the action is made. -/
theorem C126_opaque_function (C : PyClasses) (K : KnownClasses) (callable : Bool) (args kwargs : PyThing) :
    (opaqueFunctionChecks C K callable args kwargs = .ok () ↔
      callable = true ∧ (InstanceOf C args K.iterable ∨ InstanceOf C args K.noneType) ∧ (InstanceOf C kwargs K.dict ∨ InstanceOf C kwargs K.noneType)) ∧
    (opaqueFunctionChecks C K callable args kwargs ≠ .ok () → opaqueFunctionChecks C K callable args kwargs = .error .typeError) := by
  have h1 := C126_classes C args [K.iterable, K.noneType]
  have h2 := C126_classes C kwargs [K.dict, K.noneType]
  simp only [List.map_cons, List.map_nil, List.mem_cons, List.not_mem_nil, or_false, exists_eq_or_imp, exists_eq_left] at h1 h2
  cases callable
  · exact ⟨by simp [opaqueFunctionChecks], fun _ => rfl⟩
  by_cases a : InstanceOf C args K.iterable ∨ InstanceOf C args K.noneType
  · have e : opaqueFunctionChecks C K true args kwargs = ensureArgumentType C kwargs (.iterable [.cls K.dict, .cls K.noneType]) true true := by
      simp only [opaqueFunctionChecks, h1.1 a]
      rfl
    rw [e]
    by_cases b : InstanceOf C kwargs K.dict ∨ InstanceOf C kwargs K.noneType
    · rw [h2.1 b]
      exact ⟨by simp [a, b], fun h => absurd rfl h⟩
    · rw [h2.2 b]
      exact ⟨by simp [b], fun _ => rfl⟩
  · have e : opaqueFunctionChecks C K true args kwargs = .error .typeError := by
      simp only [opaqueFunctionChecks, h1.2 a]
      rfl
    rw [e]
    exact ⟨by simp [a], fun _ => rfl⟩

/-- C126.  So does OpaqueCoroutine with coroutine functions, and `ignore_context` must be a bool. -/
theorem C126_opaque_coroutine (C : PyClasses) (K : KnownClasses) (hb : C.members K.bool = none) (coroutine : Bool) (args kwargs ignoreContext : PyThing) :
    (opaqueCoroutineChecks C K coroutine args kwargs ignoreContext = .ok () ↔
      coroutine = true ∧ (InstanceOf C args K.iterable ∨ InstanceOf C args K.noneType) ∧ (InstanceOf C kwargs K.dict ∨ InstanceOf C kwargs K.noneType) ∧
        InstanceOf C ignoreContext K.bool) ∧
    (opaqueCoroutineChecks C K coroutine args kwargs ignoreContext ≠ .ok () → opaqueCoroutineChecks C K coroutine args kwargs ignoreContext = .error .typeError) := by
  have h1 := C126_classes C args [K.iterable, K.noneType]
  have h2 := C126_classes C kwargs [K.dict, K.noneType]
  have h3 := C126_class_partial C ignoreContext K.bool hb
  simp only [List.map_cons, List.map_nil, List.mem_cons, List.not_mem_nil, or_false, exists_eq_or_imp, exists_eq_left] at h1 h2
  cases coroutine
  · exact ⟨by simp [opaqueCoroutineChecks], fun _ => rfl⟩
  by_cases a : InstanceOf C args K.iterable ∨ InstanceOf C args K.noneType
  · by_cases b : InstanceOf C kwargs K.dict ∨ InstanceOf C kwargs K.noneType
    · have e : opaqueCoroutineChecks C K true args kwargs ignoreContext = ensureArgumentType C ignoreContext (.type K.bool) true true := by
        simp [opaqueCoroutineChecks, h1.1 a, h2.1 b]
      rw [e]
      by_cases c : InstanceOf C ignoreContext K.bool
      · rw [h3.1 c]
        exact ⟨by simp [a, b, c], fun h => absurd rfl h⟩
      · rw [h3.2 c]
        exact ⟨by simp [c], fun _ => rfl⟩
    · have e : opaqueCoroutineChecks C K true args kwargs ignoreContext = .error .typeError := by
        simp [opaqueCoroutineChecks, h1.1 a, h2.2 b]
      rw [e]
      exact ⟨by simp [b], fun _ => rfl⟩
  · have e : opaqueCoroutineChecks C K true args kwargs ignoreContext = .error .typeError := by
      simp [opaqueCoroutineChecks, h1.2 a]
    rw [e]
    exact ⟨by simp [a], fun _ => rfl⟩

/-- C126.  TimerAction accepts exactly texts, substitutions, iterables and floating point numbers as period, and iterables as actions; a period that is an integer is a
TypeError. -/
theorem C126_timer (C : PyClasses) (K : KnownClasses) (hi : C.members K.iterable = none) (period actions : PyThing) :
    (timerChecks C K period actions = .ok () ↔
      (InstanceOf C period K.str ∨ InstanceOf C period K.substitution ∨ InstanceOf C period K.iterable ∨ InstanceOf C period K.float) ∧ InstanceOf C actions K.iterable) ∧
    (timerChecks C K period actions ≠ .ok () → timerChecks C K period actions = .error .typeError) := by
  have h1 := C126_classes C period [K.str, K.substitution, K.iterable, K.float]
  have h2 := C126_class_partial C actions K.iterable hi
  simp only [List.map_cons, List.map_nil, List.mem_cons, List.not_mem_nil, or_false, exists_eq_or_imp, exists_eq_left] at h1
  by_cases a : InstanceOf C period K.str ∨ InstanceOf C period K.substitution ∨ InstanceOf C period K.iterable ∨ InstanceOf C period K.float
  · have e : timerChecks C K period actions = ensureArgumentType C actions (.type K.iterable) true true := by
      simp [timerChecks, h1.1 a]
    rw [e]
    by_cases b : InstanceOf C actions K.iterable
    · rw [h2.1 b]
      exact ⟨by simp [a, b], fun h => absurd rfl h⟩
    · rw [h2.2 b]
      exact ⟨by simp [b], fun _ => rfl⟩
  · have e : timerChecks C K period actions = .error .typeError := by
      simp [timerChecks, h1.2 a]
    rw [e]
    exact ⟨by simp [a], fun _ => rfl⟩

/-- C126.  SignalProcess accepts exactly texts and signals. -/
theorem C126_signal_process (C : PyClasses) (K : KnownClasses) (signal : PyThing) :
    (signalProcessCheck C K signal = .ok () ↔ InstanceOf C signal K.str ∨ InstanceOf C signal K.signals) ∧
    (signalProcessCheck C K signal ≠ .ok () → signalProcessCheck C K signal = .error .typeError) := by
  have h := C126_classes C signal [K.str, K.signals]
  simp only [List.map_cons, List.map_nil, List.mem_cons, List.not_mem_nil, or_false, exists_eq_or_imp, exists_eq_left] at h
  unfold signalProcessCheck
  by_cases a : InstanceOf C signal K.str ∨ InstanceOf C signal K.signals
  · rw [h.1 a]
    exact ⟨by simp [a], fun h => absurd rfl h⟩
  · rw [h.2 a]
    exact ⟨by simp [a], fun _ => rfl⟩

/-- C126.  EmitEvent accepts every event, and raises RuntimeError for whatever is neither an event nor a class of events. -/
theorem C126_emit_partial (C : PyClasses) (K : KnownClasses) (event : PyThing) :
    (InstanceOf C event K.event → emitEventCheck C K event = .ok ()) ∧
    (¬ InstanceOf C event K.event → ¬ SubclassOf C event K.event → emitEventCheck C K event = .error .runtimeError) := by
  obtain ⟨b, hb, hi⟩ := C126_is_a_subclass C event K.event
  unfold emitEventCheck
  rw [hb]
  cases b
  · exact ⟨fun h => absurd (hi.mpr (.inl h)) (by simp), fun _ _ => rfl⟩
  · refine ⟨fun _ => rfl, fun h1 h2 => ?_⟩
    rcases hi.mp rfl with h | h
    · exact absurd h h1
    · exact absurd h h2

/-- Some classes: 0 object, 1 type, 2 NoneType, 3 Iterable, 4 dict, 5 str, 6 int, 7 Signals (an enumeration of integers with 30 members), 8 EnumMeta, 9 Event, 10 Shutdown, 11 Substitution, 12 float, 13 bool. -/
def sampleClasses : PyClasses where
  sub c d := c == d || d == 0 || (d == 3 && (c == 4 || c == 5 || c == 8)) || (c == 7 && d == 6) || (c == 8 && d == 1) || (c == 10 && d == 9)
  metaOf c := if c = 7 then 8 else 1
  members c := if c = 7 then some 30 else none

def sampleKnown : KnownClasses := ⟨3, 2, 4, 5, 7, 9, 11, 12, 13⟩

/-- A signal is an integer; an integer is not a text; dictionaries can be iterated over; Shutdown is a class of events, and its instances are events. -/
example : InstanceOf sampleClasses (.inst 7) 6 ∧ ¬ (∃ c ∈ [5, 4], InstanceOf sampleClasses (.inst 6) c) ∧ sampleClasses.members 6 = none ∧
    InstanceOf sampleClasses (.inst 4) sampleKnown.iterable ∧ SubclassOf sampleClasses (.cls 10) sampleKnown.event ∧ InstanceOf sampleClasses (.inst 10) sampleKnown.event ∧
    ¬ InstanceOf sampleClasses (.cls 10) sampleKnown.event ∧ Mentions (.tuple [.other, .tuple [.cls 5]]) 5 :=
  ⟨rfl, by simp [InstanceOf, sampleClasses], rfl, rfl, ⟨10, rfl, rfl⟩, rfl, by simp [InstanceOf, sampleClasses, sampleKnown],
    .tuple _ (.tuple [.cls 5]) _ (by simp) (.tuple _ (.cls 5) _ (by simp) (.cls 5))⟩

/-- A timer of 5.0 seconds with a list of actions (dictionaries stand for them here) is accepted, one of 5 seconds is not; a coroutine without arguments. -/
example : sampleClasses.members sampleKnown.iterable = none ∧ sampleClasses.members sampleKnown.bool = none ∧ timerChecks sampleClasses sampleKnown (.inst 12) (.inst 4) = .ok () ∧
    timerChecks sampleClasses sampleKnown (.inst 6) (.inst 4) = .error .typeError ∧
    opaqueCoroutineChecks sampleClasses sampleKnown true (.inst 2) (.inst 2) (.inst 13) = .ok () := ⟨rfl, rfl, rfl, rfl, rfl⟩

example : OnlyTypes (.tuple [.cls 4, .tuple [.cls 5]]) ∧ (∃ c, Mentions (.tuple [.cls 4, .tuple [.cls 5]]) c ∧ InstanceOf sampleClasses (.inst 5) c) := by
  refine ⟨.tuple _ ?_, 5, .tuple _ (.tuple [.cls 5]) _ (by simp) (.tuple _ (.cls 5) _ (by simp) (.cls 5)), rfl⟩
  intro t ht
  simp only [List.mem_cons, List.not_mem_nil, or_false] at ht
  rcases ht with rfl | rfl
  · exact .cls 4
  · exact .tuple _ (by intro t ht; rw [List.mem_singleton.mp ht]; exact .cls 5)

/-- C126 fails for enumerations: given as the only type, the class is taken for the list of its members, and every argument, even a member, is a TypeError. -/
theorem C126_enumeration_violated (C : PyClasses) (c n : Nat) (hc : C.members c = some n) (o : PyThing) (name caller : Bool) :
    ensureArgumentType C o (.type c) name caller = .error .typeError := by
  unfold ensureArgumentType
  simp only [TypesArg.list, hc]
  cases name
  · rfl
  cases caller
  · rfl
  cases n <;> rfl

example : sampleClasses.members 7 = some 30 ∧ InstanceOf sampleClasses (.inst 7) 7 := ⟨rfl, rfl⟩

/-- C126 fails for classes: the documentation of `ensure_argument_type` says that an argument may be a subclass of one of the types, but the class of the argument is asked
instead of the argument. -/
theorem C126_subclass_violated (C : PyClasses) (d c : Nat) (h : ¬ InstanceOf C (.cls d) c) :
    ensureArgumentType C (.cls d) (.iterable [.cls c]) true true = .error .typeError :=
  (C126_classes C (.cls d) [c]).2 fun ⟨x, hx, hi⟩ => h (by rw [List.mem_singleton.mp hx] at hi; exact hi)

example : ¬ InstanceOf sampleClasses (.cls 10) 9 ∧ SubclassOf sampleClasses (.cls 10) 9 := ⟨by simp [InstanceOf, sampleClasses], 10, rfl, rfl⟩

/-- C126 fails for EmitEvent: the class of an event, given instead of an event, is accepted, and so it is emitted. -/
theorem C126_emit_class_violated (C : PyClasses) (K : KnownClasses) (event : PyThing) (h : SubclassOf C event K.event) : emitEventCheck C K event = .ok () := by
  obtain ⟨b, hb, hi⟩ := C126_is_a_subclass C event K.event
  unfold emitEventCheck
  rw [hb, hi.mpr (.inr h)]

end Verif
