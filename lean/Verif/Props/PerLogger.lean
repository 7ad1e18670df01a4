import Verif.Spec.PerLogger

namespace Verif

/-! ## C125 Formatters for single loggers -/

variable {F : Type}

theorem TraitHandler.run_append (h : TraitHandler F) (xs ys : List (TraitOp F)) : h.run (xs ++ ys) = (h.run xs).run ys := by
  induction xs generalizing h with
  | nil => rfl
  | cons x xs ih => exact ih _

theorem about_name {l : LoggerRef} {logger : String} : (l = .name logger ∨ l = .object logger) ↔ l.loggerName = logger := by
  cases l <;> simp [LoggerRef.loggerName]

theorem TraitHandler.wf_run (ops : List (TraitOp F)) : ∀ h : TraitHandler F, h.formatters.Wf → (h.run ops).formatters.Wf := by
  induction ops with
  | nil => exact fun _ h => h
  | cons op ops ih =>
    intro h hw
    refine ih _ ?_
    cases op with
    | setFor l f => exact hw.set _ _
    | unsetFor l =>
      simp only [TraitHandler.step]
      split
      · exact hw.erase _
      · exact hw
    | setFormatter f => exact hw

theorem TraitHandler.get?_step {h : TraitHandler F} (hw : h.formatters.Wf) (op : TraitOp F) (logger : String) :
    (h.step op).formatters.get? logger = match op with
      | .setFor l f => if l.loggerName = logger then some f else h.formatters.get? logger
      | .unsetFor l => if l.loggerName = logger then none else h.formatters.get? logger
      | .setFormatter _ => h.formatters.get? logger := by
  cases op with
  | setFor l f => exact Dict.get?_set _ _ _ _
  | unsetFor l =>
    simp only [TraitHandler.step]
    split
    · by_cases e : l.loggerName = logger
      · subst e; simp [Dict.get?_erase_self hw]
      · simp [e, Dict.get?_erase_ne _ e]
    · rename_i hn
      by_cases e : l.loggerName = logger
      · subst e
        rw [if_pos rfl]
        exact Dict.get?_none_of_not_mem fun hm => hn (Dict.has_iff.mpr hm)
      · simp [e]
  | setFormatter f => rfl

theorem TraitHandler.get?_run (ops : List (TraitOp F)) (logger : String) (f : F) :
    (({} : TraitHandler F).run ops).formatters.get? logger = some f ↔ LastSetFor logger ops f := by
  have hw0 : ({} : TraitHandler F).formatters.Wf := List.nodup_nil
  generalize hn : ops.length = n
  induction n generalizing ops with
  | zero =>
    have : ops = [] := List.length_eq_zero_iff.mp hn
    subst this
    simp [TraitHandler.run, LastSetFor]
  | succ n ih =>
    rcases List.eq_nil_or_concat ops with rfl | ⟨init, op, rfl⟩
    · cases hn
    rw [List.concat_eq_append] at hn ⊢
    have hl : init.length = n := by simpa using hn
    rw [TraitHandler.run_append]
    show (TraitHandler.step _ op).formatters.get? logger = some f ↔ _
    rw [TraitHandler.get?_step (TraitHandler.wf_run init _ hw0)]
    have keep : ¬ op.About logger → (LastSetFor logger init f ↔ LastSetFor logger (init ++ [op]) f) := by
      intro hab
      constructor
      · rintro ⟨b, l, a, rfl, h1, h2⟩
        refine ⟨b, l, a ++ [op], by simp, h1, ?_⟩
        intro o ho
        rcases List.mem_append.mp ho with ho | ho
        · exact h2 o ho
        · rw [List.mem_singleton.mp ho]; exact hab
      · rintro ⟨b, l, a, he, h1, h2⟩
        rcases List.eq_nil_or_concat a with rfl | ⟨a', x, rfl⟩
        · have : op = .setFor l f := by
            have := congrArg List.getLast? he
            simpa using this
          subst this
          exact absurd h1 hab
        · rw [List.concat_eq_append] at he h2
          have he' : init ++ [op] = (b ++ .setFor l f :: a') ++ [x] := by simpa using he
          have := List.append_inj' he' rfl
          exact ⟨b, l, a', this.1, h1, fun o ho => h2 o (by simp [ho])⟩
    have last : op.About logger → (LastSetFor logger (init ++ [op]) f ↔ ∃ l, op = .setFor l f) := by
      intro hab
      constructor
      · rintro ⟨b, l, a, he, h1, h2⟩
        rcases List.eq_nil_or_concat a with rfl | ⟨a', x, rfl⟩
        · refine ⟨l, ?_⟩
          have := congrArg List.getLast? he
          simpa using this
        · rw [List.concat_eq_append] at he h2
          have he' : init ++ [op] = (b ++ .setFor l f :: a') ++ [x] := by simpa using he
          have := List.append_inj' he' rfl
          have hx : op = x := by simpa using this.2
          exact absurd (hx ▸ hab) (h2 x (by simp))
      · rintro ⟨l, rfl⟩
        exact ⟨init, l, [], rfl, hab, by simp⟩
    cases op with
    | setFor l g =>
      dsimp only
      by_cases e : l.loggerName = logger
      · rw [if_pos e, last (about_name.mpr e)]
        constructor
        · intro h; exact ⟨l, by rw [Option.some.inj h]⟩
        · rintro ⟨l', he⟩; cases he; rfl
      · rw [if_neg e]
        exact (ih init hl).trans (keep fun h => e (about_name.mp h))
    | unsetFor l =>
      dsimp only
      by_cases e : l.loggerName = logger
      · rw [if_pos e, last (about_name.mpr e)]
        constructor
        · intro h; cases h
        · rintro ⟨l', he⟩; cases he
      · rw [if_neg e]
        exact (ih init hl).trans (keep fun h => e (about_name.mp h))
    | setFormatter g =>
      dsimp only
      exact (ih init hl).trans (keep fun h => h)

theorem TraitHandler.formatter_run (ops : List (TraitOp F)) (h : TraitHandler F) :
    (∀ f, LastSet ops f → (h.run ops).formatter = f) ∧ ((∀ op ∈ ops, ∀ g, op ≠ .setFormatter g) → (h.run ops).formatter = h.formatter) := by
  have quiet : ∀ (ops : List (TraitOp F)) (h : TraitHandler F), (∀ op ∈ ops, ∀ g, op ≠ .setFormatter g) → (h.run ops).formatter = h.formatter := by
    intro ops
    induction ops with
    | nil => intro h _; rfl
    | cons op ops ih =>
      intro h hq
      have := ih (h.step op) fun o ho => hq o (by simp [ho])
      show ((h.step op).run ops).formatter = _
      rw [this]
      cases op with
      | setFor l f => rfl
      | unsetFor l => simp only [TraitHandler.step]; split <;> rfl
      | setFormatter g => exact absurd rfl (hq _ (by simp) g)
  refine ⟨?_, quiet ops h⟩
  rintro f ⟨b, a, rfl, hq⟩
  rw [TraitHandler.run_append]
  show ((TraitHandler.step _ (.setFormatter f)).run a).formatter = f
  rw [quiet a _ hq]
  rfl

/-- C125.  A record is formatted with the formatter that was last set for its logger, whatever was done for other loggers and for the handler as a whole. -/
theorem C125_own_formatter (standard : F) (ops : List (TraitOp F)) (logger : String) (f : F) (h : LastSetFor logger ops f) :
    (({} : TraitHandler F).run ops).formatterOf standard logger = f := by
  unfold TraitHandler.formatterOf
  rw [(TraitHandler.get?_run ops logger f).mpr h]

/-- By its name and as an object, the logger is the same. -/
example : LastSetFor "a" [TraitOp.setFor (.object "a") 1, .unsetFor (.name "a"), .setFor (.name "a") 2, .setFor (.object "b") 3, .setFormatter (some 4), .unsetFor (.name "b")] 2 :=
  ⟨[.setFor (.object "a") 1, .unsetFor (.name "a")], .name "a", [.setFor (.object "b") 3, .setFormatter (some 4), .unsetFor (.name "b")], rfl, .inl rfl, by
    intro op ho
    simp only [List.mem_cons, List.not_mem_nil, or_false] at ho
    rcases ho with rfl | rfl | rfl <;> simp [TraitOp.About]⟩

/-- C125.  If no formatter is set for the logger, or it was unset since, the record is formatted with the one of the handler, and with the standard one if there is none. -/
theorem C125_handler_formatter (standard : F) (ops : List (TraitOp F)) (logger : String) (h : ∀ f, ¬ LastSetFor logger ops f) :
    (∀ f, LastSet ops (some f) → (({} : TraitHandler F).run ops).formatterOf standard logger = f) ∧
    (LastSet ops none ∨ (∀ op ∈ ops, ∀ g, op ≠ .setFormatter g) → (({} : TraitHandler F).run ops).formatterOf standard logger = standard) := by
  have hn : (({} : TraitHandler F).run ops).formatters.get? logger = none := by
    cases hg : (({} : TraitHandler F).run ops).formatters.get? logger with
    | none => rfl
    | some f => exact absurd ((TraitHandler.get?_run ops logger f).mp hg) (h f)
  have hr := TraitHandler.formatter_run ops ({} : TraitHandler F)
  unfold TraitHandler.formatterOf
  rw [hn]
  constructor
  · intro f hf
    dsimp only
    rw [hr.1 _ hf]
    rfl
  · rintro (hf | hf)
    · dsimp only
      rw [hr.1 _ hf]
      rfl
    · dsimp only
      rw [hr.2 hf]
      rfl

example : (∀ f, ¬ LastSetFor "a" [TraitOp.setFor (.object "a") 1, .setFormatter (some 4), .unsetFor (.name "a")] f) ∧
    LastSet [TraitOp.setFor (.object "a") 1, .setFormatter (some 4), .unsetFor (.name "a")] (some 4) := by
  refine ⟨fun f h => ?_, [.setFor (.object "a") 1], [.unsetFor (.name "a")], rfl, by simp⟩
  have := C125_own_formatter 0 _ _ _ h
  have h2 := (TraitHandler.get?_run _ _ _).mpr h
  cases h2

/-! ### The module -/

theorem collectHandlers_get? (l : Dict ModObj) (hl : l.Wf) : ∀ (d : Dict Nat) (name : String), (collectHandlers d l).get? name =
    match l.get? name with
    | some (.handlerClass id) => if "_".toList.isPrefixOf name.toList then d.get? name else some id
    | _ => d.get? name := by
  induction l with
  | nil => intro d name; rfl
  | cons x l ih =>
    obtain ⟨n, o⟩ := x
    have hl' : n ∉ Dict.keys l ∧ Dict.Wf l := List.nodup_cons.mp hl
    intro d name
    have hrest : n = name → Dict.get? l name = none := fun e => Dict.get?_none_of_not_mem (e ▸ hl'.1)
    unfold collectHandlers
    by_cases hp : "_".toList.isPrefixOf n.toList
    · rw [if_pos hp, ih hl'.2]
      by_cases e : n = name
      · rw [hrest e]
        subst e
        rw [show Dict.get? ((n, o) :: l) n = some o by simp [Dict.get?]]
        cases o with
        | other i => rfl
        | handlerClass id => exact (if_pos hp).symm
      · rw [show Dict.get? ((n, o) :: l) name = Dict.get? l name by simp [Dict.get?, e]]
    · rw [if_neg hp]
      cases o with
      | other i =>
        dsimp only
        rw [ih hl'.2]
        by_cases e : n = name
        · rw [hrest e]
          subst e
          rw [show Dict.get? ((n, ModObj.other i) :: l) n = some (.other i) by simp [Dict.get?]]
        · rw [show Dict.get? ((n, ModObj.other i) :: l) name = Dict.get? l name by simp [Dict.get?, e]]
      | handlerClass id =>
        dsimp only
        rw [ih hl'.2]
        by_cases e : n = name
        · rw [hrest e]
          subst e
          rw [show Dict.get? ((n, ModObj.handlerClass id) :: l) n = some (.handlerClass id) by simp [Dict.get?]]
          dsimp only
          rw [if_neg hp]
          exact Dict.get?_set_self _ _ _
        · rw [show Dict.get? ((n, ModObj.handlerClass id) :: l) name = Dict.get? l name by simp [Dict.get?, e], Dict.get?_set_ne _ _ e]

/-- A name that begins with an underscore. -/
def Hidden (name : String) : Prop := ∃ rest, name.toList = '_' :: rest

theorem hidden_iff (name : String) : "_".toList.isPrefixOf name.toList = true ↔ Hidden name := by
  rw [List.isPrefixOf_iff_prefix]
  unfold Hidden
  constructor
  · rintro ⟨t, ht⟩; exact ⟨t, by rw [← ht]; rfl⟩
  · rintro ⟨t, ht⟩; exact ⟨t, by rw [ht]; rfl⟩

/-- C125.  Every class of handlers of Python, of `logging.handlers` first and of `logging` otherwise, is an attribute of `launch.logging.handlers` with formatters for single
loggers. -/
theorem C125_handler_classes (logging handlers : Dict ModObj) (h1 : logging.Wf) (h2 : handlers.Wf) (name : String) (hn : ¬ Hidden name) (id : Nat) :
    (handlers.get? name = some (.handlerClass id) → wrapperAttr logging handlers name = .ok (.perLogger id)) ∧
    (logging.get? name = some (.handlerClass id) → (∀ i, handlers.get? name ≠ some (.handlerClass i)) → wrapperAttr logging handlers name = .ok (.perLogger id)) := by
  have hn' : ¬ ("_".toList.isPrefixOf name.toList = true) := fun h => hn ((hidden_iff name).mp h)
  unfold wrapperAttr
  rw [collectHandlers_get? handlers h2, collectHandlers_get? logging h1]
  constructor
  · intro h
    rw [h]
    dsimp only
    rw [if_neg hn']
  · intro h hh
    have : (match handlers.get? name with
        | some (.handlerClass id) => if "_".toList.isPrefixOf name.toList then (match logging.get? name with
            | some (.handlerClass id) => if "_".toList.isPrefixOf name.toList then Dict.get? ([] : Dict Nat) name else some id
            | _ => Dict.get? [] name) else some id
        | _ => (match logging.get? name with
            | some (.handlerClass id) => if "_".toList.isPrefixOf name.toList then Dict.get? ([] : Dict Nat) name else some id
            | _ => Dict.get? [] name)) = some id := by
      rw [h]
      dsimp only
      rw [if_neg hn']
      split
      · rename_i i hi
        exact absurd hi (hh i)
      · rfl
    rw [this]

/-- C125.  Other names are those of `logging.handlers`. -/
theorem C125_other_names (logging handlers : Dict ModObj) (h1 : logging.Wf) (h2 : handlers.Wf) (name : String) (i : Nat)
    (h : handlers.get? name = some (.other i)) (hl : ∀ j, logging.get? name ≠ some (.handlerClass j)) :
    wrapperAttr logging handlers name = .ok (.plain (.other i)) := by
  have hc : (collectHandlers (collectHandlers [] logging) handlers).get? name = none := by
    rw [collectHandlers_get? handlers h2, h]
    dsimp only
    rw [collectHandlers_get? logging h1]
    split
    · rename_i j hj; exact absurd hj (hl j)
    · rfl
  unfold wrapperAttr
  rw [hc, h]

/-- C125.  Names with an underscore at the beginning are those of `logging.handlers` too, and classes with such names are as they are there. -/
theorem C125_hidden_names (logging handlers : Dict ModObj) (h1 : logging.Wf) (h2 : handlers.Wf) (name : String) (hn : Hidden name) :
    (∀ o, handlers.get? name = some o → wrapperAttr logging handlers name = .ok (.plain o)) ∧
    (handlers.get? name = none → wrapperAttr logging handlers name = .error .attributeError) := by
  have hn' := (hidden_iff name).mpr hn
  have hc : (collectHandlers (collectHandlers [] logging) handlers).get? name = none := by
    have hl : (collectHandlers [] logging).get? name = none := by
      rw [collectHandlers_get? logging h1]
      split
      · rw [if_pos hn']; rfl
      · rfl
    rw [collectHandlers_get? handlers h2]
    split
    · rw [if_pos hn']; exact hl
    · exact hl
  unfold wrapperAttr
  rw [hc]
  exact ⟨fun o ho => by rw [ho], fun ho => by rw [ho]⟩

example : Hidden "_StderrHandler" ∧ (wrapperAttr [("_StderrHandler", .handlerClass 2)] [("_Base", .handlerClass 3)] "_StderrHandler").toOption = none ∧
    (wrapperAttr [("_StderrHandler", .handlerClass 2)] [("_Base", .handlerClass 3)] "_Base").toOption = some (.plain (.handlerClass 3)) := by
  refine ⟨?_, by decide +kernel, by decide +kernel⟩
  rw [← hidden_iff]
  decide +kernel

/-- Parts of the modules of Python. -/
def samplePyLogging : Dict ModObj := [("FileHandler", .handlerClass 0), ("Formatter", .other 1), ("_StderrHandler", .handlerClass 2)]
def samplePyHandlers : Dict ModObj := [("MemoryHandler", .handlerClass 3), ("logging", .other 4)]

example : samplePyLogging.Wf ∧ samplePyHandlers.Wf ∧ ¬ Hidden "FileHandler" ∧ (wrapperAttr samplePyLogging samplePyHandlers "FileHandler").toOption = some (.perLogger 0) ∧
    (wrapperAttr samplePyLogging samplePyHandlers "MemoryHandler").toOption = some (.perLogger 3) ∧
    (wrapperAttr samplePyLogging samplePyHandlers "logging").toOption = some (.plain (.other 4)) := by
  refine ⟨by unfold Dict.Wf; decide +kernel, by unfold Dict.Wf; decide +kernel, ?_, by decide +kernel, by decide +kernel, by decide +kernel⟩
  rw [← hidden_iff]
  decide +kernel

/-- C125 fails for the names of the module itself: `launch.logging.handlers.with_per_logger_formatting`, with which users could derive classes from handlers of their own, cannot be
reached, since the wrapper remembers `logging.handlers` instead of the module it wraps. -/
theorem C125_own_names_violated (logging handlers : Dict ModObj) (h1 : logging.Wf) (h2 : handlers.Wf) (name : String)
    (hl : ∀ j, logging.get? name ≠ some (.handlerClass j)) (h : handlers.get? name = none) : wrapperAttr logging handlers name = .error .attributeError := by
  have hc : (collectHandlers (collectHandlers [] logging) handlers).get? name = none := by
    rw [collectHandlers_get? handlers h2, h]
    dsimp only
    rw [collectHandlers_get? logging h1]
    split
    · rename_i j hj; exact absurd hj (hl j)
    · rfl
  unfold wrapperAttr
  rw [hc, h]

example : (∀ j, samplePyLogging.get? "with_per_logger_formatting" ≠ some (.handlerClass j)) ∧ samplePyHandlers.get? "with_per_logger_formatting" = none := by
  refine ⟨?_, by decide +kernel⟩
  have : samplePyLogging.get? "with_per_logger_formatting" = none := by decide +kernel
  intro j
  rw [this]
  simp

end Verif
