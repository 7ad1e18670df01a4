import Verif.Model.TestLoad
import Verif.Props.FrontendMore

/-! # C88: parameters and arguments of launch tests; C89: decorators; C90: ReadyToTest -/

namespace Verif

variable {V : Type}

/-! ## Names -/

theorem stripChars_id (s : List Char) (h : ∀ c ∈ s, isSpace c = false) : stripChars s = s := by
  have key : ∀ l : List Char, (∀ c ∈ l, isSpace c = false) → l.dropWhile isSpace = l := by
    intro l hl
    cases l with
    | nil => rfl
    | cons c cs => rw [List.dropWhile_cons, hl c (List.mem_cons_self ..)]; rfl
  unfold stripChars
  rw [key s h, key s.reverse (fun c hc => h c (List.mem_reverse.1 hc)), List.reverse_reverse]

theorem stripChars_blank (s : List Char) : stripChars (' ' :: s) = stripChars s := by
  unfold stripChars
  rw [List.dropWhile_cons]
  rfl

/-- A name: not empty, without commas and blanks. -/
def IsArgName (n : String) : Prop := n ≠ "" ∧ ∀ c ∈ n.toList, c ≠ ',' ∧ isSpace c = false

/-- C88 (names): the names may be written with a comma and a blank between them. -/
theorem C88_names (names : List String) (hn : ∀ n ∈ names, IsArgName n) :
    paramNames (String.ofList ([',', ' '].intercalate (names.map String.toList))) = names := by
  cases names with
  | nil => decide +kernel
  | cons n ns =>
    have h1 : ∀ (ns : List String) (n : String), [',', ' '].intercalate ((n :: ns).map String.toList) =
        [','].intercalate (n.toList :: ns.map fun x => ' ' :: x.toList) := by
      intro ns
      induction ns with
      | nil => intro n; simp [List.intercalate]
      | cons m ms ih =>
        intro n
        have := ih m
        cases ms with
        | nil => simp [List.intercalate]
        | cons k ks =>
          simp only [List.map_cons, List.intercalate, List.intersperse_cons_cons, List.flatten_cons] at this ⊢
          rw [this]
          simp
    unfold paramNames
    rw [String.toList_ofList, h1, C79_round_trip ',' _ (by simp)]
    · simp only [List.map_cons, List.map_map]
      have h2 : ∀ x ∈ n :: ns, stripChars x.toList = x.toList ∧ x.toList.isEmpty = false := by
        intro x hx
        have := hn x hx
        refine ⟨stripChars_id _ fun c hc => (this.2 c hc).2, ?_⟩
        cases hl : x.toList with
        | nil => exact absurd (by rw [← String.ofList_toList (s := x), hl]) this.1
        | cons _ _ => rfl
      have h3 : (ns.map (stripChars ∘ fun x => ' ' :: x.toList)) = ns.map String.toList := by
        apply List.map_congr_left
        intro x hx
        simp only [Function.comp_apply, stripChars_blank]
        exact (h2 x (List.mem_cons_of_mem _ hx)).1
      rw [h3, (h2 n (List.mem_cons_self ..)).1]
      have h4 : (n.toList :: ns.map String.toList).filter (fun x => !x.isEmpty) = n.toList :: ns.map String.toList := by
        rw [List.filter_eq_self]
        intro x hx
        rcases List.mem_cons.1 hx with rfl | hx
        · simp [(h2 n (List.mem_cons_self ..)).2]
        · obtain ⟨y, hy, rfl⟩ := List.mem_map.1 hx
          simp [(h2 y (List.mem_cons_of_mem _ hy)).2]
      rw [h4]
      simp
    · intro v hv
      rcases List.mem_cons.1 hv with rfl | hv
      · intro hc; exact ((hn n (List.mem_cons_self ..)).2 _ hc).1 rfl
      · obtain ⟨y, hy, rfl⟩ := List.mem_map.1 hv
        intro hc
        rcases List.mem_cons.1 hc with h | hc
        · exact absurd h (by decide)
        · exact ((hn y (List.mem_cons_of_mem _ hy)).2 _ hc).1 rfl

/-! ## Parameters -/

theorem zipDict_get (ns : List String) (vs : List V) (d : Dict V) (hn : ns.Nodup) (k : String) :
    (zipDict ns vs d).get? k = (((ns.zip vs).find? fun p => p.1 = k).map (·.2)).or (d.get? k) := by
  induction ns generalizing vs d with
  | nil => simp [zipDict]
  | cons n ns ih =>
    cases vs with
    | nil => simp [zipDict]
    | cons v vs =>
      rw [List.nodup_cons] at hn
      rw [zipDict, ih vs _ hn.2, List.zip_cons_cons, List.find?_cons]
      by_cases hk : n = k
      · subst hk
        have : ((ns.zip vs).find? fun p => decide (p.1 = n)) = none := by
          rw [List.find?_eq_none]
          intro p hp hpn
          have := (List.of_mem_zip hp).1
          simp only [decide_eq_true_eq] at hpn
          exact hn.1 (hpn ▸ this)
        simp [this]
      · simp [hk, Dict.get?_set_ne _ _ hk]

/-- C88 (parameters): there is a run for each value, in order; in it, each parameter has its component.  A value that is no tuple is the one component.
Missing: the number of components has to be the number of names, see below. -/
theorem C88_parameters_partial (argnames : String) (values : List (ParamValue V)) (i : Nat) (vs : List V)
    (hx : values[i]? = some (.tuple vs) ∨ ∃ v, values[i]? = some (.other v) ∧ vs = [v])
    (hn : (paramNames argnames).Nodup) (hl : vs.length = (paramNames argnames).length) :
    (paramRuns argnames values).length = values.length ∧
      ∃ p, (paramRuns argnames values)[i]? = some p ∧
        ∀ (j : Nat) (n : String), (paramNames argnames)[j]? = some n → ∃ v, vs[j]? = some v ∧ p.get? n = some v := by
  obtain ⟨x, hx, ht⟩ : ∃ x, values[i]? = some x ∧ x.toTuple = vs := by
    rcases hx with h | ⟨v, h, rfl⟩
    · exact ⟨_, h, rfl⟩
    · exact ⟨_, h, rfl⟩
  refine ⟨by simp [paramRuns], _, by simp only [paramRuns, List.getElem?_map, hx]; rfl, ?_⟩
  intro j n hj
  have hj1 : j < (paramNames argnames).length := (List.getElem?_eq_some_iff.1 hj).1
  have hj2 : j < vs.length := by omega
  refine ⟨vs[j], List.getElem?_eq_getElem hj2, ?_⟩
  rw [zipDict_get _ _ _ hn, ht]
  clear ht hx
  generalize paramNames argnames = ns at *
  have key : ∀ (ns : List String) (vs : List V) (j : Nat) (h1 : ns[j]? = some n) (h2 : j < vs.length), ns.Nodup →
      ((ns.zip vs).find? fun p => p.1 = n) = some (n, vs[j]) := by
    intro ns
    induction ns with
    | nil => intro vs j h1; simp at h1
    | cons m ms ih =>
      intro vs j h1 h2 hn
      rw [List.nodup_cons] at hn
      cases vs with
      | nil => simp at h2
      | cons v vs =>
        cases j with
        | zero =>
          simp only [List.getElem?_cons_zero, Option.some.injEq] at h1
          subst h1
          simp
        | succ j =>
          simp only [List.getElem?_cons_succ] at h1
          have hm : m ≠ n := fun h => hn.1 (h ▸ List.mem_of_getElem? h1)
          rw [List.zip_cons_cons, List.find?_cons]
          simp only [hm, decide_false]
          exact ih vs j h1 (by simpa using h2) hn.2
  rw [key ns vs j hj hj2 hn]
  rfl

/-- C88 (validation): a run is accepted exactly if its parameters are the arguments of `generate_test_description`. -/
theorem C88_validate (baseArgs : List String) (runs : List (Dict V)) :
    (∃ u, validateRuns baseArgs runs = .ok u) ↔ ∀ p ∈ runs, ∀ a, a ∈ p.keys ↔ a ∈ baseArgs := by
  have one : ∀ p : Dict V, validateRun baseArgs p = .ok () ↔ ∀ a, a ∈ p.keys ↔ a ∈ baseArgs := by
    intro p
    unfold validateRun
    split
    · rename_i h
      simp only [List.any_eq_true, Bool.not_eq_true', List.contains_eq_mem, decide_eq_false_iff_not] at h
      obtain ⟨a, h1, h2⟩ := h
      exact ⟨(fun h => nomatch h), fun h => absurd ((h a).1 h1) h2⟩
    · rename_i h1
      split
      · rename_i h
        simp only [List.any_eq_true, Bool.not_eq_true', List.contains_eq_mem, decide_eq_false_iff_not] at h
        obtain ⟨a, h1, h2⟩ := h
        exact ⟨(fun h => nomatch h), fun h => absurd ((h a).2 h1) h2⟩
      · rename_i h2
        simp only [Bool.not_eq_true, List.any_eq_false, Bool.not_eq_true', List.contains_eq_mem, decide_eq_true_eq,
          Bool.not_eq_false] at h1 h2
        exact ⟨fun _ a => ⟨fun h => by simpa using h1 a h, fun h => by simpa using h2 a h⟩, fun _ => rfl⟩
  induction runs with
  | nil => simp [validateRuns]
  | cons p ps ih =>
    simp only [List.forall_mem_cons, ← ih]
    rw [← one p, validateRuns]
    cases validateRun baseArgs p with
    | ok u => simp
    | error e => simp

/-- C88 is violated for too many components: they are dropped silently. -/
theorem C88_extra_values_violated (argnames : String) (vs extra : List V) (h : vs.length = (paramNames argnames).length) :
    paramRuns argnames [.tuple (vs ++ extra)] = paramRuns argnames [.tuple vs] := by
  have : ∀ (ns : List String) (vs : List V) (d : Dict V), vs.length = ns.length → zipDict ns (vs ++ extra) d = zipDict ns vs d := by
    intro ns
    induction ns with
    | nil => intro vs d h; cases vs with
      | nil => simp [zipDict]
      | cons _ _ => simp at h
    | cons n ns ih =>
      intro vs d h
      cases vs with
      | nil => simp at h
      | cons v vs => simp only [List.cons_append, zipDict]; exact ih vs _ (by simpa using h)
  simp only [paramRuns, List.map_cons, List.map_nil, ParamValue.toTuple, this _ _ _ h]

/-- C88 is violated for a single parameter whose value is a tuple (a range, a pair of coordinates): it gets the first component only, and an empty tuple
leaves it without value.  With pytest's decorator, which is said to behave alike, the value would be the tuple. -/
theorem C88_tuple_violated (name : String) (h : paramNames name = [name]) (v : V) (vs : List V) :
    paramRuns name [.tuple (v :: vs)] = [[(name, v)]] ∧ paramRuns name [ParamValue.tuple ([] : List V)] = [[]] := by
  simp [paramRuns, h, ParamValue.toTuple, zipDict, Dict.set]

/-! ## Arguments of tests -/

theorem get?_bindMatching (ps : List String) (d : Dict V) (k : String) :
    (bindMatching ps d).get? k = if k ∈ ps then d.get? k else none := by
  induction d with
  | nil => simp [bindMatching, Dict.get?]
  | cons p d ih =>
    obtain ⟨k', v⟩ := p
    unfold bindMatching at ih ⊢
    rw [List.filter_cons]
    by_cases hk : k' ∈ ps
    · simp only [List.contains_eq_mem, hk, decide_true, if_true, Dict.get?]
      by_cases hkk : k' = k
      · subst hkk; simp [hk]
      · simp only [hkk, if_false]; simpa using ih
    · simp only [List.contains_eq_mem, hk, decide_false, Bool.false_eq_true, if_false, Dict.get?]
      by_cases hkk : k' = k
      · subst hkk
        simp only [hk, if_false] at ih ⊢
        simpa using ih
      · simp only [hkk, if_false]; simpa using ih

/-- C88 (arguments of tests of the active processes): an argument gets the object of its name that the run provides, otherwise the parameter of the run,
otherwise what the test description returned; nothing else is passed. -/
theorem C88_active_arguments (o : RunObjects V) (testContext params : Dict V) (hp : params.Wf) (arguments : List String) (a : String) :
    (bindMatching arguments (activeArgs o testContext params)).get? a =
      if a ∉ arguments then none
      else if a = "launch_service" then some o.launchService
      else if a = "proc_info" then some o.procInfo
      else if a = "proc_output" then some o.procOutput
      else if a = "test_args" then some o.testArgs
      else (params.get? a).or (testContext.get? a) := by
  rw [get?_bindMatching]
  by_cases h : a ∈ arguments
  · simp only [h, not_true_eq_false, if_false, if_true, activeArgs]
    rw [Dict.get?_update _ _ _ (by simp [Dict.Wf, Dict.keys]), Dict.get?_update _ _ _ hp]
    simp only [Dict.get?, eq_comm (b := a)]
    repeat' split
    all_goals rfl
  · simp [h]

/-- C88 (arguments of tests after shutdown): the same with the final records of processes and output; there is no launch service. -/
theorem C88_shutdown_arguments (o : RunObjects V) (testContext params : Dict V) (hp : params.Wf) (arguments : List String) (a : String) :
    (bindMatching arguments (shutdownArgs o testContext params)).get? a =
      if a ∉ arguments then none
      else if a = "proc_info" then some o.finalProcInfo
      else if a = "proc_output" then some o.finalProcOutput
      else if a = "test_args" then some o.testArgs
      else (params.get? a).or (testContext.get? a) := by
  rw [get?_bindMatching]
  by_cases h : a ∈ arguments
  · simp only [h, not_true_eq_false, if_false, if_true, shutdownArgs]
    rw [Dict.get?_update _ _ _ (by simp [Dict.Wf, Dict.keys]), Dict.get?_update _ _ _ hp]
    simp only [Dict.get?, eq_comm (b := a)]
    repeat' split
    all_goals rfl
  · simp [h]

/-- C88 (tests): every test of a module is either one of the active processes or one after shutdown, depending on its class. -/
theorem C88_tests (post : Nat → Bool) (classes : List (Nat × List String)) (c : Nat) (m : String) :
    (((c, m) ∈ loadTests post false classes ∨ (c, m) ∈ loadTests post true classes) ↔ ∃ ms, (c, ms) ∈ classes ∧ m ∈ ms) ∧
      ((c, m) ∈ loadTests post false classes → post c = false) ∧ ((c, m) ∈ loadTests post true classes → post c = true) := by
  have key : ∀ b, (c, m) ∈ loadTests post b classes ↔ post c = b ∧ ∃ ms, (c, ms) ∈ classes ∧ m ∈ ms := by
    intro b
    simp only [loadTests, List.mem_flatMap]
    constructor
    · rintro ⟨⟨c', ms⟩, h1, h2⟩
      split at h2
      · rename_i hb
        obtain ⟨m', h3, h4⟩ := List.mem_map.1 h2
        simp only [Prod.mk.injEq] at h4
        obtain ⟨rfl, rfl⟩ := h4
        exact ⟨hb, ms, h1, h3⟩
      · cases h2
    · rintro ⟨hb, ms, h1, h2⟩
      exact ⟨(c, ms), h1, by rw [if_pos hb]; exact List.mem_map.2 ⟨m, h2, rfl⟩⟩
  refine ⟨?_, fun h => ((key _).1 h).1, fun h => ((key _).1 h).1⟩
  rw [key, key]
  constructor
  · rintro (h | h) <;> exact h.2
  · intro h
    cases hp : post c with
    | false => exact .inl ⟨rfl, h⟩
    | true => exact .inr ⟨rfl, h⟩

example : paramNames "config, port ,name," = ["config", "port", "name"] := by decide +kernel

example : ∀ n ∈ ["config", "port"], IsArgName n := by
  intro n hn
  rcases List.mem_cons.1 hn with rfl | hn
  · exact ⟨by decide, by decide⟩
  · rw [List.mem_singleton.1 hn]; exact ⟨by decide, by decide⟩

example : (paramRuns "config, port" [ParamValue.tuple [1, 2], .tuple [3, 4]]) = [[("config", 1), ("port", 2)], [("config", 3), ("port", 4)]] := by
  decide +kernel

example : (validateRuns ["port", "config"] (paramRuns "config, port" [ParamValue.tuple [1, 2]])).isOk = true := by decide +kernel

example : (validateRuns ["range"] (paramRuns "range" [ParamValue.tuple [1, 2]])).isOk = true := by decide +kernel

/-! ## Decorators -/

/-- The timeout that was given last. -/
def lastTimeout : List Deco → Option Nat
  | [] => none
  | .timeout t :: ds => (lastTimeout ds).or (some t)
  | _ :: ds => lastTimeout ds

theorem decorate_plain (ds : List Deco) (h : .parametrize ∉ ds) (s : DecoState) (hs : s.inner = none)
    (hk : s.outer.markers = none ∧ s.keepAlive = [] ∨ s.outer.markers = some 0 ∧ s.keepAlive = [true]) :
    (ds.foldl DecoState.apply s).inner = none ∧ (ds.foldl DecoState.apply s).outer.timeout = (lastTimeout ds).or s.outer.timeout ∧
      (((ds.foldl DecoState.apply s).outer.markers = none ∧ (ds.foldl DecoState.apply s).keepAlive = [] ∧ .keepAlive ∉ ds ∧ s.outer.markers = none) ∨
        ((ds.foldl DecoState.apply s).outer.markers = some 0 ∧ (ds.foldl DecoState.apply s).keepAlive = [true] ∧ (.keepAlive ∈ ds ∨ s.outer.markers = some 0))) := by
  induction ds generalizing s with
  | nil =>
    refine ⟨hs, by simp [lastTimeout], ?_⟩
    rcases hk with ⟨h1, h2⟩ | ⟨h1, h2⟩
    · exact .inl ⟨h1, h2, by simp, h1⟩
    · exact .inr ⟨h1, h2, .inr h1⟩
  | cons d ds ih =>
    have hds : .parametrize ∉ ds := fun hh => h (List.mem_cons_of_mem _ hh)
    simp only [List.foldl_cons]
    cases d with
    | parametrize => exact absurd (List.mem_cons_self ..) h
    | timeout t =>
      have := ih hds (s.apply (.timeout t)) hs hk
      refine ⟨this.1, ?_, ?_⟩
      · rw [this.2.1]; simp [DecoState.apply, lastTimeout]
      · simpa [DecoState.apply] using this.2.2
    | keepAlive =>
      rcases hk with ⟨h1, h2⟩ | ⟨h1, h2⟩
      · have ha : s.apply .keepAlive = { s with outer := { s.outer with markers := some 0 }, keepAlive := [true] } := by
          simp [DecoState.apply, h1, h2]
        have := ih hds (s.apply .keepAlive) (by rw [ha]; exact hs) (.inr (by rw [ha]; exact ⟨rfl, rfl⟩))
        rw [ha] at this ⊢
        refine ⟨this.1, by rw [this.2.1]; rfl, ?_⟩
        rcases this.2.2 with h3 | h3
        · exact absurd h3.2.2.2 (by simp)
        · exact .inr ⟨h3.1, h3.2.1, .inl (List.mem_cons_self ..)⟩
      · have ha : s.apply .keepAlive = s := by
          obtain ⟨⟨m, t⟩, i, k⟩ := s
          simp only at h1 h2
          subst h1 h2
          rfl
        have := ih hds s hs (.inr ⟨h1, h2⟩)
        rw [ha]
        refine ⟨this.1, by rw [this.2.1]; rfl, ?_⟩
        rcases this.2.2 with h3 | h3
        · rw [h1] at h3; exact absurd h3.2.2.2 (by simp)
        · exact .inr ⟨h3.1, h3.2.1, .inl (List.mem_cons_self ..)⟩

/-- C89 (decorators below `parametrize`, or without it): a run is kept alive exactly if one of them says so, and has the timeout of the topmost one. -/
theorem C89_decorators_partial (ds : List Deco) (h : .parametrize ∉ ds) (b : Bool) :
    let s := decorate (ds ++ if b then [.parametrize] else [])
    s.runKeepAlive = ds.contains .keepAlive ∧ s.runTimeout = (lastTimeout ds).getD 15 := by
  have hp := decorate_plain ds h {} rfl (.inl ⟨rfl, rfl⟩)
  have hr : (decorate (ds ++ if b then [.parametrize] else [])).runAttrs = (ds.foldl DecoState.apply {}).outer ∧
      (decorate (ds ++ if b then [.parametrize] else [])).keepAlive = (ds.foldl DecoState.apply {}).keepAlive := by
    cases b with
    | false => simp [decorate, DecoState.runAttrs, hp.1]
    | true =>
      simp only [decorate, if_true, List.foldl_append, List.foldl_cons, List.foldl_nil]
      simp [DecoState.apply, hp.1, DecoState.runAttrs]
  simp only
  constructor
  · unfold DecoState.runKeepAlive
    rw [hr.1, hr.2]
    rcases hp.2.2 with ⟨h1, _, h3, _⟩ | ⟨h1, h2, h3⟩
    · rw [h1]; simp [h3]
    · rw [h1, h2]
      rcases h3 with h3 | h3
      · simp [h3]
      · simp at h3
  · unfold DecoState.runTimeout
    rw [hr.1, hp.2.1]
    simp

theorem apply_after (s : DecoState) (i : FnAttrs) (hi : s.inner = some i) (ds : List Deco) :
    (ds.foldl DecoState.apply s).inner = some i := by
  induction ds generalizing s with
  | nil => exact hi
  | cons d ds ih =>
    refine ih _ ?_
    cases d with
    | keepAlive => simp only [DecoState.apply]; split <;> exact hi
    | timeout t => exact hi
    | parametrize => simp only [DecoState.apply, hi]

/-- C89 is violated for decorators above `parametrize`: they have no effect on the runs, unless there is `keep_alive` below as well. -/
theorem C89_above_parametrize_violated (below above : List Deco) (h : .parametrize ∉ below) (hk : .keepAlive ∉ below) :
    (decorate (below ++ .parametrize :: above)).runKeepAlive = false ∧
      (decorate (below ++ .parametrize :: above)).runTimeout = (lastTimeout below).getD 15 := by
  have hp := decorate_plain below h {} rfl (.inl ⟨rfl, rfl⟩)
  have hm : (below.foldl DecoState.apply {}).outer.markers = none := by
    rcases hp.2.2 with h1 | h1
    · exact h1.1
    · rcases h1.2.2 with h2 | h2
      · exact absurd h2 hk
      · simp at h2
  have hin : (decorate (below ++ .parametrize :: above)).inner = some (below.foldl DecoState.apply {}).outer := by
    rw [decorate, List.foldl_append, List.foldl_cons]
    exact apply_after _ _ (by simp [DecoState.apply, hp.1]) above
  constructor
  · simp [DecoState.runKeepAlive, DecoState.runAttrs, hin, hm]
  · simp [DecoState.runTimeout, DecoState.runAttrs, hin, hp.2.1]

example : (decorate [.timeout 30, .keepAlive, .parametrize]).runTimeout = 30 ∧ (decorate [.timeout 30, .keepAlive, .parametrize]).runKeepAlive = true := by
  decide +kernel

example : (decorate [.parametrize, .timeout 30, .keepAlive]).runTimeout = 15 ∧ (decorate [.parametrize, .timeout 30, .keepAlive]).runKeepAlive = false := by
  decide +kernel

/-! ## ReadyToTest -/

mutual

/-- The ReadyToTest actions of a description that are there to be seen, in order. -/
inductive TestEntity.Shows : TestEntity → Nat → Prop
  | ready {id : Nat} : TestEntity.Shows (.ready id) id
  | node {c : Option Nat} {subs : List TestEntity} {id : Nat} : TestEntity.ShowsIn subs id → TestEntity.Shows (.node c subs) id

/-- One of a list. -/
inductive TestEntity.ShowsIn : List TestEntity → Nat → Prop
  | here {e : TestEntity} {es : List TestEntity} {id : Nat} : TestEntity.Shows e id → TestEntity.ShowsIn (e :: es) id
  | there {e : TestEntity} {es : List TestEntity} {id : Nat} : TestEntity.ShowsIn es id → TestEntity.ShowsIn (e :: es) id

end

mutual

theorem mem_readies : ∀ (e : TestEntity) (id : Nat), id ∈ e.readies ↔ e.Shows id
  | .ready i, id => by
    simp only [TestEntity.readies, List.mem_singleton]
    exact ⟨fun h => h ▸ .ready, fun h => by cases h; rfl⟩
  | .node c subs, id => by
    simp only [TestEntity.readies, mem_readiesAll subs id]
    exact ⟨fun h => .node h, fun h => by cases h; assumption⟩
  | .opaque subs, id => by
    simp only [TestEntity.readies]
    exact ⟨(fun h => by cases h), fun h => by cases h⟩

theorem mem_readiesAll : ∀ (es : List TestEntity) (id : Nat), id ∈ TestEntity.readiesAll es ↔ TestEntity.ShowsIn es id
  | [], id => by
    simp only [TestEntity.readiesAll]
    exact ⟨(fun h => by cases h), fun h => by cases h⟩
  | e :: es, id => by
    simp only [TestEntity.readiesAll, List.mem_append, mem_readies e id, mem_readiesAll es id]
    exact ⟨fun h => h.elim .here .there, fun h => by cases h with
      | here h => exact .inl h
      | there h => exact .inr h⟩

end

/-- C90 (a ReadyToTest action is required): a description is rejected, with an `Exception`, exactly if it does not show one. -/
theorem C90_required (ents : List TestEntity) (holds : Nat → Bool) (e : Err) :
    signalled holds ents = .error e ↔ e = .other 0 ∧ ∀ id, ¬ TestEntity.ShowsIn ents id := by
  simp only [← mem_readiesAll, signalled, wiredReady]
  cases h : TestEntity.readiesAll ents with
  | nil => simp [eq_comm]
  | cons i is =>
    simp only [reduceCtorEq, false_iff]
    rintro ⟨_, hh⟩
    exact hh i (List.mem_cons_self ..)

/-- C90 (start of the tests): if the description shows one ReadyToTest action only, the tests are started exactly if it is executed.  Missing: descriptions
that show several. -/
theorem C90_started_partial (ents : List TestEntity) (holds : Nat → Bool) (id : Nat) (h1 : TestEntity.ShowsIn ents id) (h2 : ∀ i, TestEntity.ShowsIn ents i → i = id) :
    signalled holds ents = .ok (decide (id ∈ TestEntity.executedAll holds ents)) := by
  simp only [← mem_readiesAll] at h1 h2
  simp only [signalled, wiredReady]
  cases h : TestEntity.readiesAll ents with
  | nil => rw [h] at h1; cases h1
  | cons i is =>
    have : i = id := h2 i (by rw [h]; exact List.mem_cons_self ..)
    subst this
    simp [List.contains_eq_mem]

/-- C90 is violated for alternatives: with a ReadyToTest action in each of two groups with complementary conditions, one is always executed, but the
tests are started only in the first case. -/
theorem C90_alternatives_violated (holds : Nat → Bool) (hc : holds 1 = !holds 0) :
    let ents := [TestEntity.node (some 0) [.ready 0], .node (some 1) [.ready 1]]
    TestEntity.executedAll holds ents ≠ [] ∧ signalled holds ents = .ok (holds 0) := by
  cases h : holds 0 <;>
    simp [TestEntity.executedAll, TestEntity.executed, signalled, wiredReady, TestEntity.readiesAll, TestEntity.readies, hc, h]

/-- C90 is violated for ReadyToTest actions that an OpaqueFunction returns: they are executed, but the description is rejected. -/
theorem C90_opaque_violated (holds : Nat → Bool) (id : Nat) :
    id ∈ TestEntity.executedAll holds [.opaque [.ready id]] ∧ ∃ e, signalled holds [.opaque [.ready id]] = .error e :=
  ⟨by simp [TestEntity.executedAll, TestEntity.executed], _, rfl⟩

-- a ReadyToTest action in the handler of an event
example : ∀ holds, signalled holds [.node none [], .node (some 3) [.node none [.ready 7]]] = .ok (holds 3) := by
  intro holds
  cases h : holds 3 <;> simp [signalled, wiredReady, TestEntity.readiesAll, TestEntity.readies, TestEntity.executedAll, TestEntity.executed, h]

end Verif
