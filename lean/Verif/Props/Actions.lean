import Verif.Spec.Actions
import Verif.Props.Visit

/-!
# Properties C09, C10, C18, C19: single actions
-/

namespace Verif

/-! ## C09 -/

/-- The body of `DeclareLaunchArgument.execute`, by cases on whether the configuration is set. -/
theorem declare_cases (P : Prog) (O : Oracle) (n : Nat) (id : ActId) (name : String)
    (default : Option (List Sub)) (choices : Option (List String)) (c : Ctx) :
    execute P O n id (.declareArg name default choices) c = some (
      match c.lc.get? name, default with
      | some v, _ =>
        (c, match choices with | none => .ok [] | some ch => if v ∈ ch then .ok [] else .error .runtimeError)
      | none, none => (c, .error .runtimeError)
      | none, some d =>
        match performSubs O d c with
        | (c1, .error e) => (c1, .error e)
        | (c1, .ok v) => (c1.lcSet name v,
            match choices with | none => .ok [] | some ch => if v ∈ ch then .ok [] else .error .runtimeError)) := by
  have chk : ∀ (c : Ctx) (v : String), c.lc.get? name = some v →
      (match choices with
        | none => ((c, .ok []) : Ctx × Res (List Entity))
        | some ch =>
          match c.lc.get? name with
          | none => (c, .error .keyError)
          | some v => if v ∈ ch then (c, .ok []) else (c, .error .runtimeError)) =
      (c, match choices with | none => .ok [] | some ch => if v ∈ ch then .ok [] else .error .runtimeError) := by
    intro c v h
    cases choices with
    | none => rfl
    | some ch =>
      simp only [h]
      split <;> rfl
  unfold execute
  cases hg : c.lc.get? name with
  | some v =>
    have : c.lc.has name = true := by simp [Dict.has, hg]
    simp only [M.bind, this, if_true]
    exact congrArg some (chk c v hg)
  | none =>
    have : c.lc.has name = false := by simp [Dict.has, hg]
    cases default with
    | none => simp [M.bind, this]
    | some d =>
      simp only [M.bind, this]
      cases hp : performSubs O d c with
      | mk c1 r =>
        cases r with
        | error e => simp
        | ok v =>
          simp only [Bool.false_eq_true, if_false]
          exact congrArg some (chk (c1.lcSet name v) v (by simp [Ctx.lcSet]))

/-- C09: after a DeclareLaunchArgument executed without error its configuration is set; a value that was set before
is not changed (nor anything else); otherwise it is the performed default; with choices the value is one of them;
it has no sub-entities. -/
theorem C09_post (P : Prog) (O : Oracle) (n : Nat) (id : ActId) (name : String)
    (default : Option (List Sub)) (choices : Option (List String)) (c c' : Ctx) (subs : List Entity)
    (h : execute P O n id (.declareArg name default choices) c = some (c', .ok subs)) :
    subs = [] ∧
    (∃ v, c'.lc.get? name = some v ∧ ∀ ch, choices = some ch → v ∈ ch) ∧
    (∀ v, c.lc.get? name = some v → c' = c) ∧
    (c.lc.get? name = none → ∃ d c1 v, default = some d ∧ performSubs O d c = (c1, .ok v) ∧
      c' = { c1 with lc := c1.lc.set name v }) := by
  rw [declare_cases] at h
  have h := Option.some.inj h
  cases hg : c.lc.get? name with
  | some v =>
    rw [hg] at h
    simp only [Prod.mk.injEq] at h
    obtain ⟨rfl, h2⟩ := h
    cases choices with
    | none =>
      simp at h2
      exact ⟨h2, ⟨v, hg, by simp⟩, fun _ _ => rfl, by simp⟩
    | some ch =>
      simp only at h2
      split at h2
      · rename_i hv
        simp at h2
        exact ⟨h2, ⟨v, hg, by simpa using hv⟩, fun _ _ => rfl, by simp⟩
      · cases h2
  | none =>
    rw [hg] at h
    cases default with
    | none => simp at h
    | some d =>
      simp only at h
      cases hp : performSubs O d c with
      | mk c1 r =>
        rw [hp] at h
        cases r with
        | error e => simp at h
        | ok v =>
          simp only [Prod.mk.injEq] at h
          obtain ⟨rfl, h2⟩ := h
          have hs : (c1.lcSet name v).lc.get? name = some v := by simp [Ctx.lcSet]
          cases choices with
          | none =>
            simp at h2
            exact ⟨h2, ⟨v, hs, by simp⟩, by simp, fun _ => ⟨d, c1, v, rfl, hp, rfl⟩⟩
          | some ch =>
            simp only at h2
            split at h2
            · rename_i hv
              simp at h2
              exact ⟨h2, ⟨v, hs, by simpa using hv⟩, by simp, fun _ => ⟨d, c1, v, rfl, hp, rfl⟩⟩
            · cases h2

/-- C09: it raises exactly when there is neither value nor default (RuntimeError, nothing changed), the default cannot
be performed (that error), or the value is not among the choices (RuntimeError). -/
theorem C09_errors (P : Prog) (O : Oracle) (n : Nat) (id : ActId) (name : String)
    (default : Option (List Sub)) (choices : Option (List String)) (c c' : Ctx) (e : Err) :
    execute P O n id (.declareArg name default choices) c = some (c', .error e) ↔
    (c.lc.get? name = none ∧ default = none ∧ c' = c ∧ e = .runtimeError) ∨
    (∃ d, c.lc.get? name = none ∧ default = some d ∧ performSubs O d c = (c', .error e)) ∨
    (∃ v ch, c.lc.get? name = some v ∧ choices = some ch ∧ v ∉ ch ∧ c' = c ∧ e = .runtimeError) ∨
    (∃ d v ch c1, c.lc.get? name = none ∧ default = some d ∧ performSubs O d c = (c1, .ok v) ∧
      choices = some ch ∧ v ∉ ch ∧ c' = { c1 with lc := c1.lc.set name v } ∧ e = .runtimeError) := by
  rw [declare_cases]
  cases hg : c.lc.get? name with
  | some v =>
    cases choices with
    | none => simp
    | some ch => by_cases hv : v ∈ ch <;> simp [hv, eq_comm]
  | none =>
    cases default with
    | none => simp [eq_comm]
    | some d =>
      cases hp : performSubs O d c with
      | mk c1 r =>
        cases r with
        | error e' => simp [hp]
        | ok v =>
          cases choices with
          | none => simp [hp]
          | some ch =>
            by_cases hv : v ∈ ch
            · simp [hp, hv]
            · simp only [hp, hv, if_false, Option.some.injEq, Prod.mk.injEq, Except.error.injEq]
              constructor
              · rintro ⟨rfl, rfl⟩
                exact .inr (.inr (.inr ⟨d, v, ch, c1, trivial, rfl, hp, rfl, hv, rfl, rfl⟩))
              · rintro (h | ⟨d', _, hd, h⟩ | ⟨_, _, h, _⟩ | ⟨d', v', ch', c1', _, hd, h, hch, _, rfl, rfl⟩)
                · cases h.2.1
                · cases hd; rw [hp] at h; cases h
                · cases h
                · cases hd; rw [hp] at h; cases h; exact ⟨rfl, rfl⟩

example : ∃ c', execute sampleProg sampleOracle 1 (.user 1)
    (.declareArg "x" (some [.text "b"]) (some ["a", "b"])) {} = some (c', .ok []) := ⟨_, rfl⟩

example : ∃ c', execute sampleProg sampleOracle 1 (.user 1)
    (.declareArg "x" (some [.text "c"]) (some ["a", "b"])) {} = some (c', .error .runtimeError) := ⟨_, rfl⟩

/-! ## C18 -/

theorem evalPrepend_is {O : Oracle} {p : Bool ⊕ List Sub} {c c' : Ctx} {b : Bool} (h : evalPrepend O p c = (c', .ok b)) :
    PrependIs O p c c' b := by
  cases p with
  | inl x =>
    simp only [evalPrepend, M.pure, Prod.mk.injEq, Except.ok.injEq] at h
    obtain ⟨rfl, rfl⟩ := h
    exact .value x c
  | inr s =>
    simp only [evalPrepend, typedBool] at h
    split at h
    · simp [M.raise] at h
    · simp only [M.bind] at h
      cases hs : performSubs O s c with
      | mk c1 r =>
        rw [hs] at h
        cases r with
        | error e => simp at h
        | ok t =>
          simp only at h
          cases hb : coerceToType O t (some (.scalar .bool)) with
          | error e => rw [hb] at h; simp [M.raise] at h
          | ok v =>
            rw [hb] at h
            cases v <;> simp only [M.raise, M.pure, Prod.mk.injEq, Except.ok.injEq, reduceCtorEq, and_false] at h
            obtain ⟨rfl, rfl⟩ := h
            exact .text hs hb

/-- C18: what AppendEnvironmentVariable does when it succeeds: the variable becomes the old value and the new
one with one separator in between, in the order asked for, or just the new value if it was unset; no other
variable changes.  Name, value, order and separator are performed one after another. -/
theorem C18_append (P : Prog) (O : Oracle) (n : Nat) (id : ActId) (name value : List Sub)
    (prepend : Bool ⊕ List Sub) (sep : List Sub) (c c' : Ctx) (subs : List Entity)
    (h : execute P O n id (.appendEnv name value prepend sep) c = some (c', .ok subs)) :
    ∃ ns vs pb ss c1 c2 c3 c4, performSubs O name c = (c1, .ok ns) ∧ performSubs O value c1 = (c2, .ok vs) ∧
      PrependIs O prepend c2 c3 pb ∧ performSubs O sep c3 = (c4, .ok ss) ∧ subs = [] ∧
      (∀ k, k ≠ ns → c'.env.get? k = c.env.get? k) ∧
      (c.env.get? ns = none → c'.env.get? ns = some vs) ∧
      (∀ old, c.env.get? ns = some old →
        c'.env.get? ns = some (if pb then vs ++ ss ++ old else old ++ ss ++ vs)) ∧
      (∀ k, c'.lc.get? k = c4.lc.get? k) := by
  have f1 := performSubs_frames O name c
  simp only [execute, M.bind] at h
  cases h1 : performSubs O name c with
  | mk c1 r1 =>
    rw [h1] at h f1
    cases r1 with
    | error e => simp at h
    | ok ns =>
      simp only at h
      have f2 := performSubs_frames O value c1
      cases h2 : performSubs O value c1 with
      | mk c2 r2 =>
        rw [h2] at h f2
        cases r2 with
        | error e => simp at h
        | ok vs =>
          simp only at h
          have f3 := evalPrepend_frames O prepend c2
          cases h3 : evalPrepend O prepend c2 with
          | mk c3 r3 =>
            rw [h3] at h f3
            cases r3 with
            | error e => simp at h
            | ok pb =>
              simp only at h
              have f4 := performSubs_frames O sep c3
              cases h4 : performSubs O sep c3 with
              | mk c4 r4 =>
                rw [h4] at h f4
                cases r4 with
                | error e => simp at h
                | ok ss =>
                  have e1 : c1.env = c.env := by have h1 : c1 = _ := f1.rest; rw [h1]
                  have e2 : c2.env = c1.env := by have h1 : c2 = _ := f2.rest; rw [h1]
                  have e3 : c3.env = c2.env := by have h1 : c3 = _ := f3.rest; rw [h1]
                  have e4 : c4.env = c3.env := by have h1 : c4 = _ := f4.rest; rw [h1]
                  have e : c4.env = c.env := e4.trans (e3.trans (e2.trans e1))
                  simp only [Ctx.envSet] at h
                  split at h
                  · simp only [Except.map, Option.some.injEq, Prod.mk.injEq] at h
                    have hc : c'.env = c.env.set ns (appendValue (c.env.get? ns) vs ss pb) := by
                      rw [← h.1, e]
                    refine ⟨ns, vs, pb, ss, c1, c2, c3, c4, rfl, h2, evalPrepend_is h3, h4, by simpa using h.2.symm, ?_, ?_, ?_, ?_⟩
                    · intro k hk; rw [hc]; exact Dict.get?_set_ne _ _ (Ne.symm hk)
                    · intro hn; rw [hc, hn]; simp [appendValue]
                    · intro old ho; rw [hc, ho]; simp [appendValue]
                    · intro k; rw [← h.1]
                  · simp [Except.map] at h

theorem joinSep_append_one (sep v : String) : ∀ (l : List String), l ≠ [] →
    joinSep sep (l ++ [v]) = joinSep sep l ++ sep ++ v
  | [], h => absurd rfl h
  | [x], _ => by simp [joinSep]
  | x :: y :: l, _ => by
    have ih := joinSep_append_one sep v (y :: l) (by simp)
    simp only [List.cons_append] at ih ⊢
    simp only [joinSep, ih, String.append_assoc]

/-- The actions appending the given texts one after another. -/
def appendActions (k sep : String) (vs : List String) : List Entity :=
  vs.map fun v => .act (.user 0) none (.appendEnv [.text k] [.text v] (.inl false) [.text sep])

/-- C18: appending texts one after another yields the separator-joined list of the old value (if any) and the texts,
and changes no other variable. -/
theorem C18_sequence (P : Prog) (O : Oracle) (n : Nat) (k sep : String) (vs : List String) :
    ∀ (c c' : Ctx) (fs : List Fut) (old : List String),
    (old = [] ∧ c.env.get? k = none ∨ old ≠ [] ∧ c.env.get? k = some (joinSep sep old)) →
    visitList (visit P O (n + 1)) (appendActions k sep vs) c = some (c', .ok fs) →
    (old ++ vs ≠ [] → c'.env.get? k = some (joinSep sep (old ++ vs))) ∧
    (∀ k', k' ≠ k → c'.env.get? k' = c.env.get? k') := by
  induction vs with
  | nil =>
    intro c c' fs old hold h
    have := visitList_nil_ok h
    subst this
    rcases hold with ⟨rfl, _⟩ | ⟨hne, hg⟩
    · exact ⟨fun h => absurd rfl h, fun _ _ => rfl⟩
    · exact ⟨fun _ => by rw [List.append_nil]; exact hg, fun _ _ => rfl⟩
  | cons v vs ih =>
    intro c c' fs old hold h
    obtain ⟨c1, _, _, h1, h2, _⟩ := visitList_cons_ok h
    have hleaf : ∀ c2 subs, execute P O n (.user 0)
        (.appendEnv [.text k] [.text v] (.inl false) [.text sep])
        { c with trace := c.trace ++ [.user 0] } = some (c2, .ok subs) → subs = [] :=
      fun c2 subs hx => execute_leaf rfl (by intros; simp) hx
    obtain ⟨c2, hx, hview⟩ := visit_leaf_view hleaf h1
    obtain ⟨ns, vs', pb, ss, d1, d2, d3, d4, hn, hvs, hpb, hss, _, hother, hnone, hsome, _⟩ := C18_append _ _ _ _ _ _ _ _ _ _ _ hx
    have lit : ∀ {t : String} {x y : Ctx} {r : String}, performSubs O [.text t] x = (y, .ok r) → r = t := by
      intro t x y r h
      simp [performSubs, performAll, perform, M.bind, M.pure, joinStrs] at h
      exact h.2.symm
    have hns : ns = k := lit hn
    have hvs := lit hvs
    have hss := lit hss
    have hpb : pb = false := by cases hpb; rfl
    subst hns hpb hvs hss
    have henv : c1.env = c2.env := congrArg View.env hview
    have hset : c1.env.get? ns = some (joinSep ss (old ++ [vs'])) := by
      rw [henv]
      rcases hold with ⟨rfl, hg⟩ | ⟨hne, hg⟩
      · exact hnone hg
      · have := hsome _ hg
        rw [this, joinSep_append_one _ _ _ hne]; simp
    have := ih c1 c' _ (old ++ [vs']) (.inr ⟨by simp, hset⟩) h2
    refine ⟨fun _ => ?_, fun k' hk' => ?_⟩
    · have h3 := this.1 (by simp)
      simpa using h3
    · rw [this.2 k' hk', henv, hother k' hk']

example : ∃ c' fs, visitList (visit sampleProg sampleOracle 2) (appendActions "PATH" ":" ["b", "c"])
    { env := [("PATH", "a")] } = some (c', .ok fs) ∧ c'.env = [("PATH", "a:b:c")] := ⟨_, _, rfl, rfl⟩

/-! ## C19 -/

/-- C19: after ResetLaunchConfigurations(m) the configurations are exactly the entries of `m`, performed in the
context from before the reset; nothing else survives. -/
theorem C19_keeps_only_named (P : Prog) (O : Oracle) (n : Nat) (id : ActId)
    (keep : List (List Sub × List Sub)) (c c' : Ctx) (subs : List Entity)
    (h : execute P O n id (.resetLC (some keep)) c = some (c', .ok subs)) :
    ∃ ps, (performPairs O keep c).2 = .ok ps ∧ (∀ k, c'.lc.get? k = lastValue ps k) ∧ c'.env = c.env ∧ subs = [] := by
  simp only [execute, M.bind] at h
  rw [evalKeep_eq] at h
  simp only [M.bind, M.pure] at h
  have hf := performPairs_frames O keep c
  cases hp : performPairs O keep c with
  | mk c1 r =>
    rw [hp] at h hf
    cases r with
    | error e => simp at h
    | ok ps =>
      simp only [Option.some.injEq, Prod.mk.injEq] at h
      obtain ⟨rfl, h2⟩ := h
      refine ⟨ps, rfl, ?_, ?_, ?_⟩
      · intro k
        have hw := foldl_set_wf ps [] (Dict.wf_nil (V := String))
        show Dict.get? (Dict.update [] _) k = _
        rw [Dict.update_nil_eq hw, foldl_set_get]
        simp
      · have h1 : c1 = _ := hf.rest
        show c1.env = c.env
        rw [h1]
      · simpa using h2.symm

/-- C19: with no argument everything is cleared. -/
theorem C19_clears_all (P : Prog) (O : Oracle) (n : Nat) (id : ActId) (c : Ctx) :
    execute P O n id (.resetLC none) c = some ({ c with lc := [] }, .ok []) := rfl

/-- C19: if an evaluation fails, nothing has been cleared. -/
theorem C19_failure_keeps_all (P : Prog) (O : Oracle) (n : Nat) (id : ActId)
    (keep : List (List Sub × List Sub)) (c c' : Ctx) (e : Err)
    (h : execute P O n id (.resetLC (some keep)) c = some (c', .error e)) :
    ∀ k v, c.lc.get? k = some v → c'.lc.get? k = some v := by
  simp only [execute, M.bind] at h
  have hf := evalKeep_frames O keep [] c
  cases hp : evalKeep O keep [] c with
  | mk c1 r =>
    rw [hp] at h hf
    cases r with
    | error e => simp at h; rw [← h.1]; exact hf.keep
    | ok d => simp at h

example : ∃ c', execute sampleProg sampleOracle 1 (.user 1)
    (.resetLC (some [([.text "x"], [.launchConfig [.text "a"] none])])) { lc := [("a", "1"), ("b", "2")] } =
      some (c', .ok []) ∧ c'.lc = [("x", "1")] := ⟨_, rfl, rfl⟩

/-! ## C10 -/

/-- C10: what IncludeLaunchDescription.execute returns: the actions setting each passed argument in order, then the
loaded description.  Executing it changes neither configurations (except for AnonName memo entries) nor the
environment nor any scope. -/
theorem C10_returns_arguments_then_description (P : Prog) (O : Oracle) (n : Nat) (id : ActId) (src : Nat)
    (args : List (List Sub × List Sub)) (c c' : Ctx) (subs : List Entity)
    (h : execute P O n id (.includeLD src args) c = some (c', .ok subs)) :
    (∃ loc es, (P.source src).load loc = .ok es ∧ subs = Entity.setActions id 0 args ++ [.desc es]) ∧
    (∀ k v, c.lc.get? k = some v → c'.lc.get? k = some v) ∧ c'.env = c.env ∧
    c'.lcStack = c.lcStack ∧ c'.envStack = c.envStack := by
  have hst := execute_step (by rfl) h
  simp only [execute, executeInclude] at h
  have hd : ∃ c0 : Ctx, (∀ k v, c.lc.get? k = some v → (getDescription P O src c).1.lc.get? k = some v) ∧
      (getDescription P O src c).1.env = c.env ∧
      (∀ es, (getDescription P O src c).2 = .ok es → ∃ loc, (P.source src).load loc = .ok es) := by
    refine ⟨c, ?_⟩
    unfold getDescription
    cases hl : c.srcLoc.lookup src with
    | some l =>
      simp only
      cases hld : (P.source src).load l with
      | error e => exact ⟨fun _ _ h => h, rfl, by simp⟩
      | ok es => exact ⟨fun _ _ h => h, rfl, fun es' he => ⟨l, by simp at he; rw [hld, he]⟩⟩
    | none =>
      simp only
      have hf := performSubs_frames O (P.source src).location c
      cases hp : performSubs O (P.source src).location c with
      | mk c1 r =>
        rw [hp] at hf
        have henv : c1.env = c.env := by have h1 : c1 = _ := hf.rest; rw [h1]
        cases r with
        | error e => exact ⟨hf.keep, henv, by simp⟩
        | ok l =>
          simp only
          cases hld : (P.source src).load l with
          | error e => exact ⟨hf.keep, henv, by simp⟩
          | ok es => exact ⟨hf.keep, henv, fun es' he => ⟨l, by simp at he; rw [hld, he]⟩⟩
  obtain ⟨_, hk, henv, hld⟩ := hd
  cases hg : getDescription P O src c with
  | mk c1 r1 =>
    rw [hg] at h hk henv hld
    cases r1 with
    | error e => simp at h
    | ok es =>
      simp only at h
      generalize hl2 : ((c1.locals.extendLocals
        [("current_launch_file_path", LVal.str (P.launchFile ((c1.srcLoc.lookup src).getD "")).1)]).extendLocals
          [("current_launch_file_directory", LVal.str (P.launchFile ((c1.srcLoc.lookup src).getD "")).2)]) = l2 at h
      have hp := performNames_frames O args { c1 with locals := l2 }
      cases hn : performNames O args { c1 with locals := l2 } with
      | mk c3 r3 =>
        rw [hn] at h hp
        cases r3 with
        | error e => simp at h
        | ok names =>
          simp only at h
          have he3 : c3.env = c1.env := by have h1 : c3 = _ := hp.rest; rw [h1]
          repeat' split at h
          all_goals first | (simp at h; done) | skip
          simp only [Option.some.injEq, Prod.mk.injEq, Except.ok.injEq] at h
          obtain ⟨rfl, rfl⟩ := h
          obtain ⟨loc, hloc⟩ := hld es rfl
          exact ⟨⟨loc, es, hloc, rfl⟩, fun k v hkv => hp.keep k v (hk k v hkv),
            he3.trans henv, hst.lc, hst.env⟩

/-- C10: visiting the argument-setting actions assigns the arguments one after another in the including scope; each
value is performed when its turn comes, so it may refer to arguments set before. -/
theorem C10_arguments_set_in_order (P : Prog) (O : Oracle) (n : Nat) (id : ActId) :
    ∀ (args : List (List Sub × List Sub)) (k : Nat) (c c' : Ctx) (fs : List Fut),
    visitList (visit P O (n + 1)) (Entity.setActions id k args) c = some (c', .ok fs) →
    Assigns O args c c' := by
  intro args
  induction args with
  | nil =>
    intro k c c' fs h
    have := visitList_nil_ok h
    subst this
    exact .nil rfl rfl rfl rfl
  | cons a as ih =>
    intro k c c' fs h
    obtain ⟨nm, v⟩ := a
    obtain ⟨c1, _, _, h1, h2, _⟩ := visitList_cons_ok h
    obtain ⟨c2, hx, hview⟩ := visit_leaf_view
      (fun c2 subs hx => execute_leaf rfl (by intros; simp) hx) h1
    rw [C03_set_entry] at hx
    cases hv : performSubs O v { c with trace := c.trace ++ [ActId.derived id k] } with
    | mk d1 r1 =>
      rw [hv] at hx
      cases r1 with
      | error e => simp at hx
      | ok vs =>
        simp only at hx
        cases hn : performSubs O nm d1 with
        | mk d2 r2 =>
          rw [hn] at hx
          cases r2 with
          | error e => simp at hx
          | ok ns =>
            simp at hx
            have hrest := ih (k + 1) c1 c' _ h2
            refine .cons (c0 := { c with trace := c.trace ++ [ActId.derived id k] }) (c3 := c2)
              rfl rfl rfl rfl rfl rfl hv hn hx.symm ?_
            have g : ∀ {x : Ctx}, x.view = c1.view → Assigns O as x c' := by
              intro x hxv
              clear ih h2 h
              cases hrest with
              | nil a b cc d =>
                exact .nil (a.trans (congrArg View.lc hxv).symm) (b.trans (congrArg View.env hxv).symm)
                  (cc.trans (congrArg View.lcStack hxv).symm) (d.trans (congrArg View.envStack hxv).symm)
              | cons a b cc d e f g1 g2 g3 g4 =>
                exact .cons (a.trans (congrArg View.lc hxv).symm) (b.trans (congrArg View.env hxv).symm)
                  (cc.trans (congrArg View.locals hxv).symm) (d.trans (congrArg View.rng hxv).symm)
                  (e.trans (congrArg View.lcStack hxv).symm) (f.trans (congrArg View.envStack hxv).symm) g1 g2 g3 g4
            exact g hview.symm

theorem extendNames_subset {O : Oracle} {c : Ctx} : ∀ {as : List (List (List Sub × List Sub))} {names l : List String},
    extendNames O c as names = .ok l → ∀ x ∈ l, x ∈ names ∨ ∃ a ∈ as, ∃ m, tryNames O c a = some m ∧ x ∈ m
  | [], names, l, h, x, hx => by simp [extendNames] at h; subst h; exact .inl hx
  | a :: as, names, l, h, x, hx => by
    unfold extendNames at h
    cases ht : tryNames O c a with
    | none => rw [ht] at h; simp at h
    | some m =>
      rw [ht] at h
      rcases extendNames_subset h x hx with h1 | ⟨a', ha', m', hm', hx'⟩
      · rcases List.mem_append.mp h1 with h2 | h2
        · exact .inl h2
        · exact .inr ⟨a, by simp, m, ht, h2⟩
      · exact .inr ⟨a', by simp [ha'], m', hm', hx'⟩

theorem extendNames_error {O : Oracle} {c : Ctx} : ∀ {as : List (List (List Sub × List Sub))} {names : List String}
    {err : Err}, extendNames O c as names = .error err → err = .typeError ∧ ∃ a ∈ as, tryNames O c a = none
  | [], names, err, h => by simp [extendNames] at h
  | a :: as, names, err, h => by
    unfold extendNames at h
    cases ht : tryNames O c a with
    | none => rw [ht] at h; simp at h; exact ⟨h.symm, a, by simp, ht⟩
    | some m =>
      rw [ht] at h
      obtain ⟨h1, a', ha', h2⟩ := extendNames_error h
      exact ⟨h1, a', by simp [ha'], h2⟩

theorem checkRequired_missing {O : Oracle} {c : Ctx} {heap : List (List (List (List Sub × List Sub)))}
    {e : ArgEntry} (hc : e.conditional = false) (hd : e.hasDefault = false)
    (hheap : ∀ l ∈ heap, ∀ a ∈ l, ∀ m, tryNames O c a = some m → e.name ∉ m) :
    ∀ (es : List ArgEntry) (names : List String), e ∈ es → e.name ∉ names →
      checkRequired O c heap es names = .error .runtimeError ∨
      (checkRequired O c heap es names = .error .typeError ∧ ∃ l ∈ heap, ∃ a ∈ l, tryNames O c a = none)
  | [], _, h, _ => absurd h (by simp)
  | x :: xs, names, hmem, hnot => by
    have getD_mem : ∀ (i : Nat) (a), a ∈ heap.getD i [] → ∃ l ∈ heap, a ∈ l := by
      intro i a ha
      rw [List.getD_eq_getElem?_getD] at ha
      cases hi : heap[i]? with
      | none => rw [hi] at ha; simp at ha
      | some l' => rw [hi] at ha; exact ⟨l', List.mem_of_getElem? hi, by simpa using ha⟩
    have keep : ∀ (i : Nat) (l : List String), extendNames O c (heap.getD i []) names = .ok l → e.name ∉ l := by
      intro i l hl hin
      rcases extendNames_subset hl _ hin with h1 | ⟨a, ha, m, hm, hx⟩
      · exact hnot h1
      · obtain ⟨l', hl', ha'⟩ := getD_mem i a ha
        exact hheap l' hl' a ha' m hm hx
    have fails : ∀ (i : Nat) (err : Err), extendNames O c (heap.getD i []) names = .error err →
        err = .typeError ∧ ∃ l ∈ heap, ∃ a ∈ l, tryNames O c a = none := by
      intro i err h
      obtain ⟨h1, a, ha, h2⟩ := extendNames_error h
      obtain ⟨l', hl', ha'⟩ := getD_mem i a ha
      exact ⟨h1, l', hl', a, ha', h2⟩
    unfold checkRequired
    rcases List.mem_cons.mp hmem with rfl | hin
    · simp only [hc, hd, Bool.or_self, Bool.false_eq_true, if_false]
      cases hn : e.nested with
      | none => simp [hnot]
      | some i =>
        simp only
        cases hx : extendNames O c (heap.getD i []) names with
        | error err => obtain ⟨rfl, h⟩ := fails i err hx; exact .inr ⟨rfl, h⟩
        | ok l => simp [keep i l hx]
    · split
      · exact checkRequired_missing hc hd hheap xs names hin hnot
      · cases hn : x.nested with
        | none =>
          simp only
          split
          · exact checkRequired_missing hc hd hheap xs names hin hnot
          · exact .inl rfl
        | some i =>
          simp only
          cases hx : extendNames O c (heap.getD i []) names with
          | error err => obtain ⟨rfl, h⟩ := fails i err hx; exact .inr ⟨rfl, h⟩
          | ok l =>
            simp only
            split
            · exact checkRequired_missing hc hd hheap xs l hin (keep i l hx)
            · exact .inl rfl

/-- C10 (partial): if the description that is loaded has a declared argument without default that is not declared
conditionally, is not passed by this include and is not passed by any include inside the description, execute
raises before any action is returned: RuntimeError, unless the argument names of some include inside cannot be
performed without a context.  Missing: an include somewhere inside the description that passes an argument
of the same name hides the error, see `C10_required_violated`; the exception is not always RuntimeError, see
`C10_type_error_violated`. -/
theorem C10_required_raises_partial (P : Prog) (O : Oracle) (n : Nat) (id : ActId) (src : Nat)
    (args : List (List Sub × List Sub)) (c c1 c3 c' : Ctx) (es : List Entity) (names : List String)
    (st : ArgState) (e : ArgEntry) (r : Res (List Entity))
    (hload : getDescription P O src c = (c1, .ok es))
    (l2 : Locals)
    (hl2 : l2 = (c1.locals.extendLocals [("current_launch_file_path",
      .str (P.launchFile ((c1.srcLoc.lookup src).getD "")).1)]).extendLocals
        [("current_launch_file_directory", .str (P.launchFile ((c1.srcLoc.lookup src).getD "")).2)])
    (hnames : performNames O args { c1 with locals := l2 } = (c3, .ok names))
    (hargs : getLaunchArguments (tryDescription P O c3) n es false = some (.ok st))
    (hmem : e ∈ st.entries) (hc : e.conditional = false) (hd : e.hasDefault = false)
    (hnot : e.name ∉ names)
    (hheap : ∀ l ∈ st.heap, ∀ a ∈ l, ∀ m, tryNames O c3 a = some m → e.name ∉ m)
    (h : execute P O n id (.includeLD src args) c = some (c', r)) :
    r = .error .runtimeError ∨
      (r = .error .typeError ∧ ∃ l ∈ st.heap, ∃ a ∈ l, tryNames O c3 a = none) := by
  subst hl2
  simp only [execute, executeInclude, hload, hnames, hargs] at h
  rcases checkRequired_missing hc hd hheap st.entries names hmem hnot with herr | ⟨herr, hx⟩
  · rw [herr] at h
    simp at h
    exact .inl h.2.symm
  · rw [herr] at h
    simp at h
    exact .inr ⟨h.2.symm, hx⟩

theorem extendNames_all {O : Oracle} {c : Ctx} : ∀ {as : List (List (List Sub × List Sub))} {names : List String},
    (∀ a ∈ as, tryNames O c a ≠ none) → ∃ l, extendNames O c as names = .ok l ∧ ∀ x ∈ names, x ∈ l
  | [], names, _ => ⟨names, rfl, fun _ h => h⟩
  | a :: as, names, hall => by
    cases ht : tryNames O c a with
    | none => exact absurd ht (hall a (by simp))
    | some m =>
      obtain ⟨l, h1, h2⟩ := extendNames_all (as := as) (names := names ++ m) (fun a' ha' => hall a' (by simp [ha']))
      refine ⟨l, ?_, fun x hx => h2 x (by simp [hx])⟩
      unfold extendNames
      rw [ht]
      exact h1

theorem checkRequired_passed {O : Oracle} {c : Ctx} {heap : List (List (List (List Sub × List Sub)))}
    (hheap : ∀ l ∈ heap, ∀ a ∈ l, tryNames O c a ≠ none) :
    ∀ (es : List ArgEntry) (names : List String),
      (∀ e ∈ es, e.conditional = false → e.hasDefault = false → e.name ∈ names) →
      checkRequired O c heap es names = .ok ()
  | [], _, _ => rfl
  | x :: xs, names, hall => by
    unfold checkRequired
    split
    · exact checkRequired_passed hheap xs names fun e he => hall e (by simp [he])
    · next hb =>
      simp only [Bool.or_eq_true, not_or, Bool.not_eq_true] at hb
      have hx := hall x (by simp) hb.1 hb.2
      cases hn : x.nested with
      | none =>
        simp only
        rw [if_pos hx]
        exact checkRequired_passed hheap xs names fun e he => hall e (by simp [he])
      | some i =>
        simp only
        have hi : ∀ a ∈ heap.getD i [], tryNames O c a ≠ none := by
          intro a ha
          rw [List.getD_eq_getElem?_getD] at ha
          cases hg : heap[i]? with
          | none => rw [hg] at ha; simp at ha
          | some l' => rw [hg] at ha; exact hheap l' (List.mem_of_getElem? hg) a (by simpa using ha)
        obtain ⟨l, h1, h2⟩ := extendNames_all (names := names) hi
        rw [h1]
        simp only
        rw [if_pos (h2 _ hx)]
        exact checkRequired_passed hheap xs l fun e he h3 h4 => h2 _ (hall e (by simp [he]) h3 h4)

/-- C10: an include is not rejected without reason: if the arguments of the loaded description that are neither
declared conditionally nor have a default are all passed, and the argument names of the includes inside can
be performed without a context, then `execute` succeeds and returns the assignments and the
description. -/
theorem C10_passed_accepted (P : Prog) (O : Oracle) (n : Nat) (id : ActId) (src : Nat)
    (args : List (List Sub × List Sub)) (c c1 c3 : Ctx) (es : List Entity) (names : List String)
    (st : ArgState)
    (hload : getDescription P O src c = (c1, .ok es))
    (l2 : Locals)
    (hl2 : l2 = (c1.locals.extendLocals [("current_launch_file_path",
      .str (P.launchFile ((c1.srcLoc.lookup src).getD "")).1)]).extendLocals
        [("current_launch_file_directory", .str (P.launchFile ((c1.srcLoc.lookup src).getD "")).2)])
    (hnames : performNames O args { c1 with locals := l2 } = (c3, .ok names))
    (hargs : getLaunchArguments (tryDescription P O c3) n es false = some (.ok st))
    (hall : ∀ e ∈ st.entries, e.conditional = false → e.hasDefault = false → e.name ∈ names)
    (hheap : ∀ l ∈ st.heap, ∀ a ∈ l, tryNames O c3 a ≠ none) :
    execute P O n id (.includeLD src args) c =
      some (c3, .ok (Entity.setActions id 0 args ++ [.desc es])) := by
  subst hl2
  simp only [execute, executeInclude, hload, hnames, hargs]
  rw [checkRequired_passed hheap st.entries names hall]

/-- A file whose argument `z` is required only in a conditional group, and `x` always. -/
def includeCond : Prog where
  source _ := ⟨[.text "one"], fun _ => .ok
    [.act (.user 1) none (.declareArg "x" none none), .act (.user 2) (some (.ifC [.text "false"]))
      (.declareArg "z" none none)]⟩

example : (execute includeCond sampleOracle 20 (.user 0)
    (.includeLD 1 [([.text "x"], [.text "5"])]) {}).succeeds = true := by decide +kernel

example : ∃ c1 es, getDescription includeCond sampleOracle 1 {} = (c1, .ok es) ∧
    ∃ st, getLaunchArguments (tryDescription includeCond sampleOracle c1) 5 es false = some (.ok st) ∧
      (∀ e ∈ st.entries, e.conditional = false → e.hasDefault = false → e.name ∈ ["x"]) ∧
      st.entries.length = 2 ∧ st.heap = [] :=
  ⟨_, _, rfl, _, rfl, by decide +kernel, rfl, rfl⟩

/-- A program with two launch files: file 2 requires `z`; file 1 includes it in a scoped group, passing `x` and `z`,
and requires `x` itself. -/
def includeProg : Prog where
  source s :=
    if s = 2 then ⟨[.text "two"], fun _ => .ok [.act (.user 20) none (.declareArg "z" none none)]⟩
    else ⟨[.text "one"], fun _ => .ok
      [.act (.user 10) none (.group true true [] [.act (.user 11) none
          (.includeLD 2 [([.text "x"], [.text "1"]), ([.text "z"], [.text "1"])])]),
       .act (.user 12) none (.declareArg "x" none none)]⟩

/-- C10 is violated: including file 1 without passing its required argument `x` is not rejected by
`execute`, because the names passed to file 2 inside it are counted as passed to file 1
(include_launch_description.py:166-170); visiting then fails half-way. -/
theorem C10_required_violated :
    (execute includeProg sampleOracle 20 (.user 0) (.includeLD 1 []) {}).succeeds = true ∧
    (visit includeProg sampleOracle 20 (.act (.user 0) none (.includeLD 1 [])) {}).raises .runtimeError = true := by
  constructor
  · decide +kernel
  · decide +kernel

/-- A program where file 1 includes file 2 with an argument name taken from a configuration. -/
def includeProg' : Prog where
  source s :=
    if s = 2 then ⟨[.text "two"], fun _ => .ok [.act (.user 20) none (.declareArg "z" none none)]⟩
    else ⟨[.text "one"], fun _ => .ok
      [.act (.user 11) none (.includeLD 2 [([.launchConfig [.text "n"] none], [.text "1"])])]⟩

/-- C10 is violated: a nested include whose argument names need the context makes `execute` raise TypeError
(`argument_names.extend(None)`), even when every required argument is passed. -/
theorem C10_type_error_violated :
    (execute includeProg' sampleOracle 20 (.user 0)
      (.includeLD 1 [([.text "z"], [.text "1"])]) { lc := [("n", "z")] }).raises .typeError = true := by
  decide +kernel

/-- A file that registers a handler given a single action and declares nothing. -/
def includeHandlerProg : Prog where
  source _ := ⟨[.text "one"], fun _ => .ok [.act (.user 1) none (.registerHandler 2 none)]⟩

/-- C10 is violated: a launch file that registers a handler given a single action (no list) cannot be included at all,
although it requires no argument and can be launched by itself. -/
theorem C10_single_entity_violated :
    (execute includeHandlerProg sampleOracle 20 (.user 0) (.includeLD 1 []) {}).raises .typeError = true ∧
    (visit includeHandlerProg sampleOracle 20 (.desc [.act (.user 1) none (.registerHandler 2 none)]) {}).succeeds = true := by
  decide +kernel

/-- A file with a process whose `on_exit` declares `x`. -/
def includeOnExitProg : Prog where
  source _ := ⟨[.text "one"], fun _ => .ok
    [.act (.user 1) none (.custom 7 [.act (.user 2) none (.declareArg "x" none none)] [])]⟩

/-- C10 is violated: an argument that is declared only by the actions following the exit of a process is required when
the file is included, although the process may never exit. -/
theorem C10_on_exit_violated :
    (execute includeOnExitProg sampleOracle 20 (.user 0) (.includeLD 1 []) {}).raises .runtimeError = true := by
  decide +kernel

/-- The hypotheses of the partial theorem are met: file 1 of `includeProg'` included without `z`, a name that
no include passes. -/
example : ∃ c1 es, getDescription includeProg sampleOracle 2 {} = (c1, .ok es) ∧
    ∃ st e, getLaunchArguments (tryDescription includeProg sampleOracle c1) 5 es false = some (.ok st) ∧
      e ∈ st.entries ∧ e.conditional = false ∧ e.hasDefault = false ∧ e.name = "z" ∧ st.heap = [] :=
  ⟨_, _, rfl, _, _, rfl, .head _, rfl, rfl, rfl, rfl⟩

example : (execute includeProg sampleOracle 20 (.user 0)
    (.includeLD 1 [([.text "x"], [.text "5"])]) {}).succeeds = true := by decide +kernel

example : ∃ c' fs, visitList (visit sampleProg sampleOracle 3) (Entity.setActions (.user 0) 0
    [([.text "a"], [.text "1"]), ([.text "b"], [.launchConfig [.text "a"] none, .text "2"])]) {} =
      some (c', .ok fs) ∧ c'.lc = [("a", "1"), ("b", "12")] := ⟨_, _, rfl, rfl⟩

end Verif
