import Verif.Model.Timeouts
import Verif.Spec.Timeouts
import Verif.Spec.Subst
import Verif.Props.Typed
import Verif.Props.SubstMore
import Verif.Props.Subst
import Verif.Props.Timer

namespace Verif

/-! ## C122 Processes are given the time that was configured before signals escalate -/

theorem each2_subs : ∀ ss : List Sub, Each2 (fun x s => x = TVal.sub s ∨ ∃ t, x = .str t ∧ s = .text t) (ss.map .sub) ss
  | [] => .nil
  | _ :: ss => .cons (.inl rfl) (each2_subs ss)

theorem written_subs {ss : List Sub} (h : ss ≠ []) : Written (.seq (ss.map .sub)) ss := by
  refine .several (each2_subs ss) ?_
  cases ss with
  | nil => exact absurd rfl h
  | cons s ss => exact ⟨s, by simp⟩

theorem coerce_float (O : Oracle) (s : String) : coerceToType O s (some (.scalar .float)) = numberIn O s := by
  unfold coerceToType numberIn
  cases O.parseFloat s <;> rfl

theorem timerPeriod_wait (O : Oracle) {ss : List Sub} (h : ss ≠ []) :
    ∃ t, timerPeriod O ss = .ok t ∧ ∀ c, timerWait O t c =
      match performSubs O ss c with
      | (c1, .ok s) => (c1, numberIn O s)
      | (c1, .error e) => (c1, .error e) := by
  obtain ⟨n, h1, h2⟩ := C40_substitutions O _ ss (written_subs h) (some (.scalar .float))
  refine ⟨n, h1, fun c => ?_⟩
  unfold timerWait
  rw [h2 c]
  cases performSubs O ss c with
  | mk c1 r =>
    cases r with
    | ok s => simp only [coerce_float]
    | error e => rfl

theorem performSubs_text (O : Oracle) (s : String) (c : Ctx) : performSubs O [.text s] c = (c, .ok s) := by
  simp [performSubs, performAll, perform, M.bind, M.pure, joinStrs]

theorem killPeriod_performed {O : Oracle} {term kill : List Sub} {c c1 c2 : Ctx} {a b : String}
    (h1 : performSubs O term c = (c1, .ok a)) (h2 : performSubs O kill c1 = (c2, .ok b)) :
    performSubs O (killPeriod term kill) c = (c2, O.pyEval ["math"] (sumSource a b)) := by
  obtain ⟨la, ha, h1⟩ := performSubs_all h1
  obtain ⟨lb, hb, h2⟩ := performSubs_all h2
  have hin : performSubs O (.text "float(" :: (term ++ .text ") + float(" :: (kill ++ [.text ")"]))) c = (c2, .ok (sumSource a b)) := by
    simp only [performSubs, performAll, perform, performAll_append, M.bind, M.pure, h1, h2, joinStrs, joinStrs_append, ha, hb]
    simp [sumSource, String.append_assoc]
  have hp := C63_python_expression O _ [.text "math"] c c c2 ["math"] (sumSource a b)
    (by simp [performAll, perform, M.bind, M.pure]) hin
  unfold killPeriod
  simp only [performSubs, performAll, M.bind, M.pure, hp]
  cases O.pyEval ["math"] (sumSource a b) with
  | error e => rfl
  | ok s => simp [joinStrs]

/-- C122.  However the timeouts are given: when a process is shut down, its two timers are made; the one for SIGTERM waits for the number that the performed text
of `sigterm_timeout` spells, the one for SIGKILL for the value of the Python expression that adds the two, both as they are when the timers begin. -/
theorem C122_timers (O : Oracle) (term kill : List Sub) (hterm : term ≠ []) (int : Bool) :
    ∃ t k, shutdownActions O term kill int = .ok ((t, k), int) ∧
      (∀ c c1 a, performSubs O term c = (c1, .ok a) → timerWait O t c = (c1, numberIn O a)) ∧
      (∀ c c1 c2 a b, performSubs O term c = (c1, .ok a) → performSubs O kill c1 = (c2, .ok b) → timerWait O k c = (c2,
        match O.pyEval ["math"] (sumSource a b) with
        | .ok s => numberIn O s
        | .error e => .error e)) := by
  obtain ⟨t, ht, hwt⟩ := timerPeriod_wait O hterm
  obtain ⟨k, hk, hwk⟩ := timerPeriod_wait O (ss := killPeriod term kill) (by simp [killPeriod])
  refine ⟨t, k, by simp [shutdownActions, shutdownTimers, ht, hk], ?_, ?_⟩
  · intro c c1 a h
    rw [hwt, h]
  · intro c c1 c2 a b h1 h2
    rw [hwk, killPeriod_performed h1 h2]
    cases O.pyEval ["math"] (sumSource a b) <;> rfl

/-- An oracle with a little arithmetic, for the examples. -/
def timeoutOracle : Oracle :=
  { sampleOracle with
    parseFloat := fun s => if s = "5" ∨ s = "05" then some ⟨"5"⟩ else if s = "10.0" then some ⟨"10"⟩ else if s = "1" then some ⟨"1"⟩ else if s = "6.0" then some ⟨"6"⟩ else none
    pyEval := fun _ s => if s = "float(5) + float(5)" then .ok "10.0" else if s = "float(1) + float(5)" then .ok "6.0" else .error .valueError }

/-- The configuration `sigterm_timeout` is 1, `sigkill_timeout` is given as the text 5. -/
example : ∃ ts ks t k, timeoutArg "sigterm_timeout" none = .ok ts ∧ timeoutArg "sigkill_timeout" (some (.str "5")) = .ok ks ∧ ts ≠ [] ∧
    shutdownActions timeoutOracle ts ks true = .ok ((t, k), true) ∧
    timerWait timeoutOracle t { lc := [("sigterm_timeout", "1")] } = ({ lc := [("sigterm_timeout", "1")] }, .ok (.float ⟨"1"⟩)) ∧
    timerWait timeoutOracle k { lc := [("sigterm_timeout", "1")] } = ({ lc := [("sigterm_timeout", "1")] }, .ok (.float ⟨"6"⟩)) :=
  ⟨_, _, _, _, rfl, rfl, by simp [timeoutDefault], rfl, rfl, rfl⟩

/-- C122.  A timeout that is given as a text, a substitution, or a list of texts and substitutions is performed as it was given; the configurations do not matter then. -/
theorem C122_arguments (name : String) (s : String) (v : TVal) (ss : List Sub) (hw : Written v ss) :
    timeoutArg name (some (.str s)) = .ok [.text s] ∧ timeoutArg name (some v) = .ok ss ∧ ss ≠ [] :=
  ⟨rfl, (written_isSubstitution hw).2.1, (written_isSubstitution hw).2.2.2⟩

example : Written (.seq [.str "1", .sub (.text "0")]) [.text "1", .text "0"] :=
  .several (.cons (.inr ⟨_, rfl, rfl⟩) (.cons (.inl rfl) .nil)) ⟨.text "0", by simp⟩

/-- C122.  If both texts are numbers, also for Python, then SIGKILL waits for their sum.  Partial: of texts that `float` reads but Python does not, and of other Python
expressions, `C122_timers` says what is waited for. -/
theorem C122_kill_after_partial (O : Oracle) (literal : String → Flt → Prop) (add : Flt → Flt → Flt) (hadd : PythonAdds O literal add)
    (term kill : List Sub) (int : Bool) (t k : TVal) (h : shutdownActions O term kill int = .ok ((t, k), int))
    (c c1 c2 : Ctx) (a b : String) (x y : Flt) (h1 : performSubs O term c = (c1, .ok a)) (h2 : performSubs O kill c1 = (c2, .ok b))
    (hx : literal a x) (hy : literal b y) : timerWait O k c = (c2, .ok (.float (add x y))) := by
  have hterm : term ≠ [] := by
    intro e; subst e; cases h
  obtain ⟨t', k', h', _, hk⟩ := C122_timers O term kill hterm int
  rw [h] at h'
  obtain ⟨_, rfl⟩ : t = t' ∧ k = k' := by simpa using h'
  rw [hk c c1 c2 a b h1 h2]
  obtain ⟨s, e1, e2⟩ := hadd a b x y hx hy
  rw [e1]
  simp [numberIn, e2]

example : PythonAdds timeoutOracle (fun a x => a = "5" ∧ x = ⟨"5"⟩) (fun _ _ => ⟨"10"⟩) := by
  rintro a b x y ⟨rfl, rfl⟩ ⟨rfl, rfl⟩
  exact ⟨"10.0", by simp [timeoutOracle, sumSource], by simp [timeoutOracle]⟩

/-- C122.  Without arguments the launch configurations `sigterm_timeout` and `sigkill_timeout` decide, as they are when the timers begin; and 5 if they are not set. -/
theorem C122_defaults (O : Oracle) (int : Bool) :
    ∃ ts ks t k, timeoutArg "sigterm_timeout" none = .ok ts ∧ timeoutArg "sigkill_timeout" none = .ok ks ∧ shutdownActions O ts ks int = .ok ((t, k), int) ∧
      ∀ c, timerWait O t c = (c, numberIn O (configuredOrFive c "sigterm_timeout")) ∧
        timerWait O k c = (c, match O.pyEval ["math"] (sumSource (configuredOrFive c "sigterm_timeout") (configuredOrFive c "sigkill_timeout")) with
          | .ok s => numberIn O s
          | .error e => .error e) := by
  have hd : ∀ name c, performSubs O (timeoutDefault name) c = (c, .ok (configuredOrFive c name)) := by
    intro name c
    have hp := C14_launch_configuration O [.text name] (DefaultArg.other "5").normalize c c name (performSubs_text O name c)
    have : perform O (.launchConfig [.text name] (DefaultArg.other "5").normalize) c = (c, .ok (configuredOrFive c name)) := by
      rw [hp]
      unfold configuredOrFive
      cases c.lc.get? name with
      | some v => rfl
      | none => exact performSubs_text O "5" c
    simp only [timeoutDefault, performSubs, performAll, M.bind, M.pure, this]
    simp [joinStrs]
  obtain ⟨t, k, h, ht, hk⟩ := C122_timers O (timeoutDefault "sigterm_timeout") (timeoutDefault "sigkill_timeout") (by simp [timeoutDefault]) int
  exact ⟨_, _, t, k, rfl, rfl, h, fun c => ⟨ht c c _ (hd _ c), hk c c c _ _ (hd _ c) (hd _ c)⟩⟩

example : configuredOrFive { lc := [("sigterm_timeout", "1")] } "sigterm_timeout" = "1" ∧ configuredOrFive { lc := [("sigterm_timeout", "1")] } "sigkill_timeout" = "5" := by
  decide +kernel

/-- C122.  The actions of a timer are performed only after the time it was given at its beginning has passed. -/
theorem C122_not_before (O : Oracle) (ticks : Flt → Nat) (t : TVal) (c c1 : Ctx) (x : Flt) (hw : timerWait O t c = (c1, .ok (.float x)))
    (before ls : List TimerLabel) (i : Nat) (T : Timer)
    (h : runSteps Timer.step {} (before ++ .begin i (waitTicks ticks (timerWait O t c)) :: ls) = some T)
    (hb : (before ++ .begin i (waitTicks ticks (timerWait O t c)) :: ls).countP TimerLabel.isExecute ≤ 1) (hp : 0 < T.performed) :
    ticks x ≤ ls.count .tick := by
  rw [hw] at h hb
  exact C30_not_before_period before ls i (ticks x) T h hb hp

example : timerWait timeoutOracle (.seq [.sub (.text "1")]) {} = ({}, .ok (.float ⟨"1"⟩)) ∧
    (runSteps Timer.step {} ([.execute (some false)] ++ .begin 0 (waitTicks (fun x => x.token.length) (timerWait timeoutOracle (.seq [.sub (.text "1")]) {})) ::
      [.tick, .resume 0, .process])).map (·.performed) = some 1 := by
  exact ⟨rfl, by decide +kernel⟩

theorem never_performed {ls : List TimerLabel} {T : Timer} (h : runSteps Timer.step {} ls = some T) (hb : ∀ i p, .begin i p ∈ ls → p = none) :
    T.performed = 0 := by
  refine (runSteps_induct' (R := fun t : Timer => t.performed = 0 ∧ .timer ∉ t.queue ∧ ∀ x ∈ t.tasks, ∀ f d, x ≠ .waiting f d)
    (C := fun l => ∀ i p, l = .begin i p → p = none) ?_ ls {} T ?_ (by simp) h).1
  · intro s l s' hl ⟨h1, h2, h3⟩ hs
    cases l with
    | execute cos =>
      simp only [Timer.step, Option.some.injEq] at hs; subst hs
      unfold Timer.execute
      dsimp only
      split
      · exact ⟨h1, h2, h3⟩
      · refine ⟨h1, h2, ?_⟩
        intro x hx f d
        simp only [List.mem_append, List.mem_singleton] at hx
        rcases hx with hx | rfl
        · exact h3 x hx f d
        · simp
    | cancel => simp only [Timer.step, Option.some.injEq] at hs; subst hs; rw [Timer.cancel_eq]; exact ⟨h1, h2, h3⟩
    | begin i p =>
      rw [hl i p rfl] at hs
      simp only [Timer.step] at hs
      split at hs
      · simp only [Option.some.injEq] at hs; subst hs
        refine ⟨h1, h2, ?_⟩
        intro x hx f d
        rcases List.mem_or_eq_of_mem_set hx with hx | rfl
        · exact h3 x hx f d
        · simp
      · cases hs
    | resume i =>
      simp only [Timer.step] at hs
      split at hs
      · rename_i f d he
        exact absurd rfl (h3 _ (List.mem_of_getElem? he) f d)
      · cases hs
    | tick => simp only [Timer.step, Option.some.injEq] at hs; subst hs; exact ⟨h1, h2, h3⟩
    | emitShutdown =>
      simp only [Timer.step, Option.some.injEq] at hs; subst hs
      exact ⟨h1, by simpa using h2, h3⟩
    | process =>
      simp only [Timer.step] at hs
      unfold Timer.process at hs
      split at hs
      · cases hs
      · rename_i q hq
        rw [hq] at h2; simp at h2
      · rename_i q hq
        rw [hq] at h2
        simp only [List.mem_cons, not_or] at h2
        simp only [Option.some.injEq] at hs; subst hs
        split
        · exact ⟨h1, h2.2, h3⟩
        · rw [Timer.cancel_eq]; exact ⟨h1, h2.2, h3⟩
  · intro l hl i p e
    subst e
    exact hb i p hl

/-- C122 fails: a process is never killed if Python does not understand the sum of the timeouts whenever the timer begins, and is never sent SIGTERM if
`sigterm_timeout` is not a number then, however long it goes on; nobody says so when the timeouts are given. -/
theorem C122_never_sent_violated (O : Oracle) (ticks : Flt → Nat) (term kill : List Sub) (int : Bool) (t k : TVal)
    (h : shutdownActions O term kill int = .ok ((t, k), int)) (ls : List TimerLabel) (T : Timer) (hr : runSteps Timer.step {} ls = some T) :
    ((∀ i p, .begin i p ∈ ls → ∃ c c1 a, performSubs O term c = (c1, .ok a) ∧ O.parseFloat a = none ∧ p = waitTicks ticks (timerWait O t c)) →
      T.performed = 0) ∧
    ((∀ i p, .begin i p ∈ ls → ∃ c c1 c2 a b e, performSubs O term c = (c1, .ok a) ∧ performSubs O kill c1 = (c2, .ok b) ∧
        O.pyEval ["math"] (sumSource a b) = .error e ∧ p = waitTicks ticks (timerWait O k c)) →
      T.performed = 0) := by
  have hterm : term ≠ [] := by
    intro e; subst e; cases h
  obtain ⟨t', k', h', ht, hk⟩ := C122_timers O term kill hterm int
  rw [h] at h'
  obtain ⟨rfl, rfl⟩ : t = t' ∧ k = k' := by simpa using h'
  constructor
  · intro hb
    refine never_performed hr fun i p hp => ?_
    obtain ⟨c, c1, a, h1, h2, rfl⟩ := hb i p hp
    rw [ht c c1 a h1]
    simp [waitTicks, numberIn, h2]
  · intro hb
    refine never_performed hr fun i p hp => ?_
    obtain ⟨c, c1, c2, a, b, e, h1, h2, h3, rfl⟩ := hb i p hp
    rw [hk c c1 c2 a b h1 h2, h3]
    rfl

/-- With `sigterm_timeout` 05 and `sigkill_timeout` 5 the process is sent SIGTERM after 5 seconds, but Python rejects the number 05, so that it is never killed. -/
example : ∃ t k, shutdownActions timeoutOracle [.text "05"] [.text "5"] true = .ok ((t, k), true) ∧
    timerWait timeoutOracle t {} = ({}, .ok (.float ⟨"5"⟩)) ∧ timeoutOracle.pyEval ["math"] (sumSource "05" "5") = .error .valueError ∧
    (runSteps Timer.step {} [.execute (some false), .begin 0 (waitTicks (fun _ => 1) (timerWait timeoutOracle k {})), .tick, .tick]).map (·.performed) = some 0 :=
  ⟨_, _, rfl, rfl, by simp [timeoutOracle, sumSource], by decide +kernel⟩

/-- C122 fails: if `sigterm_timeout` is an empty list, which the constructor accepts, shutting the process down raises, and it is not even sent SIGINT. -/
theorem C122_empty_violated (O : Oracle) (kill : List Sub) (int : Bool) :
    timeoutArg "sigterm_timeout" (some (.seq [])) = .ok [] ∧ shutdownActions O [] kill int = .error .typeError := by
  exact ⟨rfl, rfl⟩

/-- C122.  The message at the escalation to SIGTERM names the time that the process was given. -/
theorem C122_message (O : Oracle) (term : List Sub) (c c1 : Ctx) (a : String) (h : performSubs O term c = (c1, .ok a)) :
    termMessage O term c = (c1, .ok ("failed to terminate '" ++ a ++ "' seconds after receiving 'SIGINT', escalating to 'SIGTERM'")) := by
  simp only [termMessage, escalationText, M.bind, M.pure, h]
  simp [String.append_assoc]

/-- C122 fails: the message at the escalation to SIGKILL names the time since the process was shut down as the time since it was sent SIGTERM. -/
theorem C122_message_violated (O : Oracle) (term kill : List Sub) (int : Bool) (t k : TVal) (h : shutdownActions O term kill int = .ok ((t, k), int))
    (c c1 c2 : Ctx) (a b s : String) (h1 : performSubs O term c = (c1, .ok a)) (h2 : performSubs O kill c1 = (c2, .ok b))
    (hs : O.pyEval ["math"] (sumSource a b) = .ok s) :
    killMessage O term kill c = (c2, .ok ("failed to terminate '" ++ s ++ "' seconds after receiving 'SIGTERM', escalating to 'SIGKILL'")) ∧
    timerWait O k c = (c2, numberIn O s) ∧ timerWait O t c = (c1, numberIn O a) := by
  have hterm : term ≠ [] := by
    intro e; subst e; cases h
  obtain ⟨t', k', h', ht, hk⟩ := C122_timers O term kill hterm int
  rw [h] at h'
  obtain ⟨rfl, rfl⟩ : t = t' ∧ k = k' := by simpa using h'
  refine ⟨?_, by rw [hk c c1 c2 a b h1 h2, hs], ht c c1 a h1⟩
  simp only [killMessage, escalationText, M.bind, M.pure, killPeriod_performed h1 h2, hs]
  simp [String.append_assoc]

/-- The process was sent SIGTERM 5 seconds ago, but 10.0 are reported. -/
example : killMessage timeoutOracle [.text "5"] [.text "5"] {} =
    ({}, .ok "failed to terminate '10.0' seconds after receiving 'SIGTERM', escalating to 'SIGKILL'") := by
  exact (C122_message_violated timeoutOracle [.text "5"] [.text "5"] true _ _ rfl {} {} {} "5" "5" "10.0" rfl rfl (by simp [timeoutOracle, sumSource])).1

end Verif
