import Verif.Spec.Setting
import Verif.Props.Actions

/-!
# Property C66: setting and unsetting variables
-/

namespace Verif

theorem AnonExt.same {c c' : Ctx} (h : AnonExt c c') (k : String) :
    c'.lc.get? k = c.lc.get? k ∨ (c.lc.get? k = none ∧ ∃ n : String, k = "anon" ++ n) := by
  cases h1 : c.lc.get? k with
  | some v => exact .inl (h.keep k v h1)
  | none =>
    cases h2 : c'.lc.get? k with
    | none => exact .inl rfl
    | some v => exact .inr ⟨rfl, h.new k h1 (by rw [h2]; simp)⟩

/-- C66: SetLaunchConfiguration performs value and name in the context it is executed in and gives that configuration
that value; no other configuration, no environment variable and no saved scope changes. -/
theorem C66_set_configuration (P : Prog) (O : Oracle) (n : Nat) (id : ActId) (name value : List Sub)
    (c c' : Ctx) (subs : List Entity)
    (h : execute P O n id (.setLC name value) c = some (c', .ok subs)) :
    ∃ vs ns c1, performSubs O value c = (c1, .ok vs) ∧ (performSubs O name c1).2 = .ok ns ∧ subs = [] ∧
      c'.lc.get? ns = some vs ∧ SameConfigs (some ns) c.lc c'.lc ∧
      c'.env = c.env ∧ c'.lcStack = c.lcStack ∧ c'.envStack = c.envStack := by
  simp only [execute, M.bind] at h
  have f1 := performSubs_frames O value c
  cases h1 : performSubs O value c with
  | mk c1 r1 =>
    rw [h1] at h f1
    cases r1 with
    | error e => simp at h
    | ok vs =>
      simp only at h
      have f2 := performSubs_frames O name c1
      cases h2 : performSubs O name c1 with
      | mk c2 r2 =>
        rw [h2] at h f2
        cases r2 with
        | error e => simp at h
        | ok ns =>
          simp [Ctx.lcSet] at h
          obtain ⟨hc, hs⟩ := h
          have e1 : c1 = _ := f1.rest
          have e2 : c2 = _ := f2.rest
          have f := f1.trans f2
          refine ⟨vs, ns, c1, rfl, by rw [h2], hs, ?_, ?_, ?_, ?_, ?_⟩
          · rw [← hc]; exact Dict.get?_set_self _ _ _
          · intro k hk
            rw [← hc]
            have : c2.lc.get? k = (c2.lc.set ns vs).get? k :=
              (Dict.get?_set_ne _ _ (fun h => hk (by rw [h]))).symm
            simp only
            rw [← this]
            exact f.same k
          all_goals rw [← hc]; simp only; rw [e2, e1]

/-- C66: UnsetLaunchConfiguration removes exactly the named configuration, and does nothing if there is none. -/
theorem C66_unset_configuration (P : Prog) (O : Oracle) (n : Nat) (id : ActId) (name : List Sub)
    (c c' : Ctx) (subs : List Entity) (hwf : c.lc.Wf)
    (h : execute P O n id (.unsetLC name) c = some (c', .ok subs)) :
    ∃ ns, (performSubs O name c).2 = .ok ns ∧ subs = [] ∧
      c'.lc.get? ns = none ∧ SameConfigs (some ns) c.lc c'.lc ∧
      c'.env = c.env ∧ c'.lcStack = c.lcStack ∧ c'.envStack = c.envStack := by
  simp only [execute, M.bind] at h
  have f1 := performSubs_frames O name c
  cases h1 : performSubs O name c with
  | mk c1 r1 =>
    rw [h1] at h f1
    cases r1 with
    | error e => simp at h
    | ok ns =>
      simp at h
      obtain ⟨hc, hs⟩ := h
      have e1 : c1 = _ := f1.rest
      refine ⟨ns, rfl, hs, ?_, ?_, ?_, ?_, ?_⟩
      · rw [← hc]; exact Dict.get?_erase_self (f1.wf hwf) _
      · intro k hk
        rw [← hc]
        simp only
        rw [Dict.get?_erase_ne _ (fun h => hk (by rw [h]))]
        exact f1.same k
      all_goals rw [← hc]; simp only; rw [e1]

/-- C66: SetEnvironmentVariable gives exactly the named environment variable the value, and changes nothing else. -/
theorem C66_set_environment (P : Prog) (O : Oracle) (n : Nat) (id : ActId) (name value : List Sub)
    (c c' : Ctx) (subs : List Entity)
    (h : execute P O n id (.setEnv name value) c = some (c', .ok subs)) :
    ∃ vs ns c1, performSubs O value c = (c1, .ok vs) ∧ (performSubs O name c1).2 = .ok ns ∧ subs = [] ∧
      c'.env.get? ns = some vs ∧ (∀ k, k ≠ ns → c'.env.get? k = c.env.get? k) ∧
      SameConfigs none c.lc c'.lc ∧ c'.lcStack = c.lcStack ∧ c'.envStack = c.envStack := by
  simp only [execute, M.bind] at h
  have f1 := performSubs_frames O value c
  cases h1 : performSubs O value c with
  | mk c1 r1 =>
    rw [h1] at h f1
    cases r1 with
    | error e => simp at h
    | ok vs =>
      simp only at h
      have f2 := performSubs_frames O name c1
      cases h2 : performSubs O name c1 with
      | mk c2 r2 =>
        rw [h2] at h f2
        cases r2 with
        | error e => simp at h
        | ok ns =>
          simp only [Ctx.envSet] at h
          split at h
          · simp [Except.map] at h
            obtain ⟨hc, hs⟩ := h
            have e1 : c1 = _ := f1.rest
            have e2 : c2 = _ := f2.rest
            have l : c2.env = c.env := by rw [e2, e1]
            refine ⟨vs, ns, c1, rfl, by rw [h2], hs, ?_, ?_, ?_, ?_, ?_⟩
            · rw [← hc]; exact Dict.get?_set_self _ _ _
            · intro k hk; rw [← hc, ← l]; exact Dict.get?_set_ne _ _ (Ne.symm hk)
            · intro k _; rw [← hc]; exact (f1.trans f2).same k
            all_goals rw [← hc]; simp only; rw [e2, e1]
          · simp [Except.map] at h

/-- C66: SetEnvironmentVariable succeeds if name and value can be performed, the name is not empty and has neither
`=` nor NUL in it, and the value has no NUL in it; for other names and values it raises and no variable changes. -/
theorem C66_set_environment_accepts (P : Prog) (O : Oracle) (n : Nat) (id : ActId) (name value : List Sub)
    (c c1 c2 : Ctx) (vs ns : String) (hv : performSubs O value c = (c1, .ok vs))
    (hn : performSubs O name c1 = (c2, .ok ns)) :
    ((ns ≠ "" ∧ '=' ∉ ns.toList ∧ '\x00' ∉ ns.toList ∧ '\x00' ∉ vs.toList) →
      ∃ c', execute P O n id (.setEnv name value) c = some (c', .ok [])) ∧
    (¬ (ns ≠ "" ∧ '=' ∉ ns.toList ∧ '\x00' ∉ ns.toList ∧ '\x00' ∉ vs.toList) →
      ∃ c' e, execute P O n id (.setEnv name value) c = some (c', .error e) ∧ c'.env = c.env) := by
  have key : Ctx.envKeyOk ns vs = true ↔
      (ns ≠ "" ∧ '=' ∉ ns.toList ∧ '\x00' ∉ ns.toList ∧ '\x00' ∉ vs.toList) := by
    simp only [Ctx.envKeyOk, Bool.and_eq_true, bne_iff_ne, List.all_eq_true, Bool.and_eq_true]
    constructor
    · rintro ⟨⟨h1, h2⟩, h3⟩
      exact ⟨h1, fun h => (h2 _ h).1 rfl, fun h => (h2 _ h).2 rfl, fun h => h3 _ h rfl⟩
    · rintro ⟨h1, h2, h3, h4⟩
      refine ⟨⟨h1, fun x hx => ⟨?_, ?_⟩⟩, fun x hx => ?_⟩ <;> rintro rfl
      · exact h2 hx
      · exact h3 hx
      · exact h4 hx
  have f1 := performSubs_frames O value c
  have f2 := performSubs_frames O name c1
  rw [hv] at f1
  rw [hn] at f2
  have e1 : c1 = _ := f1.rest
  have e2 : c2 = _ := f2.rest
  constructor
  · intro h
    refine ⟨{ c2 with env := c2.env.set ns vs }, ?_⟩
    simp [execute, M.bind, hv, hn, Ctx.envSet, key.mpr h, Except.map]
  · intro h
    have hf : Ctx.envKeyOk ns vs = false := by
      cases hb : Ctx.envKeyOk ns vs with
      | false => rfl
      | true => exact absurd (key.mp hb) h
    refine ⟨c2, .osError, ?_, by rw [e2, e1]⟩
    simp [execute, M.bind, hv, hn, Ctx.envSet, hf, Except.map]

/-- C66: UnsetEnvironmentVariable removes exactly the named environment variable, so that it is not set at all
afterwards, and does nothing if it is not set. -/
theorem C66_unset_environment (P : Prog) (O : Oracle) (n : Nat) (id : ActId) (name : List Sub)
    (c c' : Ctx) (subs : List Entity) (hwf : c.env.Wf)
    (h : execute P O n id (.unsetEnv name) c = some (c', .ok subs)) :
    ∃ ns, (performSubs O name c).2 = .ok ns ∧ subs = [] ∧
      c'.env.get? ns = none ∧ (∀ k, k ≠ ns → c'.env.get? k = c.env.get? k) ∧
      SameConfigs none c.lc c'.lc ∧ c'.lcStack = c.lcStack ∧ c'.envStack = c.envStack := by
  simp only [execute, M.bind] at h
  have f1 := performSubs_frames O name c
  cases h1 : performSubs O name c with
  | mk c1 r1 =>
    rw [h1] at h f1
    cases r1 with
    | error e => simp at h
    | ok ns =>
      simp at h
      obtain ⟨hc, hs⟩ := h
      have e1 : c1 = _ := f1.rest
      have l : c1.env = c.env := by rw [e1]
      refine ⟨ns, rfl, hs, ?_, ?_, ?_, ?_, ?_⟩
      · rw [← hc]; exact Dict.get?_erase_self (by rw [l]; exact hwf) _
      · intro k hk; rw [← hc, ← l]; exact Dict.get?_erase_ne _ (Ne.symm hk)
      · intro k _; rw [← hc]; exact f1.same k
      all_goals rw [← hc]; simp only; rw [e1]

theorem performSubs_text (O : Oracle) (t : String) (c : Ctx) : performSubs O [.text t] c = (c, .ok t) := by
  simp [performSubs, performAll, perform, M.bind, M.pure, joinStrs]

/-- One assignment, visited: what it says becomes true, everything else stays, and dictionaries stay well-formed. -/
theorem setting_visit (P : Prog) (O : Oracle) (n : Nat) (id : ActId) (s : Setting) (c c' : Ctx) (fs : List Fut)
    (hl : c.lc.Wf) (he : c.env.Wf) (h : visit P O (n + 1) (s.action id) c = some (c', .ok fs)) :
    (∀ x, c'.lc.get? x = (s.saysConf x).getD (c.lc.get? x)) ∧
    (∀ x, c'.env.get? x = (s.saysEnv x).getD (c.env.get? x)) ∧ c'.lc.Wf ∧ c'.env.Wf := by
  cases s with
  | conf k v =>
    obtain ⟨c2, hx, hview⟩ := visit_leaf_view (fun c2 subs hx => execute_leaf rfl (by intros; simp) hx) h
    have hlc : c'.lc = c2.lc := congrArg View.lc hview
    have henv : c'.env = c2.env := congrArg View.env hview
    simp [execute, M.bind, performSubs_text, Ctx.lcSet] at hx
    rw [hlc, henv, ← hx]
    refine ⟨fun x => ?_, fun x => rfl, hl.set _ _, he⟩
    simp only [Dict.get?_set, Setting.saysConf]
    split <;> simp_all
  | unconf k =>
    obtain ⟨c2, hx, hview⟩ := visit_leaf_view (fun c2 subs hx => execute_leaf rfl (by intros; simp) hx) h
    have hlc : c'.lc = c2.lc := congrArg View.lc hview
    have henv : c'.env = c2.env := congrArg View.env hview
    simp [execute, M.bind, performSubs_text] at hx
    rw [hlc, henv, ← hx]
    refine ⟨fun x => ?_, fun x => rfl, hl.erase _, he⟩
    simp only [Setting.saysConf]
    split
    · next hk => subst hk; simpa using Dict.get?_erase_self hl _
    · next hk => simpa using Dict.get?_erase_ne _ hk
  | env k v =>
    obtain ⟨c2, hx, hview⟩ := visit_leaf_view (fun c2 subs hx => execute_leaf rfl (by intros; simp) hx) h
    have hlc : c'.lc = c2.lc := congrArg View.lc hview
    have henv : c'.env = c2.env := congrArg View.env hview
    simp only [execute, M.bind, performSubs_text, Ctx.envSet] at hx
    split at hx
    · simp [Except.map] at hx
      rw [hlc, henv, ← hx]
      refine ⟨fun x => rfl, fun x => ?_, hl, he.set _ _⟩
      simp only [Dict.get?_set, Setting.saysEnv]
      split <;> simp_all
    · simp [Except.map] at hx
  | unenv k =>
    obtain ⟨c2, hx, hview⟩ := visit_leaf_view (fun c2 subs hx => execute_leaf rfl (by intros; simp) hx) h
    have hlc : c'.lc = c2.lc := congrArg View.lc hview
    have henv : c'.env = c2.env := congrArg View.env hview
    simp [execute, M.bind, performSubs_text] at hx
    rw [hlc, henv, ← hx]
    refine ⟨fun x => rfl, fun x => ?_, hl, he.erase _⟩
    simp only [Setting.saysEnv]
    split
    · next hk => subst hk; simpa using Dict.get?_erase_self he _
    · next hk => simpa using Dict.get?_erase_ne _ hk

theorem lastSaid_cons (says : Setting → Option (Option String)) (s : Setting) (ss : List Setting)
    (d : Option String) :
    (lastSaid says (s :: ss)).getD d = (lastSaid says ss).getD ((says s).getD d) := by
  simp only [lastSaid, List.reverse_cons, List.findSome?_append, List.findSome?_cons, List.findSome?_nil]
  cases ss.reverse.findSome? says <;> cases says s <;> rfl

/-- C66: after any sequence of assignments, each launch configuration and each environment variable has the value the
last assignment to it gave it (none if that unset it), and those not assigned to are as before. -/
theorem C66_last_assignment (P : Prog) (O : Oracle) (n : Nat) (id : ActId) : ∀ (ss : List Setting)
    (c c' : Ctx) (fs : List Fut), c.lc.Wf → c.env.Wf →
    visitList (visit P O (n + 1)) (ss.map (Setting.action id)) c = some (c', .ok fs) →
    (∀ x, c'.lc.get? x = (lastSaid (Setting.saysConf x) ss).getD (c.lc.get? x)) ∧
    (∀ x, c'.env.get? x = (lastSaid (Setting.saysEnv x) ss).getD (c.env.get? x))
  | [], c, c', fs, _, _, h => by
    have := visitList_nil_ok h
    subst this
    exact ⟨fun _ => rfl, fun _ => rfl⟩
  | s :: ss, c, c', fs, hl, he, h => by
    obtain ⟨c1, _, _, h1, h2, _⟩ := visitList_cons_ok h
    obtain ⟨a1, a2, a3, a4⟩ := setting_visit P O n id s c c1 _ hl he h1
    obtain ⟨b1, b2⟩ := C66_last_assignment P O n id ss c1 c' _ a3 a4 h2
    exact ⟨fun x => by rw [lastSaid_cons, ← a1]; exact b1 x, fun x => by rw [lastSaid_cons, ← a2]; exact b2 x⟩

/-- A sequence that meets the hypotheses, and what it does. -/
example : (match visitList (visit sampleProg sampleOracle 2)
    ([.conf "a" "1", .env "HOME" "/x", .unconf "b", .unenv "LANG", .conf "a" "2", .unenv "NONE"].map
      (Setting.action (.user 0))) { lc := [("b", "0")], env := [("LANG", "C"), ("PATH", "p")] } with
    | some (c', .ok _) => decide (c'.lc = [("a", "2")] ∧ c'.env = [("PATH", "p"), ("HOME", "/x")])
    | _ => false) = true := by decide +kernel

example : lastSaid (Setting.saysConf "a") [.conf "a" "1", .conf "b" "3", .unconf "a"] = some none := rfl

example : ∃ c', execute sampleProg sampleOracle 1 (.user 0) (.setEnv [.text "A=B"] [.text "x"]) {} =
    some (c', .error .osError) := ⟨_, rfl⟩

end Verif
