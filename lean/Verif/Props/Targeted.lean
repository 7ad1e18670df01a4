import Verif.Spec.Targeted

/-! # C121: events targeted at processes reach these processes -/

namespace Verif

theorem tgt_steps_concat (l : List TgtStep) (s : TgtStep) : ∀ t : Tgt, t.steps (l ++ [s]) = (t.steps l).bind fun t' => t'.step s := by
  induction l with
  | nil => intro t; simp [Tgt.steps]
  | cons x l ih =>
    intro t
    simp only [List.cons_append, Tgt.steps]
    cases t.step x with
    | none => rfl
    | some t' => exact ih t'

/-- What is true of an action with this history. -/
structure TgtInv (name : String) (cmd : List String) (h : List TgtStep) (t : Tgt) : Prop where
  name : t.details.name = name
  cmd : t.details.cmd = cmd
  runs : ∀ p, (t.transport = some p ∧ t.complete = false) ↔ RunsProcess h p
  started : t.transport.isSome = true ↔ HasStarted h
  attached : t.phase = .attached → t.transport = t.details.pid ∧ t.transport.isSome = true
  over : t.phase ≠ .attached → t.transport = none ∨ t.complete = true
  connected : t.phase = .connected → ∃ pre p, h = pre ++ [.connect p] ∧ t.details.pid = some p
  notYet : t.phase ≠ .connected → ∀ pre p, h ≠ pre ++ [.connect p]
  known : t.transport.isSome = true → t.details.pid.isSome = true

theorem runs_concat (l : List TgtStep) (s : TgtStep) (p : Nat) : RunsProcess (l ++ [s]) p ↔ s = .attach false ∧ ∃ pre, l = pre ++ [.connect p] := by
  constructor
  · rintro ⟨pre, h⟩
    rw [show pre ++ [TgtStep.connect p, .attach false] = (pre ++ [.connect p]) ++ [.attach false] by simp] at h
    have := List.append_inj' h rfl
    exact ⟨by simpa using this.2, pre, this.1⟩
  · rintro ⟨rfl, pre, rfl⟩
    exact ⟨pre, by simp⟩

theorem last_inj {l pre : List TgtStep} {s x : TgtStep} (h : l ++ [s] = pre ++ [x]) : s = x := by
  have := (List.append_inj' h rfl).2
  simpa using this

theorem TgtInv.reach {name : String} {cmd : List String} (h : List TgtStep) :
    ∀ t, (Tgt.executed name cmd).steps h = some t → TgtInv name cmd h t := by
  rw [show h = h.reverse.reverse by simp]
  generalize h.reverse = r
  induction r with
  | nil =>
    intro t ht
    cases ht
    refine ⟨rfl, rfl, fun p => ?_, ?_, ?_, ?_, ?_, ?_, ?_⟩
    · constructor
      · intro h; cases h.1
      · rintro ⟨pre, h⟩; simp at h
    · constructor
      · intro h; cases h
      · rintro ⟨b, h⟩; simp at h
    · intro h; cases h
    · intro _; exact .inl rfl
    · intro h; cases h
    · intro _ pre p h; simp at h
    · intro h; cases h
  | cons s r ih =>
    intro t ht
    rw [List.reverse_cons, tgt_steps_concat] at ht
    rw [List.reverse_cons]
    cases hp : (Tgt.executed name cmd).steps r.reverse with
    | none => rw [hp] at ht; cases ht
    | some u =>
      rw [hp] at ht
      have i := ih u hp
      simp only [Option.bind_some] at ht
      cases s with
      | connect p =>
        simp only [Tgt.step] at ht
        split at ht
        next hb =>
          cases ht
          refine ⟨i.name, i.cmd, fun q => ?_, ?_, by simp, fun _ => i.over (by rw [hb]; decide), fun _ => ⟨_, p, rfl, rfl⟩, by simp, by simp⟩
          · rw [runs_concat]
            constructor
            · rintro ⟨h1, h2⟩
              rcases i.over (by rw [hb]; decide) with h | h
              · rw [h] at h1; cases h1
              · rw [h] at h2; cases h2
            · rintro ⟨h, _⟩; cases h
          · rw [i.started]
            constructor
            · rintro ⟨b, h⟩; exact ⟨b, by simp [h]⟩
            · rintro ⟨b, h⟩; exact ⟨b, by simpa using h⟩
        next => cases ht
      | attach over =>
        simp only [Tgt.step] at ht
        split at ht
        next hb =>
          cases ht
          obtain ⟨pre, p, hl, hpid⟩ := i.connected hb
          refine ⟨i.name, i.cmd, fun q => ?_, ?_, fun _ => ⟨rfl, by simp [hpid]⟩, by simp, by simp, ?_, by simp⟩
          · rw [runs_concat]
            simp only [hpid, Option.some.injEq, TgtStep.attach.injEq]
            constructor
            · rintro ⟨rfl, h2⟩; exact ⟨h2, pre, hl⟩
            · rintro ⟨h, pre', h'⟩
              rw [hl] at h'
              have := last_inj h'
              simp only [TgtStep.connect.injEq] at this
              exact ⟨this, h⟩
          · simp only [hpid, Option.isSome_some, true_iff]
            exact ⟨over, by simp⟩
          · intro _ pre' p' h
            have := last_inj h
            cases this
        next => cases ht
      | ended =>
        simp only [Tgt.step] at ht
        split at ht
        next hb =>
          simp only [Bool.and_eq_true, decide_eq_true_eq, Bool.not_eq_true'] at hb
          cases ht
          refine ⟨i.name, i.cmd, fun q => ?_, ?_, fun h => i.attached h, fun h => absurd hb.1 h, ?_, ?_, i.known⟩
          · rw [runs_concat]
            constructor
            · rintro ⟨_, h⟩; cases h
            · rintro ⟨h, _⟩; cases h
          · rw [i.started]
            constructor
            · rintro ⟨b, h⟩; exact ⟨b, by simp [h]⟩
            · rintro ⟨b, h⟩; exact ⟨b, by simpa using h⟩
          · intro h
            have h : u.phase = .connected := h
            rw [hb.1] at h
            cases h
          · intro _ pre' p' h
            have := last_inj h
            cases this
        next => cases ht
      | respawn =>
        simp only [Tgt.step] at ht
        split at ht
        next hb =>
          simp only [Bool.and_eq_true, decide_eq_true_eq] at hb
          cases ht
          refine ⟨i.name, i.cmd, fun q => ?_, ?_, by simp, fun _ => .inr hb.2, by simp, ?_, i.known⟩
          · rw [runs_concat]
            constructor
            · rintro ⟨_, h⟩
              have h : u.complete = false := h
              rw [hb.2] at h
              cases h
            · rintro ⟨h, _⟩; cases h
          · rw [i.started]
            constructor
            · rintro ⟨b, h⟩; exact ⟨b, by simp [h]⟩
            · rintro ⟨b, h⟩; exact ⟨b, by simpa using h⟩
          · intro _ pre' p' h
            have := last_inj h
            cases this
        next => cases ht

theorem TgtInv.pid_runs {name : String} {cmd : List String} {h : List TgtStep} {t : Tgt} (i : TgtInv name cmd h t) (p : Nat) (hr : RunsProcess h p) :
    t.details.pid = some p := by
  obtain ⟨h1, h2⟩ := (i.runs p).2 hr
  have hp : t.phase = .attached := by
    cases hph : t.phase with
    | attached => rfl
    | begun => rcases i.over (by rw [hph]; decide) with h | h; · rw [h] at h1; cases h1
               · rw [h] at h2; cases h2
    | connected => rcases i.over (by rw [hph]; decide) with h | h; · rw [h] at h1; cases h1
                   · rw [h] at h2; cases h2
  rw [← (i.attached hp).1, h1]

theorem States.inv {xs : List Executed} : ∀ {ts : List (Nat × Tgt)}, States xs ts → ∀ i t, (i, t) ∈ ts →
    ∃ x ∈ xs, x.id = i ∧ x.state = some t ∧ TgtInv x.name x.cmd x.history t := by
  induction xs with
  | nil =>
    intro ts h i t hm
    cases ts with
    | nil => cases hm
    | cons a ts => exact h.elim
  | cons x xs ih =>
    intro ts h i t hm
    cases ts with
    | nil => cases hm
    | cons a ts =>
      obtain ⟨j, u⟩ := a
      obtain ⟨h1, h2, h3⟩ := h
      rcases List.mem_cons.1 hm with hm | hm
      · cases hm
        exact ⟨x, List.mem_cons_self, h1, h2, .reach _ _ h2⟩
      · obtain ⟨y, hy, r⟩ := ih h3 i t hm
        exact ⟨y, List.mem_cons_of_mem _ hy, r⟩

theorem States.mem {xs : List Executed} : ∀ {ts : List (Nat × Tgt)}, States xs ts → ∀ x ∈ xs, ∃ t, (x.id, t) ∈ ts ∧ x.state = some t := by
  induction xs with
  | nil => intro ts _ x hx; cases hx
  | cons y xs ih =>
    intro ts h x hx
    cases ts with
    | nil => exact h.elim
    | cons a ts =>
      obtain ⟨j, u⟩ := a
      obtain ⟨h1, h2, h3⟩ := h
      rcases List.mem_cons.1 hx with hx | hx
      · subst hx; exact ⟨u, h1 ▸ List.mem_cons_self, h2⟩
      · obtain ⟨t, ht, hs⟩ := ih h3 x hx
        exact ⟨t, List.mem_cons_of_mem _ ht, hs⟩

/-- What a handler sends. -/
theorem onSignal_sent {m : Res Bool} {v : SigVal} {alive : Bool} {t : Tgt} {p : Nat} {s : String} (h : t.onSignal m v alive = .ok (some (p, s))) :
    m = .ok true ∧ t.transport = some p ∧ t.complete = false ∧ alive = true ∧ s = v.name ∧ (v = .signal s ∨ s = "SIGKILL") := by
  unfold Tgt.onSignal at h
  split at h
  · cases h
  · cases h
  · split at h
    · cases h
    next pid htr =>
      split at h
      · cases h
      next hc =>
        split at h
        · cases h
        next ha =>
          split at h
          next hk => cases h; exact ⟨rfl, htr, by simpa using hc, by simpa using ha, hk.symm, .inr rfl⟩
          next hk =>
            cases v with
            | signal n => cases h; exact ⟨rfl, htr, by simpa using hc, by simpa using ha, rfl, .inl rfl⟩
            | text s' => cases h

theorem signalAll_mem (m : Matcher) (v : SigVal) (alive : Nat → Bool) (ts : List (Nat × Tgt)) : ∀ i p s, (i, p, s) ∈ (signalAll m v alive ts).1 →
    ∃ t, (i, t) ∈ ts ∧ t.onSignal (m i t) v (alive i) = .ok (some (p, s)) := by
  induction ts with
  | nil => intro i p s h; cases h
  | cons a ts ih =>
    obtain ⟨j, u⟩ := a
    intro i p s h
    unfold signalAll at h
    split at h
    · cases h
    · obtain ⟨t, ht, r⟩ := ih i p s h
      exact ⟨t, List.mem_cons_of_mem _ ht, r⟩
    next x hx =>
      rcases List.mem_cons.1 h with h | h
      · cases h; exact ⟨u, List.mem_cons_self, hx⟩
      · obtain ⟨t, ht, r⟩ := ih i p s h
        exact ⟨t, List.mem_cons_of_mem _ ht, r⟩

/-- A SignalProcess event never has an effect on other processes: what is sent goes to actions that the matcher accepts, to the process they run at that time, which is still
known to the operating system, and it is the signal the event names. -/
theorem C121_only_targets (xs : List Executed) (ts : List (Nat × Tgt)) (hs : States xs ts) (m : Matcher) (v : SigVal) (alive : Nat → Bool) (i p : Nat) (s : String)
    (h : (i, p, s) ∈ (signalAll m v alive ts).1) :
    ∃ x ∈ xs, ∃ t, x.id = i ∧ x.state = some t ∧ m i t = .ok true ∧ RunsProcess x.history p ∧ alive i = true ∧ s = v.name := by
  obtain ⟨t, ht, hd⟩ := signalAll_mem m v alive ts i p s h
  obtain ⟨x, hx, hi, hst, inv⟩ := hs.inv i t ht
  obtain ⟨h1, h2, h3, h4, h5, _⟩ := onSignal_sent hd
  exact ⟨x, hx, t, hi, hst, h1, (inv.runs p).1 ⟨h2, h3⟩, h4, h5⟩

/-- In the order of the actions, each at most once. -/
theorem C121_order (m : Matcher) (v : SigVal) (alive : Nat → Bool) (ts : List (Nat × Tgt)) :
    ((signalAll m v alive ts).1.map (·.1)).Sublist (ts.map (·.1)) := by
  induction ts with
  | nil => exact List.Sublist.slnil
  | cons a ts ih =>
    obtain ⟨j, u⟩ := a
    unfold signalAll
    split
    · exact List.nil_sublist _
    · exact ih.cons _
    · exact ih.cons_cons _

/-- The value can be sent: a member of `signal.Signals`, or the text SIGKILL. -/
def SigVal.Valid : SigVal → Prop
  | .signal _ => True
  | .text s => s = "SIGKILL"

theorem onSignal_ok {b : Bool} {v : SigVal} (hv : v.Valid) {alive : Bool} {t : Tgt} (ht : b = true → t.transport.isSome = true) :
    (∃ o, t.onSignal (.ok b) v alive = .ok o) ∧
    (∀ p, b = true → t.transport = some p → t.complete = false → alive = true → t.onSignal (.ok b) v alive = .ok (some (p, v.name))) := by
  cases b with
  | false => exact ⟨⟨none, rfl⟩, by simp⟩
  | true =>
    obtain ⟨q, hq⟩ := Option.isSome_iff_exists.1 (ht rfl)
    constructor
    · unfold Tgt.onSignal
      simp only [hq]
      split
      · exact ⟨_, rfl⟩
      · split
        · exact ⟨_, rfl⟩
        · split
          · exact ⟨_, rfl⟩
          next hk =>
            cases v with
            | signal n => exact ⟨_, rfl⟩
            | text s => exact absurd hv hk
    · intro p _ hp hc ha
      unfold Tgt.onSignal
      simp only [hp, hc, ha, Bool.false_eq_true, if_false, Bool.not_true]
      split
      next hk => rw [hk]
      next hk =>
        cases v with
        | signal n => rfl
        | text s => exact absurd hv hk

theorem signalAll_ok (m : Matcher) (v : SigVal) (hv : v.Valid) (alive : Nat → Bool) (ts : List (Nat × Tgt))
    (hm : ∀ i t, (i, t) ∈ ts → ∃ b, m i t = .ok b ∧ (b = true → t.transport.isSome = true)) :
    (signalAll m v alive ts).2 = none ∧
    ∀ i t p, (i, t) ∈ ts → m i t = .ok true → t.transport = some p → t.complete = false → alive i = true → (i, p, v.name) ∈ (signalAll m v alive ts).1 := by
  induction ts with
  | nil => exact ⟨rfl, by intro i t p h; cases h⟩
  | cons a ts ih =>
    obtain ⟨j, u⟩ := a
    obtain ⟨b, hb, hbt⟩ := hm j u List.mem_cons_self
    obtain ⟨i1, i2⟩ := ih (fun i t h => hm i t (List.mem_cons_of_mem _ h))
    obtain ⟨⟨o, ho⟩, hsent⟩ := onSignal_ok hv (alive := alive j) hbt
    have hfirst : ∀ p, m j u = .ok true → u.transport = some p → u.complete = false → alive j = true → o = some (p, v.name) := by
      intro p h1 h2 h3 h4
      rw [hb] at h1
      have hbt : b = true := by injection h1
      have := hsent p hbt h2 h3 h4
      rw [ho] at this
      injection this
    unfold signalAll
    rw [hb, ho]
    cases o with
    | none =>
      refine ⟨i1, ?_⟩
      intro i t p h h1 h2 h3 h4
      rcases List.mem_cons.1 h with h | h
      · cases h; cases hfirst p h1 h2 h3 h4
      · exact i2 i t p h h1 h2 h3 h4
    | some x =>
      refine ⟨i1, ?_⟩
      intro i t p h h1 h2 h3 h4
      rcases List.mem_cons.1 h with h | h
      · cases h
        cases hfirst p h1 h2 h3 h4
        exact List.mem_cons_self
      · exact List.mem_cons_of_mem _ (i2 i t p h h1 h2 h3 h4)

/-- If the matcher raises for no action, every action it accepts has started a process before, and the value is valid, then the event is handled without an exception and every
process that is run by an accepted action gets the signal.  Partial: the violations show that the conditions are needed. -/
theorem C121_reaches_partial (xs : List Executed) (ts : List (Nat × Tgt)) (hs : States xs ts) (m : Matcher) (v : SigVal) (hv : v.Valid) (alive : Nat → Bool)
    (hm : ∀ x ∈ xs, ∀ t, x.state = some t → ∃ b, m x.id t = .ok b ∧ (b = true → HasStarted x.history)) :
    (signalAll m v alive ts).2 = none ∧
    ∀ x ∈ xs, ∀ t p, x.state = some t → m x.id t = .ok true → RunsProcess x.history p → alive x.id = true → (x.id, p, v.name) ∈ (signalAll m v alive ts).1 := by
  obtain ⟨h1, h2⟩ := signalAll_ok m v hv alive ts (fun i t h => by
    obtain ⟨x, hx, hi, hst, inv⟩ := hs.inv i t h
    obtain ⟨b, hb, hbs⟩ := hm x hx t hst
    exact ⟨b, hi ▸ hb, fun e => inv.started.2 (hbs e)⟩)
  refine ⟨h1, fun x hx t p hst hmt hr ha => ?_⟩
  obtain ⟨t', ht', hst'⟩ := hs.mem x hx
  rw [hst] at hst'
  cases hst'
  obtain ⟨hp, hc⟩ := ((TgtInv.reach x.history t hst).runs p).2 hr
  exact h2 x.id t p ht' hmt hp hc ha

/-- Two actions with the same name, one of them respawned: both get the signal. -/
example : ∃ ts, States [⟨2, "n", ["b"], [.connect 7, .attach false, .ended, .respawn, .connect 9, .attach false]⟩, ⟨1, "n", ["a"], [.connect 5, .attach false]⟩,
      ⟨0, "o", ["a"], []⟩] ts ∧
    signalAll (Matcher.name "n") (.signal "SIGUSR1") (fun _ => true) ts = ([(2, 9, "SIGUSR1"), (1, 5, "SIGUSR1")], none) :=
  ⟨[(2, ⟨⟨"n", ["b"], some 9⟩, some 9, false, .attached⟩), (1, ⟨⟨"n", ["a"], some 5⟩, some 5, false, .attached⟩), (0, ⟨⟨"o", ["a"], none⟩, none, false, .begun⟩)],
    ⟨rfl, rfl, rfl, rfl, rfl, rfl, trivial⟩, rfl⟩

/-- An event for a process id, when every executed action has started a process: exactly the action running that process gets it. -/
theorem C121_by_pid_partial (xs : List Executed) (ts : List (Nat × Tgt)) (hs : States xs ts) (v : SigVal) (hv : v.Valid) (alive : Nat → Bool) (pid : Nat)
    (hst : ∀ x ∈ xs, HasStarted x.history) :
    (signalAll (Matcher.pid pid) v alive ts).2 = none ∧
    ∀ i p s, (i, p, s) ∈ (signalAll (Matcher.pid pid) v alive ts).1 ↔
      p = pid ∧ s = v.name ∧ alive i = true ∧ ∃ x ∈ xs, x.id = i ∧ RunsProcess x.history pid := by
  have hpid : ∀ x ∈ xs, ∀ t, x.state = some t → ∃ q, t.details.pid = some q ∧ Matcher.pid pid x.id t = .ok (q == pid) := by
    intro x hx t ht
    have inv := TgtInv.reach x.history t ht
    obtain ⟨q, hq⟩ := Option.isSome_iff_exists.1 (inv.known (inv.started.2 (hst x hx)))
    exact ⟨q, hq, by simp [Matcher.pid, matchesPid, hq]⟩
  obtain ⟨h1, h2⟩ := C121_reaches_partial xs ts hs (Matcher.pid pid) v hv alive (fun x hx t ht => by
    obtain ⟨q, _, hm⟩ := hpid x hx t ht
    exact ⟨_, hm, fun _ => hst x hx⟩)
  refine ⟨h1, fun i p s => ⟨fun h => ?_, ?_⟩⟩
  · obtain ⟨x, hx, t, hi, ht, hm, hr, ha, hn⟩ := C121_only_targets xs ts hs _ v alive i p s h
    obtain ⟨q, hq, hm'⟩ := hpid x hx t ht
    have hp := (TgtInv.reach x.history t ht).pid_runs p hr
    rw [hq] at hp
    cases hp
    rw [hi] at hm'
    rw [hm] at hm'
    have e : p = pid := by
      injection hm' with e
      simpa using e.symm
    exact ⟨e, hn, ha, x, hx, hi, e ▸ hr⟩
  · rintro ⟨rfl, rfl, ha, x, hx, rfl, hr⟩
    obtain ⟨t, _, ht⟩ := hs.mem x hx
    obtain ⟨q, hq, hm⟩ := hpid x hx t ht
    have hp := (TgtInv.reach x.history t ht).pid_runs p hr
    rw [hq] at hp
    cases hp
    exact h2 x hx t p ht (by rw [hm]; simp) hr ha

/-- The id was used before by a process that has ended: only the one that runs gets the signal. -/
example : ∃ ts, States [⟨2, "m", ["b"], [.connect 7, .attach false, .ended]⟩, ⟨1, "n", ["a"], [.connect 7, .attach false]⟩] ts ∧
    signalAll (Matcher.pid 7) (.signal "SIGTERM") (fun _ => true) ts = ([(1, 7, "SIGTERM")], none) :=
  ⟨[(2, ⟨⟨"m", ["b"], some 7⟩, some 7, true, .attached⟩), (1, ⟨⟨"n", ["a"], some 7⟩, some 7, false, .attached⟩)], ⟨rfl, rfl, rfl, rfl, trivial⟩, rfl⟩

/-- An event for an action that has started a process: exactly that action gets it, whatever the state of the others. -/
theorem C121_by_action_partial (xs : List Executed) (ts : List (Nat × Tgt)) (hs : States xs ts) (v : SigVal) (hv : v.Valid) (alive : Nat → Bool) (a : Nat)
    (hst : ∀ x ∈ xs, x.id = a → HasStarted x.history) :
    (signalAll (Matcher.action a) v alive ts).2 = none ∧
    ∀ i p s, (i, p, s) ∈ (signalAll (Matcher.action a) v alive ts).1 ↔
      i = a ∧ s = v.name ∧ alive a = true ∧ ∃ x ∈ xs, x.id = a ∧ RunsProcess x.history p := by
  obtain ⟨h1, h2⟩ := C121_reaches_partial xs ts hs (Matcher.action a) v hv alive (fun x hx t _ =>
    ⟨_, rfl, fun e => hst x hx (by simpa using e)⟩)
  refine ⟨h1, fun i p s => ⟨fun h => ?_, ?_⟩⟩
  · obtain ⟨x, hx, t, hi, ht, hm, hr, ha, hn⟩ := C121_only_targets xs ts hs _ v alive i p s h
    have e : i = a := by
      injection hm with e
      simpa using e
    exact ⟨e, hn, e ▸ ha, x, hx, hi.trans e, hr⟩
  · rintro ⟨rfl, rfl, ha, x, hx, rfl, hr⟩
    obtain ⟨t, _, ht⟩ := hs.mem x hx
    exact h2 x hx t p ht (by simp [Matcher.action]) hr ha

example : ∃ ts, States [⟨2, "m", ["b"], []⟩, ⟨1, "n", ["a"], [.connect 7, .attach false]⟩] ts ∧
    signalAll (Matcher.action 1) (.text "SIGKILL") (fun _ => true) ts = ([(1, 7, "SIGKILL")], none) :=
  ⟨[(2, ⟨⟨"m", ["b"], none⟩, none, false, .begun⟩), (1, ⟨⟨"n", ["a"], some 7⟩, some 7, false, .attached⟩)], ⟨rfl, rfl, rfl, rfl, trivial⟩, rfl⟩

/-- An event for a name, when every executed action of that name has started a process: exactly the actions of that name get it. -/
theorem C121_by_name_partial (xs : List Executed) (ts : List (Nat × Tgt)) (hs : States xs ts) (v : SigVal) (hv : v.Valid) (alive : Nat → Bool) (n : String)
    (hst : ∀ x ∈ xs, x.name = n → HasStarted x.history) :
    (signalAll (Matcher.name n) v alive ts).2 = none ∧
    ∀ i p s, (i, p, s) ∈ (signalAll (Matcher.name n) v alive ts).1 ↔
      s = v.name ∧ alive i = true ∧ ∃ x ∈ xs, x.id = i ∧ x.name = n ∧ RunsProcess x.history p := by
  have hname : ∀ x ∈ xs, ∀ t, x.state = some t → Matcher.name n x.id t = .ok (x.name == n) := by
    intro x hx t ht
    simp [Matcher.name, matchesName, (TgtInv.reach x.history t ht).name]
  obtain ⟨h1, h2⟩ := C121_reaches_partial xs ts hs (Matcher.name n) v hv alive (fun x hx t ht =>
    ⟨_, hname x hx t ht, fun e => hst x hx (by simpa using e)⟩)
  refine ⟨h1, fun i p s => ⟨fun h => ?_, ?_⟩⟩
  · obtain ⟨x, hx, t, hi, ht, hm, hr, ha, hn⟩ := C121_only_targets xs ts hs _ v alive i p s h
    have hm' := hname x hx t ht
    rw [hi, hm] at hm'
    have e : x.name = n := by
      injection hm' with e
      simpa using e.symm
    exact ⟨hn, ha, x, hx, hi, e, hr⟩
  · rintro ⟨rfl, ha, x, hx, rfl, hn, hr⟩
    obtain ⟨t, _, ht⟩ := hs.mem x hx
    exact h2 x hx t p ht (by rw [hname x hx t ht]; simp [hn]) hr ha

/-- A ShutdownProcess event asks exactly the accepted actions, in their order, if the matcher raises for none. -/
theorem C121_shutdown_partial (m : Matcher) (ts : List (Nat × Tgt)) (f : Nat × Tgt → Bool) (hm : ∀ a ∈ ts, m a.1 a.2 = .ok (f a)) :
    shutdownAll m ts = ((ts.filter f).map (·.1), none) := by
  induction ts with
  | nil => rfl
  | cons a ts ih =>
    obtain ⟨j, u⟩ := a
    have ih := ih (fun a h => hm a (List.mem_cons_of_mem _ h))
    have h := hm (j, u) List.mem_cons_self
    unfold shutdownAll
    simp only at h
    rw [h, ih]
    cases hf : f (j, u) <;> simp [hf]

example : shutdownAll (Matcher.executable "ls") [(2, Tgt.executed "a" ["/bin/ls"]), (1, Tgt.executed "b" ["cat", "ls"]), (0, Tgt.executed "c" ["ls"])] = ([2, 0], none) := by
  rfl

/-- An accepted action whose process was not started yet, or could not be started, makes the handling fail: the accepted actions executed before it do not get the signal. -/
theorem C121_not_started_violated (v : SigVal) (n : String) (cmd cmd' : List String) (p : Nat) :
    ∃ ts, States [⟨2, n, cmd, []⟩, ⟨1, n, cmd', [.connect p, .attach false]⟩] ts ∧
      signalAll (Matcher.name n) v (fun _ => true) ts = ([], some .runtimeError) :=
  ⟨[(2, ⟨⟨n, cmd, none⟩, none, false, .begun⟩), (1, ⟨⟨n, cmd', some p⟩, some p, false, .attached⟩)], ⟨rfl, rfl, rfl, rfl, trivial⟩, by
    simp [signalAll, Matcher.name, matchesName, Tgt.onSignal]⟩

/-- Any action that was executed and has no process yet, or whose process could not be started, makes the handling of an event for the id of another process fail. -/
theorem C121_unrelated_violated (v : SigVal) (n n' : String) (cmd cmd' : List String) (p : Nat) :
    ∃ ts, States [⟨2, n, cmd, []⟩, ⟨1, n', cmd', [.connect p, .attach false]⟩] ts ∧
      signalAll (Matcher.pid p) v (fun _ => true) ts = ([], some .keyError) ∧ shutdownAll (Matcher.pid p) ts = ([], some .keyError) :=
  ⟨[(2, ⟨⟨n, cmd, none⟩, none, false, .begun⟩), (1, ⟨⟨n', cmd', some p⟩, some p, false, .attached⟩)], ⟨rfl, rfl, rfl, rfl, trivial⟩, by
    simp [signalAll, Matcher.pid, matchesPid, Tgt.onSignal], by simp [shutdownAll, Matcher.pid, matchesPid]⟩

/-- SignalProcess accepts the name of a signal as a text, but a text other than SIGKILL makes the handling fail. -/
theorem C121_text_violated (s : String) (hs : s ≠ "SIGKILL") (n : String) (cmd : List String) (p : Nat) :
    ∃ ts, States [⟨1, n, cmd, [.connect p, .attach false]⟩] ts ∧
      signalAll (Matcher.action 1) (.text s) (fun _ => true) ts = ([], some .typeError) :=
  ⟨[(1, ⟨⟨n, cmd, some p⟩, some p, false, .attached⟩)], ⟨rfl, rfl, trivial⟩, by
    simp [signalAll, Matcher.action, Tgt.onSignal, SigVal.name, hs]⟩

end Verif
