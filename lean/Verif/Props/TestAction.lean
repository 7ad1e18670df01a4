import Verif.Model.TestAction
import Verif.Props.ExecuteLocal
import Verif.Props.Timer

/-!
# Test actions: C97
-/

namespace Verif
open ProcAct

/-- A test action with arguments `c` is in state `s` after these labels. -/
def TestAct.Reaches (c : TestCfg) (ls : List TestLabel) (s : TestAct) : Prop := runSteps (TestAct.step c) {} ls = some s

/-- What a label is for the process action. -/
def TestLabel.procPart : TestLabel → List ProcLabel
  | .execute => [.execute]
  | .proc l => [l]
  | .timerProcess => [.ask true]
  | .tick => [.tick]
  | _ => []

/-- The timeout in ticks. -/
def TestCfg.limit (c : TestCfg) : Nat := c.timeout.getD 0

/-! ## Invariant -/

/-- The timer has at most one task, which ends at the timeout. -/
structure TestAct.Inv (c : TestCfg) (s : TestAct) : Prop where
  now : s.p.now = s.t.now
  armed : s.armed = true → s.p.executed = true ∧ s.t.installed = true ∧ s.t.canc = some 1 ∧
    ∃ x, s.t.tasks = [x] ∧ (x = .scheduled ∨ (∃ d, x = .waiting 1 d ∧ c.limit ≤ d) ∨ ∃ b, x = .ended b)
  unarmed : s.armed = false → s.t = { now := s.t.now }
  queue : ∀ e ∈ s.t.queue, e = .timer
  due : 0 < s.t.performed ∨ s.t.queue ≠ [] → c.limit ≤ s.t.now

theorem now_step {c : ProcCfg} {a a' : ProcAct} {l : ProcLabel} (hs : a.step c l = some a') :
    a'.now = a.now + (if l = .tick then 1 else 0) := by
  cases l with
  | execute =>
    simp only [ProcAct.step, Option.some.injEq] at hs; subst hs
    unfold execute
    split
    · rfl
    · simp only; split <;> rfl
  | process => rw [(process_frame hs).rest]; rfl
  | begin ok =>
    simp only [ProcAct.step] at hs
    split at hs
    · simp only [Option.some.injEq] at hs; subst hs; rfl
    · cases hs
  | spawn =>
    simp only [ProcAct.step] at hs
    split at hs
    · simp only [Option.some.injEq] at hs; subst hs; rfl
    · cases hs
  | spawnFail =>
    simp only [ProcAct.step] at hs
    split at hs
    · simp only [Option.some.injEq] at hs; subst hs; rfl
    · cases hs
  | attach =>
    simp only [ProcAct.step] at hs
    split at hs
    · simp only [Option.some.injEq] at hs; subst hs; rfl
    · cases hs
  | procExit n code =>
    simp only [ProcAct.step] at hs
    split at hs
    · simp only [Option.some.injEq] at hs; subst hs; rfl
    · cases hs
  | observe =>
    simp only [ProcAct.step] at hs
    split at hs
    · split at hs
      · simp only [Option.some.injEq] at hs; subst hs
        unfold observe
        simp only
        split <;> rfl
      · cases hs
    · cases hs
  | delayOver =>
    simp only [ProcAct.step] at hs
    split at hs
    · simp only [Option.some.injEq] at hs; subst hs
      split <;> rfl
    · cases hs
  | timerBegin s =>
    simp only [ProcAct.step] at hs
    split at hs
    · simp only [Option.some.injEq] at hs; subst hs; rw [setTimer_eq]; rfl
    · cases hs
  | timerFire s =>
    simp only [ProcAct.step] at hs
    split at hs
    · split at hs
      · simp only [Option.some.injEq] at hs; subst hs; rw [setTimer_eq]; rfl
      · cases hs
    · cases hs
  | tick => simp only [ProcAct.step, Option.some.injEq] at hs; subst hs; rfl
  | ask b =>
    simp only [ProcAct.step, Option.some.injEq] at hs; subst hs
    rw [(shutdownProcess_frame b a).rest]; rfl
  | setShut => simp only [ProcAct.step, Option.some.injEq] at hs; subst hs; rfl
  | emit e =>
    simp only [ProcAct.step] at hs
    split at hs
    · simp only [Option.some.injEq] at hs; subst hs; rfl
    · cases hs

/-- The shape of a step on the process: the process action makes a step, and the timer may be cancelled. -/
theorem TestAct.proc_step {c : TestCfg} {s s' : TestAct} {l : ProcLabel} (hs : s.step c (.proc l) = some s') :
    l ≠ .execute ∧ l ≠ .tick ∧ s.p.step c.proc l = some s'.p ∧ s'.armed = s.armed ∧ s'.raised = s.raised ∧
      s'.t = (if l = .process then s.timerReacts s.p.queue.head? else s.t) := by
  cases l with
  | execute => simp [TestAct.step] at hs
  | tick => simp [TestAct.step] at hs
  | process =>
    simp only [TestAct.step, Option.map_eq_some_iff] at hs
    obtain ⟨p, h1, rfl⟩ := hs
    exact ⟨by simp, by simp, h1, rfl, rfl, by simp⟩
  | _ =>
    simp only [TestAct.step, Option.map_eq_some_iff] at hs
    obtain ⟨p, h1, rfl⟩ := hs
    exact ⟨by simp, by simp, h1, rfl, rfl, by simp⟩

theorem TestAct.timerReacts_cases (s : TestAct) (e : Option ProcEv) :
    s.timerReacts e = s.t ∨ (s.timerReacts e = s.t.cancel ∧ (s.armed = true ∨ s.t.cancelHandlers ≠ 0)) := by
  unfold timerReacts
  split
  · split
    · rename_i h; exact .inr ⟨rfl, .inl h⟩
    · exact .inl rfl
  · split
    · exact .inl rfl
    · rename_i h; exact .inr ⟨rfl, .inr h⟩
  · exact .inl rfl

theorem TestAct.Inv.init (c : TestCfg) : TestAct.Inv c {} :=
  ⟨rfl, (fun h => by cases h), fun _ => rfl, (fun e h => by cases h), fun h => by
    rcases h with h | h
    · exact absurd h (Nat.lt_irrefl 0)
    · exact absurd rfl h⟩

theorem TestAct.Inv.cancel {c : TestCfg} {s : TestAct} (h : s.Inv c) (p : ProcAct) (hp : p.executed = s.p.executed) (hn : p.now = s.p.now)
    (ha : s.armed = true) : TestAct.Inv c { s with p := p, t := s.t.cancel } := by
  rw [Timer.cancel_eq]
  obtain ⟨h1, h2, h3, h4⟩ := h.armed ha
  exact ⟨by rw [hn]; exact h.now, fun _ => ⟨by rw [hp]; exact h1, h2, h3, h4⟩, (fun hf => by rw [ha] at hf; cases hf), h.queue, h.due⟩

theorem TestAct.Inv.step {c : TestCfg} {s s' : TestAct} {l : TestLabel} (h : s.Inv c) (hs : s.step c l = some s') : s'.Inv c := by
  cases l with
  | execute =>
    simp only [TestAct.step, Option.some.injEq] at hs; subst hs
    have hex : s.p.step c.proc .execute = some s.p.execute := rfl
    have e1 := executed_step hex
    have e2 := now_step hex
    simp only [decide_true, Bool.or_true] at e1
    simp only [reduceCtorEq, if_false, Nat.add_zero] at e2
    have hkeep : TestAct.Inv c { s with p := s.p.execute } :=
      ⟨by rw [show (({ s with p := s.p.execute } : TestAct).p) = s.p.execute from rfl, e2]; exact h.now,
        fun ha => ⟨e1, (h.armed ha).2⟩, h.unarmed, h.queue, h.due⟩
    unfold TestAct.execute
    simp only
    split
    · exact hkeep
    · rename_i hx
      have ha : s.armed = false := by
        cases ha : s.armed with
        | false => rfl
        | true => exact absurd (h.armed ha).1 hx
      split
      · exact hkeep
      · split
        · exact ⟨hkeep.now, hkeep.armed, hkeep.unarmed, hkeep.queue, hkeep.due⟩
        · have ht := h.unarmed ha
          refine ⟨?_, fun _ => ⟨e1, ?_⟩, (fun hf => by cases hf), ?_, ?_⟩
          · rw [ht]; show s.p.execute.now = _; rw [e2]; exact h.now
          · rw [ht]; exact ⟨rfl, rfl, .scheduled, rfl, .inl rfl⟩
          · rw [ht]; intro e he; cases he
          · rw [ht]; intro hd
            rcases hd with hd | hd
            · exact absurd hd (Nat.lt_irrefl 0)
            · exact absurd rfl hd
  | proc l =>
    obtain ⟨h1, h2, h3, h4, h5, h6⟩ := TestAct.proc_step hs
    have e1 := executed_step h3
    have e2 := now_step h3
    simp only [h1, decide_false, Bool.or_false] at e1
    simp only [h2, if_false, Nat.add_zero] at e2
    have hstay : s'.t = s.t → s'.Inv c := fun e =>
      ⟨by rw [e2, e]; exact h.now, fun ha => by rw [e1, e]; exact h.armed (h4 ▸ ha), fun ha => by rw [e]; exact h.unarmed (h4 ▸ ha),
        by rw [e]; exact h.queue, by rw [e]; exact h.due⟩
    split at h6
    · rcases s.timerReacts_cases s.p.queue.head? with hc | ⟨hc, hh⟩
      · exact hstay (h6.trans hc)
      · have ha : s.armed = true := by
          rcases hh with hh | hh
          · exact hh
          · cases ha : s.armed with
            | true => rfl
            | false => rw [h.unarmed ha] at hh; exact absurd rfl hh
        have := h.cancel s'.p e1 e2 ha
        rw [hc] at h6
        exact ⟨by rw [h6]; exact this.now, fun hx => by rw [h6]; exact this.armed ha, (fun hf => by rw [h4, ha] at hf; cases hf),
          by rw [h6]; exact this.queue, by rw [h6]; exact this.due⟩
    · exact hstay h6
  | timerBegin =>
    simp only [TestAct.step, Option.map_eq_some_iff] at hs
    obtain ⟨t, h1, rfl⟩ := hs
    simp only [Timer.step] at h1
    split at h1
    · rename_i ht
      have ha : s.armed = true := by
        cases ha : s.armed with
        | true => rfl
        | false => rw [h.unarmed ha] at ht; simp at ht
      obtain ⟨x1, x2, x3, x, x4, x5⟩ := h.armed ha
      rw [x4] at ht
      have hx : x = .scheduled := by simpa using ht
      rw [x3] at h1
      cases hp : c.timeout with
      | none =>
        rw [hp] at h1; simp only [Option.some.injEq] at h1; subst h1
        exact ⟨h.now, fun _ => ⟨x1, x2, rfl, .ended false, by rw [x4]; rfl, .inr (.inr ⟨_, rfl⟩)⟩, (fun hf => by rw [ha] at hf; cases hf),
          h.queue, h.due⟩
      | some p =>
        rw [hp] at h1; simp only [Option.some.injEq] at h1; subst h1
        exact ⟨h.now, fun _ => ⟨x1, x2, rfl, .waiting 1 (s.t.now + p), by rw [x4]; rfl,
          .inr (.inl ⟨_, rfl, by unfold TestCfg.limit; rw [hp]; simp⟩)⟩, (fun hf => by rw [ha] at hf; cases hf),
          h.queue, h.due⟩
    · cases h1
  | timerResume =>
    simp only [TestAct.step, Option.map_eq_some_iff] at hs
    obtain ⟨t, h1, rfl⟩ := hs
    simp only [Timer.step] at h1
    split at h1
    · rename_i f d ht
      split at h1
      · rename_i hfd
        simp only [Option.some.injEq] at h1; subst h1
        have ha : s.armed = true := by
          cases ha : s.armed with
          | true => rfl
          | false => rw [h.unarmed ha] at ht; simp at ht
        obtain ⟨x1, x2, x3, x, x4, x5⟩ := h.armed ha
        rw [x4] at ht
        have hx : x = .waiting f d := by simpa using ht
        obtain ⟨hf1, hd⟩ : f = 1 ∧ c.limit ≤ d := by
          rcases x5 with e | ⟨d', e, hd⟩ | ⟨b, e⟩
          · rw [hx] at e; cases e
          · rw [hx] at e; cases e; exact ⟨rfl, hd⟩
          · rw [hx] at e; cases e
        rw [Timer.fire_eq]
        refine ⟨h.now, fun _ => ⟨x1, x2, x3, .ended _, by show s.t.tasks.set 0 _ = _; rw [x4]; rfl, .inr (.inr ⟨_, rfl⟩)⟩,
          (fun hf => by rw [ha] at hf; cases hf), ?_, ?_⟩
        · intro e he
          rcases List.mem_append.mp he with he | he
          · exact h.queue e he
          · split at he
            · cases he
            · simpa using he
        · intro hq
          rcases hfd with hfd | hfd
          · -- cancelled: nothing was emitted
            have hc : s.t.cancelled = true := by unfold Timer.cancelled; rw [x3]; subst hf1; simpa using hfd
            apply h.due
            simpa [hc] using hq
          · exact Nat.le_trans hd hfd
      · cases h1
    · cases h1
  | timerProcess =>
    simp only [TestAct.step, Option.map_eq_some_iff] at hs
    obtain ⟨t, h1, rfl⟩ := hs
    simp only [Timer.step, Timer.process] at h1
    split at h1
    · cases h1
    · rename_i q hq
      simp only [Option.some.injEq] at h1; subst h1
      have hd := h.due (.inr (by rw [hq]; simp))
      have ha : s.armed = true := by
        cases ha : s.armed with
        | true => rfl
        | false => rw [h.unarmed ha] at hq; simp at hq
      obtain ⟨x1, x2, x3⟩ := h.armed ha
      have hfr := shutdownProcess_frame true s.p
      simp only [x2, if_true]
      exact ⟨by show (s.p.shutdownProcess true).now = _; rw [hfr.rest]; exact h.now,
        fun _ => ⟨by show (s.p.shutdownProcess true).executed = _; rw [hfr.rest]; exact x1, rfl, x3⟩,
        (fun hf => by rw [ha] at hf; cases hf), fun e he => h.queue e (by rw [hq]; exact List.mem_cons_of_mem _ he), fun _ => hd⟩
    · rename_i q hq
      have := h.queue .shutdown (by rw [hq]; simp)
      cases this
  | tick =>
    simp only [TestAct.step, ProcAct.step, Timer.step, Option.some.injEq] at hs; subst hs
    refine ⟨by show s.p.now + 1 = s.t.now + 1; rw [h.now], h.armed, fun ha => ?_, h.queue, fun hd => Nat.le_succ_of_le (h.due hd)⟩
    show ({ s.t with now := s.t.now + 1 } : Timer) = _
    rw [h.unarmed ha]

theorem TestAct.Inv.reach {c : TestCfg} {ls : List TestLabel} {s : TestAct} (h : TestAct.Reaches c ls s) : s.Inv c :=
  runSteps_induct (R := fun s => s.Inv c) (fun _ _ _ h hs => h.step hs) ls _ _ (TestAct.Inv.init c) h

/-! ## The process of a test is a process -/

theorem TestAct.step_proc {c : TestCfg} {s s' : TestAct} {l : TestLabel} (h : s.Inv c) (hs : s.step c l = some s') :
    runSteps (ProcAct.step c.proc) s.p l.procPart = some s'.p := by
  have one : ∀ pl, s.p.step c.proc pl = some s'.p → runSteps (ProcAct.step c.proc) s.p [pl] = some s'.p := by
    intro pl hp; simp only [runSteps, hp]
  cases l with
  | execute =>
    refine one .execute ?_
    simp only [TestAct.step, Option.some.injEq] at hs; subst hs
    unfold TestAct.execute
    simp only [ProcAct.step]
    repeat' split
    all_goals rfl
  | proc l => exact one l (TestAct.proc_step hs).2.2.1
  | timerBegin =>
    simp only [TestAct.step, Option.map_eq_some_iff] at hs
    obtain ⟨t, h1, rfl⟩ := hs; rfl
  | timerResume =>
    simp only [TestAct.step, Option.map_eq_some_iff] at hs
    obtain ⟨t, h1, rfl⟩ := hs; rfl
  | timerProcess =>
    refine one (.ask true) ?_
    simp only [TestAct.step, Option.map_eq_some_iff] at hs
    obtain ⟨t, h1, rfl⟩ := hs
    have hq : s.t.queue ≠ [] := by
      intro hq; simp only [Timer.step, Timer.process, hq] at h1; cases h1
    have ha : s.armed = true := by
      cases ha : s.armed with
      | true => rfl
      | false => rw [h.unarmed ha] at hq; exact absurd rfl hq
    simp only [(h.armed ha).2.1, if_true, ProcAct.step]
  | tick =>
    refine one .tick ?_
    simp only [TestAct.step, ProcAct.step, Timer.step, Option.some.injEq] at hs; subst hs; rfl

/-- Whatever happens to a test action, its process goes through states of an ordinary process action (C31 – C36 hold of it): the timeout
amounts to a request to shut it down. -/
theorem C97_process (c : TestCfg) (ls : List TestLabel) (s : TestAct) (h : TestAct.Reaches c ls s) :
    ProcAct.Reaches c.proc (ls.flatMap TestLabel.procPart) s.p := by
  have key : ∀ (ls : List TestLabel) (s s' : TestAct), s.Inv c → runSteps (TestAct.step c) s ls = some s' →
      runSteps (ProcAct.step c.proc) s.p (ls.flatMap TestLabel.procPart) = some s'.p := by
    intro ls
    induction ls with
    | nil => intro s s' _ h; simp only [runSteps, Option.some.injEq] at h; subst h; rfl
    | cons l ls ih =>
      intro s s' hi h
      obtain ⟨s1, h1, h2⟩ := runSteps_cons h
      rw [List.flatMap_cons, runSteps_append, TestAct.step_proc hi h1]
      exact ih s1 s' (hi.step h1) h2
  exact key ls {} s (TestAct.Inv.init c) h

/-- A test with a timeout of 2 that does not react to signals; `kill_timeout` is 1. -/
def stubbornTest : TestCfg := { timeout := some 2, killTimeout := 1 }

def stubbornTestLabels : List TestLabel :=
  [.execute, .proc (.begin true), .timerBegin, .proc .spawn, .proc .attach, .proc .process, .tick, .tick, .timerResume, .timerProcess,
    .proc .process, .proc (.timerBegin .term), .proc (.timerBegin .kill)] ++ List.replicate 5 .tick ++
  [.proc (.timerFire .term), .proc .process, .proc .process] ++ List.replicate 5 .tick ++
  [.proc (.timerFire .kill), .proc .process, .proc .process, .proc (.procExit 0 (-9)), .proc .observe, .proc .process]

example : ∃ s, TestAct.Reaches stubbornTest stubbornTestLabels s ∧ s.p.comp = .done ∧ s.t.performed = 1 ∧
    s.p.signals = [⟨.int, 0, 2, true⟩, ⟨.term, 0, 7, true⟩, ⟨.kill, 0, 12, true⟩] :=
  ⟨_, rfl, by decide +kernel, by decide +kernel, by decide +kernel⟩

/-! ## The interrupt at the timeout -/

/-- When the timeout is over (the event of the timer is handled) and the process runs and nobody asked for its shutdown, an interrupt is
emitted for it and the escalation begins. -/
theorem C97_interrupt (c : TestCfg) (ls : List TestLabel) (s s' : TestAct) (h : TestAct.Reaches c ls s)
    (hp : s.p.comp = .pending) (hsh : s.p.shut = .pending) (htr : s.p.transport ≠ none) (hs : s.step c .timerProcess = some s') :
    s'.p.queue = s.p.queue ++ [.signal .int true true] ∧ s'.p.shut = .done ∧ s'.p.sigterm = .scheduled ∧ s'.p.sigkill = .scheduled := by
  have := TestAct.step_proc (TestAct.Inv.reach h) hs
  simp only [TestLabel.procPart, runSteps, ProcAct.step, Option.some.injEq] at this
  rw [← this]
  simp [shutdownProcess, hp, hsh, htr]

example : ∃ s s', TestAct.Reaches stubbornTest (stubbornTestLabels.take 9) s ∧ s.p.comp = .pending ∧ s.p.shut = .pending ∧
    s.p.transport = some 0 ∧ s.step stubbornTest .timerProcess = some s' ∧ s'.p.queue = [.signal .int true true] :=
  ⟨_, _, rfl, by decide +kernel, by decide +kernel, by decide +kernel, rfl, by decide +kernel⟩

/-- If the process is still being started at that time, the request is kept until it is started. -/
theorem C97_interrupt_deferred (c : TestCfg) (ls : List TestLabel) (s s' : TestAct) (h : TestAct.Reaches c ls s)
    (hp : s.p.comp = .pending) (hsh : s.p.shut = .pending) (htr : s.p.transport = none) (hs : s.step c .timerProcess = some s') :
    s'.p.deferred = true :: s.p.deferred := by
  have := TestAct.step_proc (TestAct.Inv.reach h) hs
  simp only [TestLabel.procPart, runSteps, ProcAct.step, Option.some.injEq] at this
  rw [← this]
  simp [shutdownProcess, hp, hsh, htr]

example : ∃ s s', TestAct.Reaches stubbornTest [.execute, .proc (.begin true), .timerBegin, .tick, .tick, .timerResume] s ∧
    s.p.comp = .pending ∧ s.p.shut = .pending ∧ s.p.transport = none ∧ s.step stubbornTest .timerProcess = some s' ∧
    s'.p.deferred = [true] :=
  ⟨_, _, rfl, by decide +kernel, by decide +kernel, by decide +kernel, rfl, by decide +kernel⟩

/-- Without a handled exit or shutdown, the timer fires when its time is over. -/
theorem C97_fires (c : TestCfg) (ls : List TestLabel) (s : TestAct) (h : TestAct.Reaches c ls s) (d : Nat)
    (hw : s.t.tasks = [.waiting 1 d]) (hd : d ≤ s.t.now) (hc : 1 ∉ s.t.isDone) :
    ∃ s' s'', s.step c .timerResume = some s' ∧ s'.t.queue = s.t.queue ++ [.timer] ∧ (s.t.queue = [] → s'.step c .timerProcess = some s'') := by
  have hi := TestAct.Inv.reach h
  have ha : s.armed = true := by
    cases ha : s.armed with
    | true => rfl
    | false => have := hi.unarmed ha; rw [this] at hw; cases hw
  have h3 := (hi.armed ha).2.2.1
  have hf : s.t.step (.resume 0) = some (s.t.fire 0) := by simp [Timer.step, hw, hd]
  have hcn : s.t.cancelled = false := by unfold Timer.cancelled; rw [h3]; simpa using hc
  have hq : (s.t.fire 0).queue = s.t.queue ++ [.timer] := by rw [Timer.fire_eq]; simp [hcn]
  cases h1 : s.step c .timerResume with
  | none => simp [TestAct.step, hf] at h1
  | some s' =>
    have e : s' = { s with t := s.t.fire 0 } := by simpa [TestAct.step, hf] using h1.symm
    cases h2 : s'.step c .timerProcess with
    | some s'' => exact ⟨s', s'', rfl, by rw [e]; exact hq, fun _ => h2⟩
    | none =>
      refine ⟨s', {}, rfl, by rw [e]; exact hq, fun hq0 => ?_⟩
      rw [e] at h2
      simp [TestAct.step, Timer.step, Timer.process, hq, hq0] at h2

example : ∃ s, TestAct.Reaches stubbornTest (stubbornTestLabels.take 8) s ∧ s.t.tasks = [.waiting 1 2] ∧ 2 ≤ s.t.now ∧ 1 ∉ s.t.isDone :=
  ⟨_, rfl, by decide +kernel, by decide +kernel, by decide +kernel⟩

/-! ## Nothing before the timeout -/

/-- Events asking the process action to shut its process down. -/
def ProcEv.isRequest : ProcEv → Bool
  | .shutdown _ => true
  | .shutdownProcess mine => mine
  | _ => false

/-- Somebody else asks for a shutdown. -/
def TestLabel.isRequest : TestLabel → Bool
  | .proc (.emit e) => e.isRequest
  | .proc (.ask _) => true
  | _ => false

/-- Nobody asked. -/
structure ProcAct.Unasked (a : ProcAct) : Prop where
  deferred : a.deferred = []
  queue : ∀ e ∈ a.queue, e.isRequest = false
  shutAt : a.shutAt = none

theorem ProcAct.Unasked.step {c : ProcCfg} {a a' : ProcAct} {l : ProcLabel} (h : a.Unasked) (hl : ∀ b, l ≠ .ask b)
    (he : ∀ e, l = .emit e → e.isRequest = false) (hs : a.step c l = some a') : a'.Unasked := by
  have snoc : ∀ e : ProcEv, e.isRequest = false → ∀ x ∈ a.queue ++ [e], x.isRequest = false := by
    intro e he x hx
    rcases List.mem_append.mp hx with hx | hx
    · exact h.queue x hx
    · rw [List.mem_singleton.mp hx]; exact he
  cases l with
  | execute =>
    simp only [ProcAct.step, Option.some.injEq] at hs; subst hs
    unfold execute
    split
    · exact ⟨h.deferred, h.queue, h.shutAt⟩
    · simp only; split <;> exact ⟨h.deferred, h.queue, h.shutAt⟩
  | process =>
    simp only [ProcAct.step] at hs
    unfold process at hs
    split at hs
    · cases hs
    · rename_i e q hq
      simp only [Option.some.injEq] at hs
      have hr := h.queue e (by rw [hq]; simp)
      have hq' : ∀ x ∈ q, x.isRequest = false := fun x hx => h.queue x (by rw [hq]; exact List.mem_cons_of_mem _ hx)
      subst hs
      cases e with
      | shutdownProcess m =>
        have : m = false := hr
        subst this
        simp only [Bool.and_false, Bool.false_eq_true, if_false]
        exact ⟨h.deferred, hq', h.shutAt⟩
      | shutdown sig => cases hr
      | signal s m o =>
        simp only
        split
        · unfold onSignal
          repeat' split
          all_goals exact ⟨h.deferred, hq', h.shutAt⟩
        · exact ⟨h.deferred, hq', h.shutAt⟩
      | started n => simp only [h.deferred, List.foldl_nil]; exact ⟨rfl, hq', h.shutAt⟩
      | otherStarted => simp only [h.deferred, List.foldl_nil]; exact ⟨rfl, hq', h.shutAt⟩
      | exited n code => exact ⟨h.deferred, hq', h.shutAt⟩
      | timer s =>
        refine ⟨h.deferred, fun x hx => ?_, h.shutAt⟩
        rcases List.mem_append.mp hx with hx | hx
        · exact hq' x hx
        · rw [List.mem_singleton.mp hx]; rfl
  | begin ok =>
    simp only [ProcAct.step] at hs
    split at hs
    · simp only [Option.some.injEq] at hs; subst hs; exact ⟨h.deferred, h.queue, h.shutAt⟩
    · cases hs
  | spawn =>
    simp only [ProcAct.step] at hs
    split at hs
    · simp only [Option.some.injEq] at hs; subst hs; exact ⟨h.deferred, h.queue, h.shutAt⟩
    · cases hs
  | spawnFail =>
    simp only [ProcAct.step] at hs
    split at hs
    · simp only [Option.some.injEq] at hs; subst hs; exact ⟨h.deferred, h.queue, h.shutAt⟩
    · cases hs
  | attach =>
    simp only [ProcAct.step] at hs
    split at hs
    · simp only [Option.some.injEq] at hs; subst hs; exact ⟨h.deferred, snoc _ rfl, h.shutAt⟩
    · cases hs
  | procExit n code =>
    simp only [ProcAct.step] at hs
    split at hs
    · simp only [Option.some.injEq] at hs; subst hs; exact ⟨h.deferred, h.queue, h.shutAt⟩
    · cases hs
  | observe =>
    simp only [ProcAct.step] at hs
    split at hs
    · split at hs
      · simp only [Option.some.injEq] at hs; subst hs
        unfold observe
        simp only
        split <;> exact ⟨h.deferred, snoc _ rfl, h.shutAt⟩
      · cases hs
    · cases hs
  | delayOver =>
    simp only [ProcAct.step] at hs
    split at hs
    · simp only [Option.some.injEq] at hs; subst hs
      split <;> exact ⟨h.deferred, h.queue, h.shutAt⟩
    · cases hs
  | timerBegin s =>
    simp only [ProcAct.step] at hs
    split at hs
    · simp only [Option.some.injEq] at hs; subst hs; rw [setTimer_eq]; exact ⟨h.deferred, h.queue, h.shutAt⟩
    · cases hs
  | timerFire s =>
    simp only [ProcAct.step] at hs
    split at hs
    · split at hs
      · simp only [Option.some.injEq] at hs; subst hs; rw [setTimer_eq]; exact ⟨h.deferred, snoc _ rfl, h.shutAt⟩
      · cases hs
    · cases hs
  | tick => simp only [ProcAct.step, Option.some.injEq] at hs; subst hs; exact ⟨h.deferred, h.queue, h.shutAt⟩
  | ask b => exact absurd rfl (hl b)
  | setShut => simp only [ProcAct.step, Option.some.injEq] at hs; subst hs; exact ⟨h.deferred, h.queue, h.shutAt⟩
  | emit e =>
    simp only [ProcAct.step] at hs
    split at hs
    · simp only [Option.some.injEq] at hs; subst hs; exact ⟨h.deferred, snoc e (he e rfl), h.shutAt⟩
    · cases hs

/-- Own signals come from a shutdown that began. -/
theorem own_signal_due {c : ProcCfg} {ls : List ProcLabel} {a : ProcAct} (h : ProcAct.Reaches c ls a) {d : Delivered} (hd : d ∈ a.signals)
    (ho : d.own = true) : ∃ t0, a.shutAt = some t0 ∧ t0 ≤ d.time ∧ (d.sig = .term → t0 + c.sigtermTimeout ≤ d.time) ∧
      (d.sig = .kill → t0 + c.sigtermTimeout + c.sigkillTimeout ≤ d.time) := by
  obtain ⟨_, _, h3⟩ := (ProcAct.Inv.reach h).timing.delivered d hd
  rcases h3 ho with ⟨h1, t0, h2, h4⟩ | ⟨h1, t0, h2, h4⟩
  · exact ⟨t0, h2, h4, (fun e => by rw [h1] at e; cases e), (fun e => by rw [h1] at e; cases e)⟩
  · refine ⟨t0, h2, Nat.le_trans (Nat.le_add_right _ _) h4, fun e => ?_, fun e => ?_⟩
    · rw [e] at h4; exact h4
    · rw [e] at h4; simp only [period] at h4; omega

/-- What holds as long as nobody else asks for a shutdown. -/
structure TestAct.Patient (c : TestCfg) (s : TestAct) : Prop where
  inv : s.Inv c
  quiet : s.t.performed = 0 → s.p.Unasked
  at_ : ∀ t0, s.p.shutAt = some t0 → c.limit ≤ t0

/-- How a step changes the timer: not at all, or as a step of the timer other than `execute`. -/
theorem TestAct.step_timer {c : TestCfg} {s s' : TestAct} {l : TestLabel} (hl : l = .execute → s.p.executed = true)
    (hs : s.step c l = some s') : s'.t = s.t ∨ ∃ tl, tl.isExecute = false ∧ s.t.step tl = some s'.t := by
  cases l with
  | execute =>
    simp only [TestAct.step, Option.some.injEq] at hs; subst hs
    left
    unfold TestAct.execute
    simp [hl rfl]
  | proc l =>
    obtain ⟨_, _, _, _, _, h6⟩ := TestAct.proc_step hs
    split at h6
    · rcases s.timerReacts_cases s.p.queue.head? with hc | ⟨hc, _⟩
      · exact .inl (h6.trans hc)
      · exact .inr ⟨.cancel, rfl, by rw [h6, hc]; rfl⟩
    · exact .inl h6
  | timerBegin =>
    simp only [TestAct.step, Option.map_eq_some_iff] at hs
    obtain ⟨t, h1, rfl⟩ := hs
    exact .inr ⟨_, rfl, h1⟩
  | timerResume =>
    simp only [TestAct.step, Option.map_eq_some_iff] at hs
    obtain ⟨t, h1, rfl⟩ := hs
    exact .inr ⟨_, rfl, h1⟩
  | timerProcess =>
    simp only [TestAct.step, Option.map_eq_some_iff] at hs
    obtain ⟨t, h1, rfl⟩ := hs
    exact .inr ⟨_, rfl, h1⟩
  | tick =>
    simp only [TestAct.step, ProcAct.step, Timer.step, Option.some.injEq] at hs; subst hs
    exact .inr ⟨.tick, rfl, rfl⟩

theorem TestAct.performed_mono {c : TestCfg} {s s' : TestAct} {l : TestLabel} (h : s.Inv c) (hs : s.step c l = some s') :
    s.t.performed ≤ s'.t.performed := by
  by_cases hl : l = .execute → s.p.executed = true
  · rcases TestAct.step_timer hl hs with e | ⟨tl, h1, h2⟩
    · rw [e]; exact Nat.le_refl _
    · cases tl with
      | execute cos => cases h1
      | cancel => simp only [Timer.step, Option.some.injEq] at h2; rw [← h2, Timer.cancel_eq]; exact Nat.le_refl _
      | begin i p =>
        simp only [Timer.step] at h2
        split at h2
        · split at h2 <;> (simp only [Option.some.injEq] at h2; rw [← h2]; exact Nat.le_refl _)
        · cases h2
      | resume i =>
        simp only [Timer.step] at h2
        split at h2
        · split at h2
          · simp only [Option.some.injEq] at h2; rw [← h2, Timer.fire_eq]; exact Nat.le_refl _
          · cases h2
        · cases h2
      | tick => simp only [Timer.step, Option.some.injEq] at h2; rw [← h2]; exact Nat.le_refl _
      | emitShutdown => simp only [Timer.step, Option.some.injEq] at h2; rw [← h2]; exact Nat.le_refl _
      | process =>
        simp only [Timer.step, Timer.process] at h2
        split at h2
        · cases h2
        · simp only [Option.some.injEq] at h2; rw [← h2]; exact Nat.le_add_right _ _
        · simp only [Option.some.injEq] at h2
          rw [← h2]
          split
          · exact Nat.le_refl _
          · rw [Timer.cancel_eq]; exact Nat.le_refl _
  · have hx : l = .execute ∧ s.p.executed = false := by
      cases l with
      | execute => exact ⟨rfl, by simpa using hl⟩
      | _ => exact absurd (fun e => by cases e) hl
    have ha : s.armed = false := by
      cases ha : s.armed with
      | false => rfl
      | true => rw [(h.armed ha).1] at hx; cases hx.2
    rw [h.unarmed ha]
    exact Nat.zero_le _

theorem TestAct.Patient.step {c : TestCfg} {s s' : TestAct} {l : TestLabel} (h : s.Patient c) (hl : l.isRequest = false)
    (hs : s.step c l = some s') : s'.Patient c := by
  have hi := h.inv.step hs
  have hm := TestAct.performed_mono h.inv hs
  -- a step of the process that is not a request
  have plain : ∀ pl, (∀ b, pl ≠ ProcLabel.ask b) → (∀ e, pl = .emit e → e.isRequest = false) → s.p.step c.proc pl = some s'.p →
      s'.Patient c := by
    intro pl h1 h2 hp
    refine ⟨hi, fun h0 => (h.quiet (by omega)).step h1 h2 hp, fun t0 ht => ?_⟩
    rcases Nat.eq_zero_or_pos s.t.performed with h0 | h0
    · have := ((h.quiet h0).step h1 h2 hp).shutAt
      rw [this] at ht; cases ht
    · rcases (at_step hp).2 with e | e
      · exact h.at_ t0 (by rw [← e]; exact ht)
      · rw [e] at ht
        simp only [Option.some.injEq] at ht
        rw [← ht, h.inv.now]
        exact h.inv.due (.inl h0)
  cases l with
  | execute =>
    have := TestAct.step_proc h.inv hs
    simp only [TestLabel.procPart, runSteps] at this
    exact plain .execute (fun _ hf => nomatch hf) (fun _ hf => nomatch hf) (by simpa [ProcAct.step] using this)
  | proc l =>
    refine plain l (fun b hb => ?_) (fun e he => ?_) (TestAct.proc_step hs).2.2.1
    · subst hb; cases hl
    · subst he; exact hl
  | timerBegin =>
    simp only [TestAct.step, Option.map_eq_some_iff] at hs
    obtain ⟨t, h1, rfl⟩ := hs
    exact ⟨hi, fun h0 => h.quiet (by omega), h.at_⟩
  | timerResume =>
    simp only [TestAct.step, Option.map_eq_some_iff] at hs
    obtain ⟨t, h1, rfl⟩ := hs
    exact ⟨hi, fun h0 => h.quiet (by omega), h.at_⟩
  | timerProcess =>
    have hp := TestAct.step_proc h.inv hs
    simp only [TestLabel.procPart, runSteps, ProcAct.step] at hp
    have hq : s.t.queue ≠ [] := by
      intro hq; simp [TestAct.step, Timer.step, Timer.process, hq] at hs
    have hd := h.inv.due (.inr hq)
    refine ⟨hi, fun h0 => ?_, fun t0 ht => ?_⟩
    · -- the event was performed
      exfalso
      have ha : s.armed = true := by
        cases ha : s.armed with
        | true => rfl
        | false => rw [h.inv.unarmed ha] at hq; exact absurd rfl hq
      simp only [TestAct.step, Option.map_eq_some_iff] at hs
      obtain ⟨t, h1, rfl⟩ := hs
      simp only [Timer.step, Timer.process] at h1
      split at h1
      · cases h1
      · simp only [Option.some.injEq] at h1
        have : t.performed = 0 := h0
        rw [← h1] at this
        simp [(h.inv.armed ha).2.1] at this
      · rename_i q hq'
        have := h.inv.queue .shutdown (by rw [hq']; simp)
        cases this
    · have hstep : s.p.step c.proc (.ask true) = some s'.p := by simpa [ProcAct.step] using hp
      rcases (at_step hstep).2 with e | e
      · exact h.at_ t0 (by rw [← e]; exact ht)
      · rw [e] at ht
        simp only [Option.some.injEq] at ht
        rw [← ht, h.inv.now]; exact hd
  | tick =>
    have := TestAct.step_proc h.inv hs
    simp only [TestLabel.procPart, runSteps] at this
    exact plain .tick (fun _ hf => nomatch hf) (fun _ hf => nomatch hf) (by simpa [ProcAct.step] using this)

theorem TestAct.Patient.init (c : TestCfg) : TestAct.Patient c {} :=
  ⟨TestAct.Inv.init c, fun _ => ⟨rfl, (fun e he => by cases he), rfl⟩, fun t0 ht => by cases ht⟩

theorem TestAct.Patient.reach {c : TestCfg} {ls : List TestLabel} {s : TestAct} (h : TestAct.Reaches c ls s)
    (hl : ∀ l ∈ ls, l.isRequest = false) : s.Patient c :=
  runSteps_induct' (R := fun s => s.Patient c) (fun _ _ _ hl h hs => h.step hl hs) ls _ _ hl (TestAct.Patient.init c) h

theorem TestAct.now_count {c : TestCfg} : ∀ (ls : List TestLabel) (s s' : TestAct), s.Inv c → runSteps (TestAct.step c) s ls = some s' →
    s'.p.now = s.p.now + ls.count .tick
  | [], s, s', _, h => by simp [runSteps] at h; simp [h]
  | l :: ls, s, s', hi, h => by
    obtain ⟨s1, h1, h2⟩ := runSteps_cons h
    rw [TestAct.now_count ls s1 s' (hi.step h1) h2, List.count_cons]
    have hp := TestAct.step_proc hi h1
    cases l with
    | timerBegin => simp only [TestLabel.procPart, runSteps, Option.some.injEq] at hp; rw [hp]; simp
    | timerResume => simp only [TestLabel.procPart, runSteps, Option.some.injEq] at hp; rw [hp]; simp
    | tick =>
      obtain ⟨x, hx, hy⟩ := runSteps_cons hp
      simp only [runSteps, Option.some.injEq] at hy; subst hy
      have := now_step hx
      simp at this ⊢; omega
    | execute =>
      obtain ⟨x, hx, hy⟩ := runSteps_cons hp
      simp only [runSteps, Option.some.injEq] at hy; subst hy
      have := now_step hx
      simp at this ⊢; omega
    | timerProcess =>
      obtain ⟨x, hx, hy⟩ := runSteps_cons hp
      simp only [runSteps, Option.some.injEq] at hy; subst hy
      have := now_step hx
      simp at this ⊢; omega
    | proc pl =>
      obtain ⟨x, hx, hy⟩ := runSteps_cons hp
      simp only [runSteps, Option.some.injEq] at hy; subst hy
      have := now_step hx
      simp [(TestAct.proc_step h1).2.1] at this ⊢; omega

/-- If nobody else asks for the shutdown of the process, the action sends it no signal before the timeout. -/
theorem C97_not_before (c : TestCfg) (ls : List TestLabel) (s : TestAct) (h : TestAct.Reaches c ls s)
    (hl : ∀ l ∈ ls, l.isRequest = false) : ∀ d ∈ s.p.signals, d.own = true → c.limit ≤ d.time := by
  intro d hd ho
  obtain ⟨t0, h1, h2, _⟩ := own_signal_due (C97_process c ls s h) hd ho
  exact Nat.le_trans ((TestAct.Patient.reach h hl).at_ t0 h1) h2

example : ∃ s, TestAct.Reaches stubbornTest stubbornTestLabels s ∧ (∀ l ∈ stubbornTestLabels, l.isRequest = false) ∧
    s.p.signals.map (·.time) = [2, 7, 12] := ⟨_, rfl, by decide +kernel, by decide +kernel⟩

/-- And if it has no timeout, none at all. -/
theorem C97_no_timeout (c : TestCfg) (ls : List TestLabel) (s : TestAct) (h : TestAct.Reaches c ls s) (hc : c.timeout = none ∨ c.timeout = some 0)
    (hl : ∀ l ∈ ls, l.isRequest = false) : ∀ d ∈ s.p.signals, d.own = false := by
  have hn : c.hasTimeout = false := by rcases hc with hc | hc <;> simp [TestCfg.hasTimeout, hc]
  have ha : s.armed = false := by
    refine runSteps_induct (R := fun s => s.armed = false) ?_ ls _ _ rfl h
    intro s l s' h0 hs
    cases l with
    | execute =>
      simp only [TestAct.step, Option.some.injEq] at hs; subst hs
      unfold TestAct.execute
      simp only [hn, Bool.not_false, if_true]
      split <;> exact h0
    | proc l => rw [(TestAct.proc_step hs).2.2.2.1]; exact h0
    | tick => simp only [TestAct.step, ProcAct.step, Timer.step, Option.some.injEq] at hs; subst hs; exact h0
    | _ =>
      simp only [TestAct.step, Option.map_eq_some_iff] at hs
      obtain ⟨t, _, rfl⟩ := hs
      exact h0
  have hp := TestAct.Patient.reach h hl
  have hz : s.t.performed = 0 := by rw [hp.inv.unarmed ha]
  intro d hd
  cases ho : d.own with
  | false => rfl
  | true =>
    obtain ⟨t0, h1, _⟩ := own_signal_due (C97_process c ls s h) hd ho
    rw [(hp.quiet hz).shutAt] at h1; cases h1

/-! ## The timer is cancelled when the process exits -/

/-- A cancelled timer stays without effect. -/
theorem TestAct.cancelled {c : TestCfg} {ls : List TestLabel} {s s1 : TestAct} (h : TestAct.Reaches c ls s) (ha : s.armed = true)
    (hnf : s.t.performed = 0 ∧ s.t.queue = []) (hs : s.step c (.proc .process) = some s1) (ht : s1.t = s.t.cancel) (ls' : List TestLabel) (s' : TestAct)
    (hr : runSteps (TestAct.step c) s1 ls' = some s') : s'.t.performed = 0 ∧ s'.step c .timerProcess = none := by
  have hi := TestAct.Inv.reach h
  have hi1 := hi.step hs
  obtain ⟨x1, x2, x3, x, x4, x5⟩ := hi.armed ha
  have hd : s1.t.Dead 0 := by
    rw [ht]
    have e := Timer.cancel_eq s.t
    exact ⟨by rw [e]; exact hnf.1, by rw [e]; show s.t.queue.count _ = 0; rw [hnf.2]; rfl,
      .inl (Timer.cancel_cancelled s.t (by rw [x3]; simp))⟩
  have ha1 : s1.armed = true := by rw [(TestAct.proc_step hs).2.2.2.1]; exact ha
  have key := runSteps_induct (R := fun s => s.Inv c ∧ s.armed = true ∧ s.t.Dead 0) (by
    rintro s l s' ⟨h1, h2, h3⟩ hs
    refine ⟨h1.step hs, ?_, ?_⟩
    · cases l with
      | execute =>
        simp only [TestAct.step, Option.some.injEq] at hs; subst hs
        unfold TestAct.execute
        simp [(h1.armed h2).1, h2]
      | proc l => rw [(TestAct.proc_step hs).2.2.2.1]; exact h2
      | tick => simp only [TestAct.step, ProcAct.step, Timer.step, Option.some.injEq] at hs; subst hs; exact h2
      | _ =>
        simp only [TestAct.step, Option.map_eq_some_iff] at hs
        obtain ⟨t, _, rfl⟩ := hs
        exact h2
    · rcases TestAct.step_timer (fun _ => (h1.armed h2).1) hs with e | ⟨tl, hx, hy⟩
      · rw [e]; exact h3
      · exact h3.step (.inl hx) hy) ls' s1 s' ⟨hi1, ha1, hd⟩ hr
  obtain ⟨k1, k2, k3⟩ := key
  refine ⟨k3.performed, ?_⟩
  have hq0 : s'.t.queue = [] := by
    cases hqq : s'.t.queue with
    | nil => rfl
    | cons e q' =>
      have he := k1.queue e (by rw [hqq]; simp)
      have := k3.queue
      rw [hqq, he] at this
      simp at this
  simp [TestAct.step, Timer.step, Timer.process, hq0]

/-- Once the exit of the process was handled, before the timer fired, the timeout has no effect any more. -/
theorem C97_cancelled (c : TestCfg) (ls : List TestLabel) (s s1 : TestAct) (h : TestAct.Reaches c ls s) (ha : s.armed = true)
    (hnf : s.t.performed = 0 ∧ s.t.queue = []) (n : Nat) (code : Int) (q : List ProcEv) (hq : s.p.queue = .exited n code :: q)
    (hs : s.step c (.proc .process) = some s1) (ls' : List TestLabel) (s' : TestAct)
    (hr : runSteps (TestAct.step c) s1 ls' = some s') : s'.t.performed = 0 ∧ s'.step c .timerProcess = none := by
  refine TestAct.cancelled h ha hnf hs ?_ ls' s' hr
  rw [(TestAct.proc_step hs).2.2.2.2.2, hq]; simp [TestAct.timerReacts, ha]

theorem Timer.cancelHandlers_step {t t' : Timer} {l : TimerLabel} (hs : t.step l = some t') : t.cancelHandlers ≤ t'.cancelHandlers := by
  cases l with
  | execute cos =>
    simp only [Timer.step, Option.some.injEq] at hs; subst hs
    unfold Timer.execute
    dsimp only
    split
    · exact Nat.le_refl _
    · exact Nat.le_add_right _ _
  | cancel => simp only [Timer.step, Option.some.injEq] at hs; rw [← hs, Timer.cancel_eq]; exact Nat.le_refl _
  | begin i p =>
    simp only [Timer.step] at hs
    split at hs
    · split at hs <;> (simp only [Option.some.injEq] at hs; rw [← hs]; exact Nat.le_refl _)
    · cases hs
  | resume i =>
    simp only [Timer.step] at hs
    split at hs
    · split at hs
      · simp only [Option.some.injEq] at hs; rw [← hs, Timer.fire_eq]; exact Nat.le_refl _
      · cases hs
    · cases hs
  | tick => simp only [Timer.step, Option.some.injEq] at hs; rw [← hs]; exact Nat.le_refl _
  | emitShutdown => simp only [Timer.step, Option.some.injEq] at hs; rw [← hs]; exact Nat.le_refl _
  | process =>
    simp only [Timer.step, Timer.process] at hs
    split at hs
    · cases hs
    · simp only [Option.some.injEq] at hs; rw [← hs]; exact Nat.le_refl _
    · simp only [Option.some.injEq] at hs
      rw [← hs]
      split
      · exact Nat.le_refl _
      · rw [Timer.cancel_eq]; exact Nat.le_refl _

/-- The timer of a test listens to Shutdown events. -/
theorem TestAct.listens {c : TestCfg} {ls : List TestLabel} {s : TestAct} (h : TestAct.Reaches c ls s) : s.armed = true → s.t.cancelHandlers ≠ 0 := by
  have key := runSteps_induct (step := TestAct.step c) (R := fun s => s.Inv c ∧ (s.armed = true → s.t.cancelHandlers ≠ 0)) (by
    rintro s l s' ⟨h1, h2⟩ hs
    refine ⟨h1.step hs, fun ha => ?_⟩
    by_cases hx : l = .execute ∧ s.p.executed = false
    · obtain ⟨rfl, hx⟩ := hx
      have ha0 : s.armed = false := by
        cases h : s.armed with
        | false => rfl
        | true => rw [(h1.armed h).1] at hx; cases hx
      have ht := h1.unarmed ha0
      simp only [TestAct.step, Option.some.injEq] at hs; subst hs
      unfold TestAct.execute at ha ⊢
      dsimp only at ha ⊢
      rw [if_neg (by simp [hx])] at ha ⊢
      split at ha
      · rw [ha0] at ha; cases ha
      · rename_i h3
        rw [if_neg h3]
        split at ha
        · rw [ha0] at ha; cases ha
        · rename_i h4
          rw [if_neg h4, ht]
          simp [Timer.execute]
    · have hl : l = .execute → s.p.executed = true := fun e => by
        cases hp : s.p.executed with
        | true => rfl
        | false => exact absurd ⟨e, hp⟩ hx
      have ha' : s.armed = true := by
        cases l with
        | execute =>
          simp only [TestAct.step, Option.some.injEq] at hs; subst hs
          unfold TestAct.execute at ha
          simpa [hl rfl] using ha
        | proc l => rw [(TestAct.proc_step hs).2.2.2.1] at ha; exact ha
        | tick => simp only [TestAct.step, ProcAct.step, Timer.step, Option.some.injEq] at hs; subst hs; exact ha
        | _ =>
          simp only [TestAct.step, Option.map_eq_some_iff] at hs
          obtain ⟨t, _, rfl⟩ := hs
          exact ha
      have h0 := h2 ha'
      rcases TestAct.step_timer hl hs with e | ⟨tl, _, hy⟩
      · rw [e]; exact h0
      · have := Timer.cancelHandlers_step hy
        omega) ls _ s ⟨TestAct.Inv.init c, fun h => by cases h⟩ h
  exact key.2

/-- Once a shutdown was handled, before the timer fired, the timeout has no effect any more, either: it is the shutdown that ends the process (C22). -/
theorem C97_cancelled_by_shutdown (c : TestCfg) (ls : List TestLabel) (s s1 : TestAct) (h : TestAct.Reaches c ls s) (ha : s.armed = true)
    (hnf : s.t.performed = 0 ∧ s.t.queue = []) (b : Bool) (q : List ProcEv) (hq : s.p.queue = .shutdown b :: q)
    (hs : s.step c (.proc .process) = some s1) (ls' : List TestLabel) (s' : TestAct)
    (hr : runSteps (TestAct.step c) s1 ls' = some s') : s'.t.performed = 0 ∧ s'.step c .timerProcess = none := by
  refine TestAct.cancelled h ha hnf hs ?_ ls' s' hr
  rw [(TestAct.proc_step hs).2.2.2.2.2, hq]; simp [TestAct.timerReacts, TestAct.listens h ha]

example : ∃ s s1, TestAct.Reaches stubbornTest [.execute, .proc (.begin true), .timerBegin, .proc .spawn, .proc .attach, .proc .process,
      .proc (.emit (.shutdown false))] s ∧ s.armed = true ∧ s.t.performed = 0 ∧ s.t.queue = [] ∧ s.p.queue = [.shutdown false] ∧
    s.step stubbornTest (.proc .process) = some s1 :=
  ⟨_, _, rfl, by decide +kernel, by decide +kernel, by decide +kernel, by decide +kernel, rfl⟩

example : ∃ s s1, TestAct.Reaches stubbornTest [.execute, .proc (.begin true), .timerBegin, .proc .spawn, .proc .attach, .proc .process,
      .proc (.procExit 0 0), .proc .observe] s ∧ s.armed = true ∧ s.t.performed = 0 ∧ s.t.queue = [] ∧ s.p.queue = [.exited 0 0] ∧
    s.step stubbornTest (.proc .process) = some s1 :=
  ⟨_, _, rfl, by decide +kernel, by decide +kernel, by decide +kernel, by decide +kernel, rfl⟩

example : ∃ s, TestAct.Reaches { timeout := some 0 } [.execute, .proc (.begin true), .proc .spawn, .proc .attach, .proc (.emit (.signal .int true false)),
    .proc .process, .proc .process] s ∧ s.p.signals = [⟨.int, 0, 0, false⟩] := ⟨_, rfl, by decide +kernel⟩

/-! ## What does not hold -/

/-- A test that is started again (`respawn`) has no timeout: after the first exit was handled, the action never sends a signal unless
somebody else asks, however long the second process runs. -/
theorem C97_respawn_violated : ∃ (c : TestCfg) (ls : List TestLabel) (s : TestAct), c.hasTimeout = true ∧ TestAct.Reaches c ls s ∧
    s.p.task = .running 1 ∧ s.p.procs[1]? = some none ∧
    ∀ ls' s', (∀ l ∈ ls', l.isRequest = false) → runSteps (TestAct.step c) s ls' = some s' → ∀ d ∈ s'.p.signals, d.own = false := by
  let c : TestCfg := { proc := { respawn := true }, timeout := some 2 }
  let pre : List TestLabel := [.execute, .proc (.begin true), .timerBegin, .proc .spawn, .proc .attach, .proc .process, .proc (.procExit 0 1),
    .proc .observe]
  let mid : List TestLabel := [.proc .process, .proc (.begin true), .proc .spawn, .proc .attach]
  refine ⟨c, pre ++ mid, _, rfl, rfl, by decide +kernel, by decide +kernel, ?_⟩
  intro ls' s' hl hr
  have hreach : TestAct.Reaches c ((pre ++ mid) ++ ls') s' := by
    unfold TestAct.Reaches
    rw [runSteps_append]
    exact hr
  have hall : ∀ l ∈ (pre ++ mid) ++ ls', l.isRequest = false := by
    intro l hx
    rcases List.mem_append.mp hx with hx | hx
    · exact (by decide +kernel : ∀ l ∈ pre ++ mid, l.isRequest = false) l hx
    · exact hl l hx
  have hp := TestAct.Patient.reach hreach hall
  have hz : s'.t.performed = 0 :=
    (C97_cancelled c pre _ _ rfl (by decide +kernel) ⟨by decide +kernel, by decide +kernel⟩ 0 1 [] (by decide +kernel) rfl
      ([.proc (.begin true), .proc .spawn, .proc .attach] ++ ls') s' (by rw [runSteps_append]; exact hr)).1
  intro d hd
  cases ho : d.own with
  | false => rfl
  | true =>
    obtain ⟨t0, h1, _⟩ := own_signal_due (C97_process c _ _ hreach) hd ho
    rw [(hp.quiet hz).shutAt] at h1; cases h1

/-- The process is killed no earlier than the timeouts of ExecuteProcess say after the timeout of the test. -/
theorem C97_kill_not_before (c : TestCfg) (ls : List TestLabel) (s : TestAct) (h : TestAct.Reaches c ls s)
    (hl : ∀ l ∈ ls, l.isRequest = false) : ∀ d ∈ s.p.signals, d.own = true → d.sig = .kill →
      c.limit + c.proc.sigtermTimeout + c.proc.sigkillTimeout ≤ d.time := by
  intro d hd ho hk
  obtain ⟨t0, h1, _, _, h2⟩ := own_signal_due (C97_process c ls s h) hd ho
  have := (TestAct.Patient.reach h hl).at_ t0 h1
  have := h2 hk
  omega

/-- So `kill_timeout` has no effect: with the value 1, a test that does not react is still not killed 9 ticks after the timeout; and no
run kills it earlier. -/
theorem C97_kill_timeout_violated : ∃ (c : TestCfg) (ls : List TestLabel) (s : TestAct), c.killTimeout = 1 ∧ c.limit = 2 ∧
    TestAct.Reaches c ls s ∧ s.p.now = 2 + 9 ∧ s.p.task = .running 0 ∧ s.p.procs[0]? = some none ∧
    (⟨.int, 0, 2, true⟩ : Delivered) ∈ s.p.signals ∧
    ∀ ls' s', (∀ l ∈ ls', l.isRequest = false) → TestAct.Reaches c ls' s' → ∀ d ∈ s'.p.signals, d.own = true → d.sig = .kill →
      2 + 10 ≤ d.time := by
  refine ⟨stubbornTest, stubbornTestLabels.take 25, _, rfl, rfl, rfl, by decide +kernel, by decide +kernel, by decide +kernel, by decide +kernel, ?_⟩
  intro ls' s' hl h d hd ho hk
  exact C97_kill_not_before stubbornTest ls' s' h hl d hd ho hk

/-- The same labels lead on to the SIGKILL. -/
example : ∃ s, TestAct.Reaches stubbornTest stubbornTestLabels s ∧ (⟨.kill, 0, 12, true⟩ : Delivered) ∈ s.p.signals :=
  ⟨_, rfl, by decide +kernel⟩

/-- If the process cannot be started, the action is complete but its timer is not cancelled: until the timeout the launch waits for
it, unless somebody asks for a shutdown. -/
theorem C97_failed_start_violated : ∃ (c : TestCfg) (ls : List TestLabel) (s : TestAct), c.limit = 5 ∧ TestAct.Reaches c ls s ∧
    s.p.comp = .done ∧ s.p.started = 0 ∧
    ∀ ls' s', (∀ l ∈ ls', l.isRequest = false) → runSteps (TestAct.step c) s ls' = some s' → s'.p.now < 5 →
      s'.t.comp = some 0 ∧ 0 ∉ s'.t.isDone := by
  let c : TestCfg := { timeout := some 5 }
  let pre : List TestLabel := [.execute, .proc (.begin true), .proc .spawnFail, .timerBegin]
  have hpre : ∃ s0, TestAct.Reaches c pre s0 ∧ s0.p.comp = .done ∧ s0.p.started = 0 ∧ s0.p.log = [] ∧ s0.t.comp = some 0 ∧
      s0.t.isDone = [] ∧ s0.t.tasks = [.waiting 1 5] ∧ s0.t.performed = 0 ∧ s0.t.queue = [] ∧ s0.t.canc = some 1 :=
    ⟨_, rfl, by decide +kernel, by decide +kernel, by decide +kernel, by decide +kernel, by decide +kernel, by decide +kernel, by decide +kernel,
      by decide +kernel, by decide +kernel⟩
  obtain ⟨s0, g1, g2, g3, g4, g5, g6, g7, g8, g9, g10⟩ := hpre
  refine ⟨c, pre, s0, rfl, g1, g2, g3, ?_⟩
  intro ls' s' hl hr hnow
  have nolife : ∀ (l2 : List TestLabel) (s2 : TestAct), runSteps (TestAct.step c) s0 l2 = some s2 → ∀ n code, .exited n code ∉ s2.p.queue := by
    intro l2 s2 h2 n code hm
    have hreach : TestAct.Reaches c (pre ++ l2) s2 := by
      unfold TestAct.Reaches; rw [runSteps_append, show runSteps (TestAct.step c) {} pre = some s0 from g1]; exact h2
    have hp2 := C97_process c _ _ hreach
    have hp0 := C97_process c _ _ g1
    rw [List.flatMap_append] at hp2
    have hr2 : runSteps (ProcAct.step c.proc) s0.p (l2.flatMap TestLabel.procPart) = some s2.p := by
      have := hp2
      unfold ProcAct.Reaches at this
      rw [runSteps_append, show runSteps (ProcAct.step c.proc) {} (pre.flatMap TestLabel.procPart) = some s0.p from hp0] at this
      exact this
    have hlog := (C36_nothing_after c.proc _ _ hp0 g2 _ _ hr2).2.2.1
    obtain ⟨hd, he⟩ := C32_handled_in_order c.proc _ _ hp2
    rw [hlog, g4] at he
    have : ProcEv.exited n code ∈ s2.p.queue.filter ProcEv.isLife := List.mem_filter.mpr ⟨hm, rfl⟩
    have hnil := List.append_eq_nil_iff.mp he.symm
    rw [hnil.2] at this
    cases this
  -- along the run
  have key : ∀ (l2 : List TestLabel) (s1 : TestAct) (done : List TestLabel), (∀ l ∈ l2, l.isRequest = false) →
      runSteps (TestAct.step c) s0 done = some s1 → s1.Patient c →
      (5 ≤ s1.t.now ∨ (s1.t.comp = some 0 ∧ s1.t.isDone = [] ∧ s1.t.tasks = [.waiting 1 5] ∧ s1.t.performed = 0 ∧ s1.t.queue = [] ∧
        s1.t.canc = some 1)) →
      ∀ s', runSteps (TestAct.step c) s1 l2 = some s' →
      s'.Inv c ∧ (5 ≤ s'.t.now ∨ (s'.t.comp = some 0 ∧ s'.t.isDone = [] ∧ s'.t.tasks = [.waiting 1 5] ∧ s'.t.performed = 0 ∧ s'.t.queue = [] ∧
        s'.t.canc = some 1)) := by
    intro l2
    induction l2 with
    | nil =>
      intro s1 _ _ _ hp hx s' h
      simp only [runSteps, Option.some.injEq] at h; subst h
      exact ⟨hp.inv, hx⟩
    | cons l l2 ih =>
      intro s1 done hl hd hp hx s' h
      obtain ⟨s2, h1, h2⟩ := runSteps_cons h
      have hl1 := hl l (by simp)
      refine ih s2 (done ++ [l]) (fun l hm => hl l (List.mem_cons_of_mem _ hm)) ?_ (hp.step hl1 h1) ?_ s' h2
      · rw [runSteps_append, hd]; simp only [Option.bind, runSteps, h1]
      rcases hx with hx | ⟨e1, e2, e3, e4, e5, e6⟩
      · left
        have hi2 := hp.inv.step h1
        have := TestAct.now_count [l] s1 s2 hp.inv (by simp only [runSteps, h1])
        rw [← hi2.now, this, hp.inv.now]
        omega
      · cases l with
        | execute =>
          right
          have hexec : s1.p.executed = true := by
            cases hx : s1.armed with
            | true => exact (hp.inv.armed hx).1
            | false => have := hp.inv.unarmed hx; rw [this] at e6; cases e6
          simp only [TestAct.step, Option.some.injEq] at h1; subst h1
          unfold TestAct.execute
          simp only [hexec, if_true]
          exact ⟨e1, e2, e3, e4, e5, e6⟩
        | proc pl =>
          right
          obtain ⟨_, _, _, _, _, h6⟩ := TestAct.proc_step h1
          have : s2.t = s1.t := by
            rw [h6]
            split
            · unfold TestAct.timerReacts
              split
              · rename_i n code heq
                exact absurd (List.mem_of_mem_head? heq) (nolife done s1 hd n code)
              · rename_i sig heq
                have := (hp.quiet e4).queue _ (List.mem_of_mem_head? heq)
                cases this
              · rfl
            · rfl
          rw [this]
          exact ⟨e1, e2, e3, e4, e5, e6⟩
        | timerBegin => simp [TestAct.step, Timer.step, e3] at h1
        | timerResume =>
          left
          simp only [TestAct.step, Timer.step, e3, e2, Option.map_eq_some_iff] at h1
          obtain ⟨t, h1, rfl⟩ := h1
          simp only [List.getElem?_cons_zero, List.not_mem_nil, false_or] at h1
          split at h1
          · rename_i hle
            simp only [Option.some.injEq] at h1; subst h1
            rw [Timer.fire_eq]; exact hle
          · cases h1
        | timerProcess => simp [TestAct.step, Timer.step, Timer.process, e5] at h1
        | tick =>
          right
          simp only [TestAct.step, ProcAct.step, Timer.step, Option.some.injEq] at h1; subst h1
          exact ⟨e1, e2, e3, e4, e5, e6⟩
  have hpat : s0.Patient c := TestAct.Patient.reach g1 (by decide +kernel)
  obtain ⟨hi, hx⟩ := key ls' s0 [] hl rfl hpat (.inr ⟨g5, g6, g7, g8, g9, g10⟩) s' hr
  rcases hx with hx | ⟨e1, e2, _⟩
  · rw [hi.now] at hnow; omega
  · exact ⟨e1, by rw [e2]; simp⟩

/-- A timeout given as an int is rejected, but only when the process is already about to be started; it then runs without a timeout. -/
theorem C97_int_violated (c : TestCfg) (n : Nat) (hc : c.timeout = some (n + 1)) (hi : c.isInt = true) :
    ∃ s, TestAct.Reaches c [.execute] s ∧ s.raised = 1 ∧ s.armed = false ∧ s.p.task = .scheduled := by
  refine ⟨TestAct.execute c {}, rfl, ?_⟩
  simp [TestAct.execute, TestCfg.hasTimeout, hc, hi, ProcAct.execute]

example : ∃ s, TestAct.Reaches { timeout := some 3, isInt := true } [.execute, .proc (.begin true), .proc .spawn, .proc .attach] s ∧
    s.raised = 1 ∧ s.p.task = .running 0 := ⟨_, rfl, by decide +kernel, by decide +kernel⟩

end Verif
