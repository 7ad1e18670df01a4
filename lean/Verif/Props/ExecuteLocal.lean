import Verif.Lemmas.ExecuteLocal

/-!
# Process actions: C31 – C36

`ProcAct.Reaches c ls a`: an action with configuration `c` is in state `a` after the labels `ls`, in any order the event loop,
the operating system, the timers and other parts of the launch allow.
-/

namespace Verif
open ProcAct

/-! ## Samples -/

/-- A run of a process that exits and is restarted. -/
def respawnLabels : List ProcLabel :=
  [.execute, .begin true, .spawn, .attach, .process, .procExit 0 1, .observe, .begin true, .spawn, .attach]

/-- A run of a process that is shut down and does not react. -/
def stubbornLabels : List ProcLabel :=
  [.execute, .begin true, .spawn, .attach, .process, .emit (.shutdown false), .process, .process, .timerBegin .term, .timerBegin .kill] ++
  List.replicate 5 .tick ++ [.timerFire .term, .process, .process] ++ List.replicate 5 .tick ++ [.timerFire .kill, .process, .process,
    .procExit 0 (-9), .observe]

/-! ## C31 -/

theorem executed_step {c : ProcCfg} {a a' : ProcAct} {l : ProcLabel} (hs : a.step c l = some a') :
    a'.executed = (a.executed || decide (l = .execute)) := by
  cases l with
  | execute =>
    simp only [ProcAct.step, Option.some.injEq] at hs; subst hs
    unfold execute
    split
    · rename_i h; simp [h]
    · simp only; split <;> simp
  | process => rw [(process_frame hs).rest]; simp
  | begin ok =>
    simp only [ProcAct.step] at hs
    split at hs
    · simp only [Option.some.injEq] at hs; subst hs; simp
    · cases hs
  | spawn =>
    simp only [ProcAct.step] at hs
    split at hs
    · simp only [Option.some.injEq] at hs; subst hs; simp
    · cases hs
  | spawnFail =>
    simp only [ProcAct.step] at hs
    split at hs
    · simp only [Option.some.injEq] at hs; subst hs; simp [ProcAct.cleanup]
    · cases hs
  | attach =>
    simp only [ProcAct.step] at hs
    split at hs
    · simp only [Option.some.injEq] at hs; subst hs; simp
    · cases hs
  | procExit n code =>
    simp only [ProcAct.step] at hs
    split at hs
    · simp only [Option.some.injEq] at hs; subst hs; simp
    · cases hs
  | observe =>
    simp only [ProcAct.step] at hs
    split at hs
    · split at hs
      · simp only [Option.some.injEq] at hs; subst hs
        unfold observe
        simp only
        split <;> simp [ProcAct.cleanup]
      · cases hs
    · cases hs
  | delayOver =>
    simp only [ProcAct.step] at hs
    split at hs
    · simp only [Option.some.injEq] at hs; subst hs
      split <;> simp [ProcAct.cleanup]
    · cases hs
  | timerBegin s =>
    simp only [ProcAct.step] at hs
    split at hs
    · simp only [Option.some.injEq] at hs; subst hs; rw [setTimer_eq]; simp
    · cases hs
  | timerFire s =>
    simp only [ProcAct.step] at hs
    split at hs
    · split at hs
      · simp only [Option.some.injEq] at hs; subst hs; rw [setTimer_eq]; simp
      · cases hs
    · cases hs
  | tick => simp only [ProcAct.step, Option.some.injEq] at hs; subst hs; simp
  | ask b =>
    simp only [ProcAct.step, Option.some.injEq] at hs; subst hs
    rw [(shutdownProcess_frame b a).rest]; simp
  | setShut => simp only [ProcAct.step, Option.some.injEq] at hs; subst hs; simp
  | emit e =>
    simp only [ProcAct.step] at hs
    split at hs
    · simp only [Option.some.injEq] at hs; subst hs; simp
    · cases hs

theorem executed_run {c : ProcCfg} : ∀ (ls : List ProcLabel) (a a' : ProcAct), runSteps (ProcAct.step c) a ls = some a' →
    a'.executed = (a.executed || decide (.execute ∈ ls))
  | [], a, a', h => by simp [runSteps] at h; simp [h]
  | l :: ls, a, a', h => by
    obtain ⟨b, h1, h2⟩ := runSteps_cons h
    rw [executed_run ls b a' h2, executed_step h1, Bool.or_assoc]
    congr 1
    cases l <;> simp

/-- Executing the action again raises and changes nothing else. -/
theorem C31_second_execute_raises (c : ProcCfg) (ls : List ProcLabel) (a : ProcAct) (h : ProcAct.Reaches c ls a)
    (hex : .execute ∈ ls) : a.step c .execute = some { a with raised := a.raised + 1 } := by
  have hx : a.executed = true := by rw [executed_run ls _ _ h]; simp [hex]
  simp only [ProcAct.step, execute, hx, if_true]

example : ∃ a, ProcAct.Reaches { respawn := true } respawnLabels a ∧ .execute ∈ respawnLabels ∧
    (a.step { respawn := true } .execute).map (·.raised) = some 1 :=
  ⟨_, rfl, by decide +kernel, by decide +kernel⟩

/-- Executed when the context is already shut down, the action never starts a process. -/
theorem C31_no_start_after_shutdown (c : ProcCfg) (ls : List ProcLabel) (a : ProcAct) (h : ProcAct.Reaches c ls a)
    (hex : .execute ∉ ls) (hsh : a.ctxShut = true) (ls' : List ProcLabel) (a' : ProcAct)
    (hr : runSteps (ProcAct.step c) a ls' = some a') : a'.started = 0 ∧ a'.log = [] := by
  have hx : a.executed = false := by rw [executed_run ls _ _ h]; simp [hex]
  have hc := Ctl.reach h
  have ht : a.task = .absent := by
    cases ht : a.task with
    | absent => rfl
    | _ => rw [(hc.present (by rw [ht]; simp)).2.2] at hx; cases hx
  have := runSteps_induct (R := fun b => Ctl c b ∧ b.task = .absent ∧ b.ctxShut = true) (by
    rintro b l b' ⟨hb, hbt, hbs⟩ hs
    refine ⟨hb.step hs, ?_⟩
    obtain ⟨_, hsu, _, _, _, _⟩ := hb.absent hbt
    cases l with
    | execute =>
      simp only [ProcAct.step, Option.some.injEq] at hs; subst hs
      unfold execute
      split
      · exact ⟨hbt, hbs⟩
      · simp [hbs, hbt]
    | process =>
      have hf := process_frame hs
      exact ⟨by rw [hf.rest]; exact hbt, hf.ctxShut hbs⟩
    | begin ok => simp [ProcAct.step, hbt] at hs
    | spawn => simp [ProcAct.step, hbt] at hs
    | spawnFail => simp [ProcAct.step, hbt] at hs
    | attach => simp [ProcAct.step, hbt] at hs
    | procExit n code =>
      simp only [ProcAct.step] at hs
      split at hs
      · simp only [Option.some.injEq] at hs; subst hs; exact ⟨hbt, hbs⟩
      · cases hs
    | observe => simp [ProcAct.step, hbt] at hs
    | delayOver => simp [ProcAct.step, hbt] at hs
    | timerBegin s =>
      simp only [ProcAct.step] at hs
      split at hs
      · simp only [Option.some.injEq] at hs; subst hs; rw [setTimer_eq]; exact ⟨hbt, hbs⟩
      · cases hs
    | timerFire s =>
      simp only [ProcAct.step] at hs
      split at hs
      · split at hs
        · simp only [Option.some.injEq] at hs; subst hs; rw [setTimer_eq]; exact ⟨hbt, hbs⟩
        · cases hs
      · cases hs
    | tick => simp only [ProcAct.step, Option.some.injEq] at hs; subst hs; exact ⟨hbt, hbs⟩
    | ask b =>
      simp only [ProcAct.step, Option.some.injEq] at hs; subst hs
      exact ⟨by rw [(shutdownProcess_frame _ _).rest]; exact hbt, (shutdownProcess_frame _ _).ctxShut hbs⟩
    | setShut => simp only [ProcAct.step, Option.some.injEq] at hs; subst hs; exact ⟨hbt, rfl⟩
    | emit e =>
      simp only [ProcAct.step] at hs
      split at hs
      · simp only [Option.some.injEq] at hs; subst hs; exact ⟨hbt, hbs⟩
      · cases hs) ls' _ _ ⟨hc, ht, hsh⟩ hr
  obtain ⟨_, _, h3, h4, _⟩ := this.1.absent this.2.1
  exact ⟨by simp [ProcAct.started, h3], h4⟩

example : ∃ a, ProcAct.Reaches {} [.setShut] a ∧ a.ctxShut = true ∧
    (runSteps (ProcAct.step {}) a [.execute, .emit .otherStarted, .process, .execute]).map (·.started) = some 0 :=
  ⟨_, rfl, rfl, by decide +kernel⟩

/-- At most one process, and one more for every restart. -/
theorem C31_at_most_one_start_per_restart (c : ProcCfg) (ls : List ProcLabel) (a : ProcAct) (h : ProcAct.Reaches c ls a) :
    a.started ≤ 1 + a.retries := by
  have hc := Ctl.reach h
  have hl := hc.length
  unfold ProcAct.started
  cases ht : a.task <;> rw [ht] at hl <;> simp at hl <;> omega

example : ∃ a, ProcAct.Reaches { respawn := true } respawnLabels a ∧ a.started = 2 ∧ a.retries = 1 :=
  ⟨_, rfl, by decide +kernel, by decide +kernel⟩

/-! ## C32 -/

/-- The start and exit events of the action alternate, process after process. -/
theorem C32_alternate (c : ProcCfg) (ls : List ProcLabel) (a : ProcAct) (h : ProcAct.Reaches c ls a) : Lifecycles 0 a.log := by
  have hc := Ctl.reach h
  have hg := hc.log
  have closed : ∀ n, Closed n a.log → Lifecycles 0 a.log := by
    intro n hn
    have := hn.append [] (.nil n)
    rwa [List.append_nil] at this
  cases ht : a.task with
  | running n =>
    rw [ht] at hg
    obtain ⟨l, hcl, hl⟩ := hg
    rw [hl]
    exact hcl.append _ (.running n)
  | _ => rw [ht] at hg; exact closed _ hg

/-- The exit code reported for a process is its exit code. -/
theorem C32_reported_code (c : ProcCfg) (ls : List ProcLabel) (a : ProcAct) (h : ProcAct.Reaches c ls a) (n : Nat) (code : Int)
    (hm : .exited n code ∈ a.log) : a.procs[n]? = some (some code) := (Ctl.reach h).codes n code hm

/-- Every process whose start was reported is one that was started. -/
theorem C32_reported_start (c : ProcCfg) (ls : List ProcLabel) (a : ProcAct) (h : ProcAct.Reaches c ls a) (n : Nat)
    (hm : .started n ∈ a.log) : n < a.started := by
  have hc := Ctl.reach h
  have hg := hc.log
  have hl := hc.length
  have closed : ∀ m l, Closed m l → .started n ∈ l → n < m := by
    intro m l hcl
    induction hcl with
    | nil => intro hm; cases hm
    | snoc m l code _ ih =>
      intro hm
      rcases List.mem_append.mp hm with hm | hm
      · exact Nat.lt_succ_of_lt (ih hm)
      · simp at hm; omega
  unfold ProcAct.started
  cases ht : a.task with
  | running m =>
    rw [ht] at hg hl
    obtain ⟨l, hcl, hlog⟩ := hg
    rw [hlog] at hm
    simp at hl
    rcases List.mem_append.mp hm with hm | hm
    · have := closed m l hcl hm; omega
    · simp at hm; omega
  | spawned m =>
    rw [ht] at hg hl
    simp at hl
    have := closed _ _ hg hm; omega
  | _ => rw [ht] at hg; exact closed _ _ hg hm

theorem life_shutdownProcess (b : Bool) (a : ProcAct) :
    (a.shutdownProcess b).queue.filter ProcEv.isLife = a.queue.filter ProcEv.isLife := by
  unfold shutdownProcess
  repeat' split
  all_goals simp [ProcEv.isLife]

theorem life_deferred (bs : List Bool) : ∀ a : ProcAct,
    (bs.foldl (fun a b => a.shutdownProcess b) a).queue.filter ProcEv.isLife = a.queue.filter ProcEv.isLife := by
  induction bs with
  | nil => intro a; rfl
  | cons b bs ih => intro a; exact (ih _).trans (life_shutdownProcess b a)

/-- How one step changes the log and the queued start and exit events: both get the same new events, and one event
may be handled. -/
theorem life_step {c : ProcCfg} {a a' : ProcAct} {l : ProcLabel} (hs : a.step c l = some a') :
    ∃ new, a'.log = a.log ++ new ∧
      (a'.queue.filter ProcEv.isLife = a.queue.filter ProcEv.isLife ++ new ∨
        new = [] ∧ ∃ e, a.queue.filter ProcEv.isLife = e :: a'.queue.filter ProcEv.isLife) := by
  cases l with
  | execute =>
    simp only [ProcAct.step, Option.some.injEq] at hs; subst hs
    unfold execute
    refine ⟨[], ?_⟩
    split
    · simp
    · simp only; split <;> simp
  | begin ok =>
    simp only [ProcAct.step] at hs
    split at hs
    · simp only [Option.some.injEq] at hs; subst hs; exact ⟨[], by simp⟩
    · cases hs
  | spawn =>
    simp only [ProcAct.step] at hs
    split at hs
    · simp only [Option.some.injEq] at hs; subst hs; exact ⟨[], by simp⟩
    · cases hs
  | spawnFail =>
    simp only [ProcAct.step] at hs
    split at hs
    · simp only [Option.some.injEq] at hs; subst hs; exact ⟨[], by simp [ProcAct.cleanup]⟩
    · cases hs
  | attach =>
    simp only [ProcAct.step] at hs
    split at hs
    · simp only [Option.some.injEq] at hs; subst hs; exact ⟨[.started _], rfl, .inl (by simp [ProcEv.isLife])⟩
    · cases hs
  | procExit n code =>
    simp only [ProcAct.step] at hs
    split at hs
    · simp only [Option.some.injEq] at hs; subst hs; exact ⟨[], by simp⟩
    · cases hs
  | observe =>
    simp only [ProcAct.step] at hs
    split at hs
    · split at hs
      · simp only [Option.some.injEq] at hs; subst hs
        rename_i n _ _ code _
        refine ⟨[.exited n code], ?_⟩
        unfold observe
        simp only
        split <;> exact ⟨rfl, .inl (by simp [ProcEv.isLife, ProcAct.cleanup])⟩
      · cases hs
    · cases hs
  | delayOver =>
    simp only [ProcAct.step] at hs
    split at hs
    · simp only [Option.some.injEq] at hs; subst hs
      refine ⟨[], ?_⟩
      split <;> simp [ProcAct.cleanup]
    · cases hs
  | timerBegin s =>
    simp only [ProcAct.step] at hs
    split at hs
    · simp only [Option.some.injEq] at hs; subst hs; rw [setTimer_eq]; exact ⟨[], by simp⟩
    · cases hs
  | timerFire s =>
    simp only [ProcAct.step] at hs
    split at hs
    · split at hs
      · simp only [Option.some.injEq] at hs; subst hs; rw [setTimer_eq]; exact ⟨[], by simp [ProcEv.isLife]⟩
      · cases hs
    · cases hs
  | tick => simp only [ProcAct.step, Option.some.injEq] at hs; subst hs; exact ⟨[], by simp⟩
  | ask b =>
    simp only [ProcAct.step, Option.some.injEq] at hs; subst hs
    exact ⟨[], by rw [(shutdownProcess_frame b a).rest]; simp, .inl (by simp [life_shutdownProcess])⟩
  | setShut => simp only [ProcAct.step, Option.some.injEq] at hs; subst hs; exact ⟨[], by simp⟩
  | emit e =>
    simp only [ProcAct.step] at hs
    split at hs
    · rename_i he
      simp only [Option.some.injEq] at hs; subst hs
      refine ⟨[], ?_⟩
      cases e <;> simp_all [foreign, ProcEv.isLife]
    · cases hs
  | process =>
    have hf := process_frame hs
    refine ⟨[], by rw [hf.rest]; simp, ?_⟩
    simp only [ProcAct.step] at hs
    unfold process at hs
    split at hs
    · cases hs
    · rename_i e q hq
      simp only [Option.some.injEq] at hs
      rw [List.append_nil, hq]
      subst hs
      cases e with
      | shutdownProcess m =>
        left
        simp only; split
        · rw [life_shutdownProcess]; simp [ProcEv.isLife]
        · simp [ProcEv.isLife]
      | signal s m o =>
        left
        simp only; split
        · unfold onSignal
          repeat' split
          all_goals simp [ProcEv.isLife]
        · simp [ProcEv.isLife]
      | shutdown sig =>
        left
        simp only; split
        · rw [life_shutdownProcess]; simp [ProcEv.isLife]
        · simp [ProcEv.isLife]
      | started n =>
        right
        refine ⟨rfl, .started n, ?_⟩
        simp only
        rw [life_deferred]
        rfl
      | otherStarted =>
        left
        exact life_deferred _ _
      | exited n code => right; exact ⟨rfl, .exited n code, rfl⟩
      | timer s => left; simp [ProcEv.isLife]

/-- The start and exit events still to be handled are the last ones of the log: they are handled in the order of the log. -/
theorem C32_handled_in_order (c : ProcCfg) (ls : List ProcLabel) (a : ProcAct) (h : ProcAct.Reaches c ls a) :
    ∃ handled, a.log = handled ++ a.queue.filter ProcEv.isLife := by
  refine runSteps_induct (R := fun b => ∃ handled, b.log = handled ++ b.queue.filter ProcEv.isLife) ?_ ls _ _ ⟨[], rfl⟩ h
  rintro b l b' ⟨hd, e⟩ hs
  obtain ⟨new, h1, h2 | ⟨rfl, ev, h2⟩⟩ := life_step hs
  · exact ⟨hd, by rw [h1, e, h2, List.append_assoc]⟩
  · exact ⟨hd ++ [ev], by rw [h1, e, h2]; simp⟩

example : ∃ a, ProcAct.Reaches { respawn := true } respawnLabels a ∧
    a.log = [.started 0, .exited 0 1, .started 1] ∧ a.queue = [.exited 0 1, .started 1] :=
  ⟨_, rfl, by decide +kernel, by decide +kernel⟩

/-! ## C33 -/

/-- After a process ended: either the action completes or there will be a restart, the latter exactly if respawn is requested, the
limit is not reached, and there was no shutdown. -/
theorem C33_restart_iff (c : ProcCfg) (ls : List ProcLabel) (a a' : ProcAct) (h : ProcAct.Reaches c ls a)
    (hs : a.step c .observe = some a') :
    (a'.comp = .pending ↔ a.ctxShut = false ∧ a.shut ≠ .done ∧ c.respawn = true ∧ (c.maxRetries < 0 ∨ (a.retries : Int) < c.maxRetries)) ∧
    (a'.comp = .pending → a'.retries = a.retries + 1) ∧ (a'.comp ≠ .pending → a'.comp = .done) := by
  have hc := Ctl.reach h
  simp only [ProcAct.step] at hs
  split at hs
  · rename_i n ht
    have hpe := pending_of hc (by rw [ht]; simp) (by rw [ht]; simp)
    have hsu := (hc.present (by rw [ht]; simp)).2.1
    have hsd : a.shut = .pending ↔ a.shut ≠ .done := by cases hq : a.shut <;> simp_all
    split at hs
    · simp only [Option.some.injEq] at hs; subst hs
      unfold observe
      simp only
      split
      · rename_i hg
        simp at hg
        obtain ⟨⟨⟨g1, g2⟩, g3⟩, g4⟩ := hg
        refine ⟨⟨fun _ => ⟨g1, hsd.mp g2, g3, g4⟩, fun _ => hpe⟩, fun _ => rfl, fun hq => absurd hpe hq⟩
      · rename_i hg
        simp only [ProcAct.cleanup]
        refine ⟨⟨fun hq => (by cases hq), fun ⟨g1, g2, g3, g4⟩ => ?_⟩, fun hq => (by cases hq), fun _ => trivial⟩
        exact absurd (by simp [g1, hsd.mpr g2, g3, g4]) hg
    · cases hs
  · cases hs

/-- With a limit there are at most so many restarts. -/
theorem C33_limit (c : ProcCfg) (ls : List ProcLabel) (a : ProcAct) (h : ProcAct.Reaches c ls a) (hl : 0 ≤ c.maxRetries) :
    (a.started : Int) ≤ 1 + c.maxRetries := by
  have h1 := C31_at_most_one_start_per_restart c ls a h
  have h2 := (Ctl.reach h).limit.2 hl
  omega

/-- Without respawn there is at most one process. -/
theorem C33_no_respawn (c : ProcCfg) (ls : List ProcLabel) (a : ProcAct) (h : ProcAct.Reaches c ls a) (hn : c.respawn = false) :
    a.started ≤ 1 := by
  have h1 := C31_at_most_one_start_per_restart c ls a h
  have h2 := (Ctl.reach h).limit.1
  by_cases hr : 0 < a.retries
  · rw [h2 hr] at hn; cases hn
  · omega

example : ∃ a a', ProcAct.Reaches { respawn := true, maxRetries := 1 } (respawnLabels ++ [.procExit 1 3]) a ∧
    a.step { respawn := true, maxRetries := 1 } .observe = some a' ∧ a'.comp = .done ∧ a'.started = 2 :=
  ⟨_, _, rfl, rfl, by decide +kernel, by decide +kernel⟩

/-! ## C34 -/

/-- The race: the process ended and the restart was decided; a request to shut down is then handled; a new process is
started nevertheless. -/
theorem C34_respawn_race_violated : ∃ (c : ProcCfg) (ls : List ProcLabel) (a a' : ProcAct), ProcAct.Reaches c ls a ∧
    ls.getLast? = some .process ∧ a.shut = .done ∧ a.started = 1 ∧
    runSteps (ProcAct.step c) a [.begin true, .spawn, .attach] = some a' ∧ a'.started = 2 :=
  ⟨{ respawn := true }, [.execute, .begin true, .spawn, .attach, .process, .emit (.shutdownProcess true), .procExit 0 1, .observe,
    .process], _, _, rfl, rfl, by decide +kernel, by decide +kernel, rfl, by decide +kernel⟩

/-- The interrupt sent by that shutdown request is lost: it is handled before the new process is attached, and the new process gets no
signal before the escalation. -/
theorem C34_interrupt_lost_violated : ∃ (c : ProcCfg) (ls : List ProcLabel) (a : ProcAct), ProcAct.Reaches c ls a ∧
    .emit (.shutdownProcess true) ∈ ls ∧ a.shut = .done ∧ a.task = .running 1 ∧ a.procs[1]? = some none ∧
    a.queue = [.started 1] ∧ a.signals = [] :=
  ⟨{ respawn := true }, [.execute, .begin true, .spawn, .attach, .process, .emit (.shutdownProcess true), .procExit 0 1, .observe,
    .process, .process, .process, .begin true, .spawn, .attach], _, rfl, by decide +kernel, by decide +kernel, by decide +kernel,
    by decide +kernel, by decide +kernel, by decide +kernel⟩

/-- A shutdown handled before the first process was started does not prevent its start either: it is postponed. -/
theorem C34_deferred_violated : ∃ (c : ProcCfg) (ls : List ProcLabel) (a a' : ProcAct), ProcAct.Reaches c ls a ∧
    .emit (.shutdown false) ∈ ls ∧ ls.getLast? = some .process ∧ a.queue = [] ∧ a.ctxShut = true ∧ a.started = 0 ∧
    runSteps (ProcAct.step c) a [.begin true, .spawn, .attach] = some a' ∧ a'.started = 1 :=
  ⟨{}, [.execute, .emit (.shutdown false), .process], _, _, rfl, by decide +kernel, rfl, by decide +kernel, by decide +kernel,
    by decide +kernel, rfl, by decide +kernel⟩

/-- A process is about to be started: the coroutine exists and has not started it. -/
def ProcAct.aboutToStart (a : ProcAct) : Nat := if a.task = .scheduled ∨ a.task = .starting then 1 else 0

theorem about_step {c : ProcCfg} {a a' : ProcAct} {l : ProcLabel} (hc : Ctl c a) (hd : a.shut = .done) (hs : a.step c l = some a') :
    a'.shut = .done ∧ a'.started + a'.aboutToStart ≤ a.started + a.aboutToStart := by
  cases l with
  | execute =>
    simp only [ProcAct.step, Option.some.injEq] at hs; subst hs
    unfold execute
    rw [if_pos (hc.executed_of_done hd)]
    exact ⟨hd, Nat.le_refl _⟩
  | begin ok =>
    simp only [ProcAct.step] at hs
    split at hs
    · rename_i ht
      simp only [Option.some.injEq] at hs; subst hs
      refine ⟨hd, ?_⟩
      simp only [ProcAct.started, aboutToStart, ht]
      cases ok <;> simp
    · cases hs
  | spawn =>
    simp only [ProcAct.step] at hs
    split at hs
    · rename_i ht
      simp only [Option.some.injEq] at hs; subst hs
      exact ⟨hd, by simp [ProcAct.started, aboutToStart, ht]⟩
    · cases hs
  | spawnFail =>
    simp only [ProcAct.step] at hs
    split at hs
    · simp only [Option.some.injEq] at hs; subst hs
      exact ⟨hd, by simp [ProcAct.started, aboutToStart, ProcAct.cleanup]⟩
    · cases hs
  | attach =>
    simp only [ProcAct.step] at hs
    split at hs
    · simp only [Option.some.injEq] at hs; subst hs
      exact ⟨hd, by simp [ProcAct.started, aboutToStart]⟩
    · cases hs
  | procExit n code =>
    simp only [ProcAct.step] at hs
    split at hs
    · simp only [Option.some.injEq] at hs; subst hs
      exact ⟨hd, by simp [ProcAct.started, aboutToStart]⟩
    · cases hs
  | observe =>
    simp only [ProcAct.step] at hs
    split at hs
    · split at hs
      · simp only [Option.some.injEq] at hs; subst hs
        unfold observe
        simp only
        rw [if_neg (by simp [hd])]
        exact ⟨hd, by simp [ProcAct.started, aboutToStart, ProcAct.cleanup]⟩
      · cases hs
    · cases hs
  | delayOver =>
    simp only [ProcAct.step, hd] at hs
    split at hs
    · simp only [Option.some.injEq] at hs; subst hs
      exact ⟨hd, by simp [ProcAct.started, aboutToStart, ProcAct.cleanup]⟩
    · cases hs
  | timerBegin s =>
    simp only [ProcAct.step] at hs
    split at hs
    · simp only [Option.some.injEq] at hs; subst hs; rw [setTimer_eq]; exact ⟨hd, Nat.le_refl _⟩
    · cases hs
  | timerFire s =>
    simp only [ProcAct.step] at hs
    split at hs
    · split at hs
      · simp only [Option.some.injEq] at hs; subst hs; rw [setTimer_eq]; exact ⟨hd, Nat.le_refl _⟩
      · cases hs
    · cases hs
  | tick => simp only [ProcAct.step, Option.some.injEq] at hs; subst hs; exact ⟨hd, Nat.le_refl _⟩
  | ask b =>
    simp only [ProcAct.step, Option.some.injEq] at hs; subst hs
    refine ⟨(shutdownProcess_frame b a).shutDone hd, ?_⟩
    rw [(shutdownProcess_frame b a).rest]; exact Nat.le_refl _
  | setShut => simp only [ProcAct.step, Option.some.injEq] at hs; subst hs; exact ⟨hd, Nat.le_refl _⟩
  | emit e =>
    simp only [ProcAct.step] at hs
    split at hs
    · simp only [Option.some.injEq] at hs; subst hs; exact ⟨hd, Nat.le_refl _⟩
    · cases hs
  | process =>
    have hf := process_frame hs
    refine ⟨hf.shutDone hd, ?_⟩
    rw [hf.rest]; exact Nat.le_refl _

/-- Missing: the two races above.  What holds: once the shutdown procedure has begun at most the one process that was about to
be started is still started, and none if a process is running or the respawn delay is being waited for. -/
theorem C34_no_restart_after_shutdown_partial (c : ProcCfg) (ls : List ProcLabel) (a : ProcAct) (h : ProcAct.Reaches c ls a)
    (hd : a.shut = .done) (ls' : List ProcLabel) (a' : ProcAct) (hr : runSteps (ProcAct.step c) a ls' = some a') :
    a'.started ≤ a.started + (if a.task = .scheduled ∨ a.task = .starting then 1 else 0) := by
  have := (runSteps_induct (R := fun b => Ctl c b ∧ b.shut = .done ∧ b.started + b.aboutToStart ≤ a.started + a.aboutToStart) (by
    rintro b l b' ⟨hb, hbd, hle⟩ hs
    obtain ⟨x, y⟩ := about_step hb hbd hs
    exact ⟨hb.step hs, x, Nat.le_trans y hle⟩) ls' _ _ ⟨Ctl.reach h, hd, Nat.le_refl _⟩ hr).2.2
  unfold aboutToStart at this
  omega

example : ∃ a, ProcAct.Reaches { respawn := true } (respawnLabels ++ [.emit (.shutdown false), .process, .process, .process]) a ∧
    a.shut = .done ∧ a.task = .running 1 := ⟨_, rfl, by decide +kernel, by decide +kernel⟩

/-- The postponed shutdown begins when the start of the process is handled. -/
theorem C34_deferred_begins_at_start (c : ProcCfg) (ls : List ProcLabel) (a a' : ProcAct) (n : Nat) (q : List ProcEv)
    (h : ProcAct.Reaches c ls a) (hq : a.queue = .started n :: q) (hdef : a.deferred ≠ []) (hp : a.comp = .pending)
    (hs : a.step c .process = some a') : a'.shut = .done := by
  have hc := Ctl.reach h
  have htr : a.transport ≠ none := by
    -- an event about the start of a process exists only after the attachment of a process
    have key : ∀ ls (b : ProcAct), ProcAct.Reaches c ls b → b.log ≠ [] → b.transport ≠ none := by
      intro ls b hb
      refine (runSteps_induct (R := fun b => Ctl c b ∧ (b.log ≠ [] → b.transport ≠ none)) ?_ ls _ _ ⟨Ctl.init c, fun h => absurd rfl h⟩ hb).2
      rintro b l b' ⟨h0, h1⟩ hs
      refine ⟨h0.step hs, ?_⟩
      cases l with
      | execute =>
        simp only [ProcAct.step, Option.some.injEq] at hs; subst hs
        unfold execute
        split
        · exact h1
        · simp only; split <;> exact h1
      | begin ok =>
        simp only [ProcAct.step] at hs
        split at hs
        · simp only [Option.some.injEq] at hs; subst hs; exact h1
        · cases hs
      | spawn =>
        simp only [ProcAct.step] at hs
        split at hs
        · simp only [Option.some.injEq] at hs; subst hs; exact h1
        · cases hs
      | spawnFail =>
        simp only [ProcAct.step] at hs
        split at hs
        · simp only [Option.some.injEq] at hs; subst hs; exact h1
        · cases hs
      | attach =>
        simp only [ProcAct.step] at hs
        split at hs
        · simp only [Option.some.injEq] at hs; subst hs; simp
        · cases hs
      | procExit n code =>
        simp only [ProcAct.step] at hs
        split at hs
        · simp only [Option.some.injEq] at hs; subst hs; exact h1
        · cases hs
      | observe =>
        simp only [ProcAct.step] at hs
        split at hs
        · rename_i m ht
          have := h0.running m ht
          split at hs
          · simp only [Option.some.injEq] at hs; subst hs
            unfold observe
            simp only
            split <;> simp [ProcAct.cleanup, this]
          · cases hs
        · cases hs
      | delayOver =>
        simp only [ProcAct.step] at hs
        split at hs
        · simp only [Option.some.injEq] at hs; subst hs
          split <;> exact h1
        · cases hs
      | timerBegin s =>
        simp only [ProcAct.step] at hs
        split at hs
        · simp only [Option.some.injEq] at hs; subst hs; rw [setTimer_eq]; exact h1
        · cases hs
      | timerFire s =>
        simp only [ProcAct.step] at hs
        split at hs
        · split at hs
          · simp only [Option.some.injEq] at hs; subst hs; rw [setTimer_eq]; exact h1
          · cases hs
        · cases hs
      | tick => simp only [ProcAct.step, Option.some.injEq] at hs; subst hs; exact h1
      | ask b =>
        simp only [ProcAct.step, Option.some.injEq] at hs; subst hs
        rw [(shutdownProcess_frame _ _).rest]; exact h1
      | setShut => simp only [ProcAct.step, Option.some.injEq] at hs; subst hs; exact h1
      | emit e =>
        simp only [ProcAct.step] at hs
        split at hs
        · simp only [Option.some.injEq] at hs; subst hs; exact h1
        · cases hs
      | process => rw [(process_frame hs).rest]; exact h1
    refine key ls a h ?_
    obtain ⟨hd, e⟩ := C32_handled_in_order c ls a h
    rw [e, hq]
    simp [ProcEv.isLife]
  have hsu : a.shut ≠ .unset := by
    refine (hc.present ?_).2.1
    intro ht
    rw [(hc.absent ht).1] at hp; cases hp
  simp only [ProcAct.step] at hs
  unfold process at hs
  rw [hq] at hs
  simp only [Option.some.injEq] at hs
  subst hs
  cases hl : a.deferred with
  | nil => exact absurd hl hdef
  | cons b bs =>
    simp only [List.foldl_cons]
    refine (deferred_frame bs _).shutDone ?_
    unfold shutdownProcess
    cases hsh : a.shut with
    | unset => exact absurd hsh hsu
    | done => simp [hsh]
    | pending => simp [hsh, hp, htr]

example : ∃ a, ProcAct.Reaches {} [.execute, .emit (.shutdown false), .process, .begin true, .spawn, .attach] a ∧
    a.queue = [.started 0] ∧ a.deferred = [true] ∧ a.comp = .pending := ⟨_, rfl, by decide +kernel, by decide +kernel, by decide +kernel⟩

/-! ## C35 -/

/-- The signals the action sends on its own account to shut the process down. -/
def ProcAct.ownSignals (a : ProcAct) (s : Sig) : List Delivered := a.signals.filter (fun d => d.own && decide (d.sig = s))

/-- At most one interrupt is sent, however often shutdown is requested. -/
theorem C35_interrupt_at_most_once (c : ProcCfg) (ls : List ProcLabel) (a : ProcAct) (h : ProcAct.Reaches c ls a) :
    (a.ownSignals .int).length ≤ 1 := by
  have := (Inv.reach h).tokens
  unfold tokens at this
  rw [show (a.ownSignals .int).length = a.signals.countP ownIntD from List.countP_eq_length_filter.symm]
  omega

/-- A request to shut down a running process: the interrupt is emitted, and further requests have no effect. -/
theorem C35_interrupt_is_sent (c : ProcCfg) (ls : List ProcLabel) (a a' : ProcAct) (e : ProcEv) (q : List ProcEv)
    (_h : ProcAct.Reaches c ls a) (hq : a.queue = e :: q)
    (he : e = .shutdownProcess true ∨ ∃ sig, e = .shutdown sig ∧ (sig = false ∨ c.noninteractive = true))
    (hp : a.comp = .pending) (hsh : a.shut = .pending) (htr : a.transport ≠ none)
    (hs : a.step c .process = some a') : a'.queue = q ++ [.signal .int true true] ∧ a'.shut = .done ∧
      a'.sigterm = .scheduled ∧ a'.sigkill = .scheduled := by
  simp only [ProcAct.step] at hs
  unfold process at hs
  rw [hq] at hs
  simp only [Option.some.injEq] at hs
  subst hs
  rcases he with rfl | ⟨sig, rfl, hsig⟩
  · simp [hp, shutdownProcess, hsh, htr]
  · rcases hsig with rfl | hn
    · simp [hp, shutdownProcess, hsh, htr]
    · simp [hp, shutdownProcess, hsh, htr, hn]

/-- A signal event for the action is delivered to its process if the end of the process has not been noticed. -/
theorem C35_signal_is_delivered (c : ProcCfg) (ls : List ProcLabel) (a a' : ProcAct) (s : Sig) (own : Bool) (n : Nat) (q : List ProcEv)
    (h : ProcAct.Reaches c ls a) (hq : a.queue = .signal s true own :: q) (htr : a.transport = some n) (hn : a.procs[n]? = some none)
    (hs : a.step c .process = some a') : a'.signals = a.signals ++ [⟨s, n, a.now, own⟩] := by
  have hc := Ctl.reach h
  have hu : a.comp ≠ .unset := by
    intro hu
    cases hta : a.task with
    | absent => rw [(hc.absent hta).2.2.2.2.1] at htr; cases htr
    | _ => exact (hc.present (by rw [hta]; simp)).1 hu
  have hcn : a.complete n = false := by unfold complete; rw [hn]
  simp only [ProcAct.step] at hs
  unfold process at hs
  rw [hq] at hs
  simp only [Option.some.injEq] at hs
  subst hs
  unfold complete at hcn
  simp [hu, onSignal, htr, complete, hcn]

example : ∃ a a', ProcAct.Reaches {} [.execute, .begin true, .spawn, .attach, .process, .emit (.shutdown false), .process] a ∧
    a.queue = [.signal .int true true] ∧ a.step {} .process = some a' ∧ a'.signals = [⟨.int, 0, 0, true⟩] :=
  ⟨_, _, rfl, by decide +kernel, rfl, by decide +kernel⟩

/-- A shutdown by an interactive ctrl-c, which the process gets from the terminal, makes the action send no interrupt, then
or later. -/
theorem C35_no_interrupt_for_ctrl_c (c : ProcCfg) (ls : List ProcLabel) (a a1 : ProcAct) (q : List ProcEv)
    (h : ProcAct.Reaches c ls a) (hq : a.queue = .shutdown true :: q) (hi : c.noninteractive = false) (hp : a.comp = .pending)
    (hsh : a.shut = .pending) (htr : a.transport ≠ none) (hs : a.step c .process = some a1)
    (ls' : List ProcLabel) (a' : ProcAct) (hr : runSteps (ProcAct.step c) a1 ls' = some a') :
    a1.shut = .done ∧ a'.ownSignals .int = [] := by
  have hinv := Inv.reach h
  have ht := hinv.tokens
  have hz : a.signals.countP ownIntD = 0 ∧ q.countP ownInt = 0 := by
    have he : ownInt (.shutdown true) = false := rfl
    simp only [tokens, hsh, hq, List.countP_cons, he] at ht
    rw [if_neg (by decide), if_neg (by decide)] at ht
    constructor
    · omega
    · omega
  have h1 : a1.shut = .done ∧ a1.tokens = 0 := by
    simp only [ProcAct.step] at hs
    unfold process at hs
    rw [hq] at hs
    simp only [Option.some.injEq] at hs
    subst hs
    simp only [shutdownProcess, hsh, hp, htr, hi, tokens]
    simp [hz.1, hz.2]
  refine ⟨h1.1, ?_⟩
  have h2 := (hinv.step hs).tokens_run hr
  rw [h1.2] at h2
  have : (a'.ownSignals .int).length = 0 := by
    rw [show (a'.ownSignals .int).length = a'.signals.countP ownIntD from List.countP_eq_length_filter.symm]
    unfold tokens at h2
    omega
  exact List.length_eq_zero_iff.mp this

example : ∃ a, ProcAct.Reaches {} [.execute, .begin true, .spawn, .attach, .process, .emit (.shutdown true)] a ∧
    a.queue = [.shutdown true] ∧ a.comp = .pending ∧ a.shut = .pending ∧ a.transport = some 0 :=
  ⟨_, rfl, by decide +kernel, by decide +kernel, by decide +kernel, by decide +kernel⟩

theorem shutdownProcess_at (b : Bool) (a : ProcAct) :
    (a.shutdownProcess b).now = a.now ∧ ((a.shutdownProcess b).shutAt = a.shutAt ∨ (a.shutdownProcess b).shutAt = some a.now) := by
  unfold shutdownProcess
  repeat' split
  all_goals simp

theorem deferred_at (bs : List Bool) : ∀ a : ProcAct, (bs.foldl (fun a b => a.shutdownProcess b) a).now = a.now ∧
    ((bs.foldl (fun a b => a.shutdownProcess b) a).shutAt = a.shutAt ∨ (bs.foldl (fun a b => a.shutdownProcess b) a).shutAt = some a.now) := by
  induction bs with
  | nil => intro a; exact ⟨rfl, .inl rfl⟩
  | cons b bs ih =>
    intro a
    obtain ⟨h1, h2⟩ := shutdownProcess_at b a
    obtain ⟨h3, h4⟩ := ih (a.shutdownProcess b)
    refine ⟨h3.trans h1, ?_⟩
    rw [h1] at h4
    rcases h4 with h4 | h4
    · rcases h2 with h2 | h2
      · exact .inl (h4.trans h2)
      · exact .inr (h4.trans h2)
    · exact .inr h4

theorem at_step {c : ProcCfg} {a a' : ProcAct} {l : ProcLabel} (hs : a.step c l = some a') :
    a.now ≤ a'.now ∧ (a'.shutAt = a.shutAt ∨ a'.shutAt = some a.now) := by
  cases l with
  | execute =>
    simp only [ProcAct.step, Option.some.injEq] at hs; subst hs
    unfold execute
    split
    · simp
    · simp only; split <;> simp
  | begin ok =>
    simp only [ProcAct.step] at hs
    split at hs
    · simp only [Option.some.injEq] at hs; subst hs; simp
    · cases hs
  | spawn =>
    simp only [ProcAct.step] at hs
    split at hs
    · simp only [Option.some.injEq] at hs; subst hs; simp
    · cases hs
  | spawnFail =>
    simp only [ProcAct.step] at hs
    split at hs
    · simp only [Option.some.injEq] at hs; subst hs; simp [ProcAct.cleanup]
    · cases hs
  | attach =>
    simp only [ProcAct.step] at hs
    split at hs
    · simp only [Option.some.injEq] at hs; subst hs; simp
    · cases hs
  | procExit n code =>
    simp only [ProcAct.step] at hs
    split at hs
    · simp only [Option.some.injEq] at hs; subst hs; simp
    · cases hs
  | observe =>
    simp only [ProcAct.step] at hs
    split at hs
    · split at hs
      · simp only [Option.some.injEq] at hs; subst hs
        unfold observe
        simp only
        split <;> simp [ProcAct.cleanup]
      · cases hs
    · cases hs
  | delayOver =>
    simp only [ProcAct.step] at hs
    split at hs
    · simp only [Option.some.injEq] at hs; subst hs
      split <;> simp [ProcAct.cleanup]
    · cases hs
  | timerBegin s =>
    simp only [ProcAct.step] at hs
    split at hs
    · simp only [Option.some.injEq] at hs; subst hs; rw [setTimer_eq]; simp
    · cases hs
  | timerFire s =>
    simp only [ProcAct.step] at hs
    split at hs
    · split at hs
      · simp only [Option.some.injEq] at hs; subst hs; rw [setTimer_eq]; simp
      · cases hs
    · cases hs
  | tick => simp only [ProcAct.step, Option.some.injEq] at hs; subst hs; simp
  | ask b =>
    simp only [ProcAct.step, Option.some.injEq] at hs; subst hs
    obtain ⟨g1, g2⟩ := shutdownProcess_at b a
    rw [g1]
    exact ⟨Nat.le_refl _, g2⟩
  | setShut => simp only [ProcAct.step, Option.some.injEq] at hs; subst hs; simp
  | emit e =>
    simp only [ProcAct.step] at hs
    split at hs
    · simp only [Option.some.injEq] at hs; subst hs; simp
    · cases hs
  | process =>
    simp only [ProcAct.step] at hs
    unfold process at hs
    split at hs
    · cases hs
    · rename_i e q hq
      simp only [Option.some.injEq] at hs
      subst hs
      have sp : ∀ (b : Bool) (x : ProcAct), x.now = a.now → x.shutAt = a.shutAt → a.now ≤ (x.shutdownProcess b).now ∧
          ((x.shutdownProcess b).shutAt = a.shutAt ∨ (x.shutdownProcess b).shutAt = some a.now) := by
        intro b x e1 e2
        obtain ⟨g1, g2⟩ := shutdownProcess_at b x
        rw [g1, e1]
        rw [e1, e2] at g2
        exact ⟨Nat.le_refl _, g2⟩
      have sd : ∀ (bs : List Bool) (x : ProcAct), x.now = a.now → x.shutAt = a.shutAt →
          a.now ≤ (bs.foldl (fun a b => a.shutdownProcess b) x).now ∧
          ((bs.foldl (fun a b => a.shutdownProcess b) x).shutAt = a.shutAt ∨
            (bs.foldl (fun a b => a.shutdownProcess b) x).shutAt = some a.now) := by
        intro bs x e1 e2
        obtain ⟨g1, g2⟩ := deferred_at bs x
        rw [g1, e1]
        rw [e1, e2] at g2
        exact ⟨Nat.le_refl _, g2⟩
      cases e with
      | shutdownProcess m =>
        simp only; split
        · exact sp _ _ rfl rfl
        · simp
      | signal s m o =>
        simp only; split
        · unfold onSignal
          repeat' split
          all_goals simp
        · simp
      | shutdown sig =>
        simp only; split
        · exact sp _ _ rfl rfl
        · simp
      | started n => exact sd _ _ rfl rfl
      | otherStarted => exact sd _ _ rfl rfl
      | exited n code => simp
      | timer s => simp

/-- The action terminates or kills its process only when `sigterm_timeout` (and `sigkill_timeout`) have passed since its
shutdown began. -/
theorem C35_escalation_waits (c : ProcCfg) (ls : List ProcLabel) (a : ProcAct) (h : ProcAct.Reaches c ls a)
    (hns : a.shut ≠ .done) (ls' : List ProcLabel) (a' : ProcAct) (hr : runSteps (ProcAct.step c) a ls' = some a') :
    (∀ d ∈ a'.ownSignals .term, a.now + c.sigtermTimeout ≤ d.time) ∧
    (∀ d ∈ a'.ownSignals .kill, a.now + c.sigtermTimeout + c.sigkillTimeout ≤ d.time) := by
  have hinv := Inv.reach h
  have hn : a.shutAt = none := by
    cases hs : a.shutAt with
    | none => rfl
    | some t0 => exact absurd (hinv.timing.begun t0 hs).1 hns
  obtain ⟨hinv', _, hat⟩ := runSteps_induct (R := fun b => Inv c b ∧ a.now ≤ b.now ∧ ∀ t0, b.shutAt = some t0 → a.now ≤ t0) (by
    rintro b l b' ⟨hb, hle, hb2⟩ hs
    obtain ⟨h1, h2⟩ := at_step hs
    refine ⟨hb.step hs, Nat.le_trans hle h1, fun t0 ht => ?_⟩
    rcases h2 with h2 | h2
    · exact hb2 t0 (h2 ▸ ht)
    · rw [h2] at ht; simp only [Option.some.injEq] at ht; omega) ls' _ _ ⟨hinv, Nat.le_refl _, fun t0 ht => by rw [hn] at ht; cases ht⟩ hr
  constructor
  · intro d hd
    obtain ⟨hm, hp⟩ := List.mem_filter.mp hd
    simp at hp
    obtain ⟨_, _, h3⟩ := hinv'.timing.delivered d hm
    rcases h3 hp.1 with h3 | ⟨_, t0, h4, h5⟩
    · rw [hp.2] at h3; cases h3.1
    · rw [hp.2] at h5
      have := hat t0 h4
      simp only [period] at h5
      omega
  · intro d hd
    obtain ⟨hm, hp⟩ := List.mem_filter.mp hd
    simp at hp
    obtain ⟨_, _, h3⟩ := hinv'.timing.delivered d hm
    rcases h3 hp.1 with h3 | ⟨_, t0, h4, h5⟩
    · rw [hp.2] at h3; cases h3.1
    · rw [hp.2] at h5
      have := hat t0 h4
      simp only [period] at h5
      omega

/-- On its own account the action sends no other signals, and none before its shutdown began. -/
theorem C35_only_escalation (c : ProcCfg) (ls : List ProcLabel) (a : ProcAct) (h : ProcAct.Reaches c ls a) (d : Delivered)
    (hd : d ∈ a.signals) (ho : d.own = true) : a.shut = .done ∧ (d.sig = .int ∨ d.sig = .term ∨ d.sig = .kill) := by
  have hinv := Inv.reach h
  obtain ⟨_, _, h3⟩ := hinv.timing.delivered d hd
  rcases h3 ho with ⟨h1, t0, h2, _⟩ | ⟨h1, t0, h2, _⟩
  · exact ⟨(hinv.timing.begun t0 h2).1, .inl h1⟩
  · exact ⟨(hinv.timing.begun t0 h2).1, .inr h1⟩

/-- No signal is delivered to a process once its end has been noticed. -/
theorem C35_no_signal_after_exit (c : ProcCfg) (a a' : ProcAct) (n : Nat) (code : Int)
    (hn : a.procs[n]? = some (some code)) (ls : List ProcLabel) (hr : runSteps (ProcAct.step c) a ls = some a') :
    a'.signals.filter (fun d => d.proc == n) = a.signals.filter (fun d => d.proc == n) :=
  (ended_no_signal hn hr).2

/-- Everything at once for a process that does not react. -/
example : ∃ a, ProcAct.Reaches {} stubbornLabels a ∧
    a.signals = [⟨.int, 0, 0, true⟩, ⟨.term, 0, 5, true⟩, ⟨.kill, 0, 10, true⟩] ∧ a.procs = [some (-9)] ∧ a.comp = .done :=
  ⟨_, rfl, by decide +kernel, by decide +kernel, by decide +kernel⟩

/-! ## C36 -/

/-- The completion future is resolved at most once, and it is resolved exactly if the action completed. -/
theorem C36_resolved_once (c : ProcCfg) (ls : List ProcLabel) (a : ProcAct) (h : ProcAct.Reaches c ls a) :
    a.resolved ≤ 1 ∧ (a.comp = .done ↔ a.resolved = 1) := by
  have := (Ctl.reach h).resolved
  split at this <;> simp_all

/-- When it is resolved every process has exited and its exit was reported. -/
theorem C36_after_last_exit (c : ProcCfg) (ls : List ProcLabel) (a : ProcAct) (h : ProcAct.Reaches c ls a) (hd : a.comp = .done) :
    ∀ n < a.started, ∃ code, .exited n code ∈ a.log ∧ a.procs[n]? = some (some code) := by
  have hc := Ctl.reach h
  have hg := hc.log
  rw [hc.ended.mp hd] at hg
  have closed : ∀ m l, Closed m l → ∀ n < m, ∃ code, ProcEv.exited n code ∈ l := by
    intro m l hcl
    induction hcl with
    | nil => intro n hn; omega
    | snoc m l code _ ih =>
      intro n hn
      by_cases hnm : n = m
      · subst hnm; exact ⟨code, by simp⟩
      · obtain ⟨code', hm⟩ := ih n (by omega)
        exact ⟨code', by simp [hm]⟩
  intro n hn
  obtain ⟨code, hm⟩ := closed _ _ hg n hn
  exact ⟨code, hm, hc.codes n code hm⟩

/-- After that nothing more happens: no process is started, no event about one is emitted, no signal is delivered, and the
future is not resolved again. -/
theorem C36_nothing_after (c : ProcCfg) (ls : List ProcLabel) (a : ProcAct) (h : ProcAct.Reaches c ls a) (hd : a.comp = .done)
    (ls' : List ProcLabel) (a' : ProcAct) (hr : runSteps (ProcAct.step c) a ls' = some a') :
    a'.comp = .done ∧ a'.started = a.started ∧ a'.log = a.log ∧ a'.resolved = a.resolved ∧ a'.signals = a.signals :=
  quiet_run (Ctl.reach h) hd (quiet_reach h hd) hr

/-- And no escalation timer fires. -/
theorem C36_no_timer_after (c : ProcCfg) (ls : List ProcLabel) (a : ProcAct) (h : ProcAct.Reaches c ls a) (hd : a.comp = .done) (s : Sig) :
    a.step c (.timerFire s) = none ∧ a.step c (.timerBegin s) = none := by
  have := quiet_reach h hd s
  constructor
  · simp only [ProcAct.step]
    rcases this with e | e | e <;> simp [e]
  · simp only [ProcAct.step]
    rcases this with e | e | e <;> simp [e]

example : ∃ a, ProcAct.Reaches {} [.execute, .begin true, .spawn, .attach, .process, .emit (.shutdown false), .process, .timerBegin .term,
    .procExit 0 0, .observe] a ∧ a.comp = .done ∧ a.sigterm = .cancelled ∧ a.sigkill = .cancelled ∧ a.resolved = 1 :=
  ⟨_, rfl, by decide +kernel, by decide +kernel, by decide +kernel, by decide +kernel⟩

/-- Starting a process fails: the action completes. -/
theorem C36_completes_on_failure (c : ProcCfg) (ls : List ProcLabel) (a : ProcAct) (_h : ProcAct.Reaches c ls a) (ht : a.task = .starting) :
    ∃ a', a.step c .spawnFail = some a' ∧ a'.comp = .done := by
  simp only [ProcAct.step, ht, if_true]
  exact ⟨_, rfl, rfl⟩

/-- Missing: that it is resolved at all, see below.  What holds: from every state in which the coroutine did not die, the action can
still complete, and it needs no more than the end of its process (or a failure to start it). -/
theorem C36_can_complete_partial (c : ProcCfg) (ls : List ProcLabel) (a : ProcAct) (h : ProcAct.Reaches c ls a)
    (hp : a.comp = .pending) (hf : a.task ≠ .failed) :
    ∃ ls' a', runSteps (ProcAct.step c) a ls' = some a' ∧ a'.comp = .done := by
  have hc := Ctl.reach h
  have scheduled : ∀ b : ProcAct, b.task = .scheduled → ∃ ls' b', runSteps (ProcAct.step c) b ls' = some b' ∧ b'.comp = .done := by
    intro b hb
    refine ⟨[.begin true, .spawnFail], ({ b with task := .starting } : ProcAct).cleanup, ?_, rfl⟩
    simp only [runSteps, ProcAct.step, hb, if_true]
  have delaying : ∀ b : ProcAct, b.task = .delaying → ∃ ls' b', runSteps (ProcAct.step c) b ls' = some b' ∧ b'.comp = .done := by
    intro b hb
    by_cases hs : b.shut = .done
    · exact ⟨[.delayOver], b.cleanup, by simp [runSteps, ProcAct.step, hb, hs], rfl⟩
    · obtain ⟨ls', b', h1, h2⟩ := scheduled { b with task := .scheduled } rfl
      exact ⟨.delayOver :: ls', b', by simp only [runSteps, ProcAct.step, hb, hs, if_true, if_false]; exact h1, h2⟩
  have observing : ∀ (b : ProcAct) (n : Nat) (code : Int), b.task = .running n → b.procs[n]? = some (some code) →
      ∃ ls' b', runSteps (ProcAct.step c) b ls' = some b' ∧ b'.comp = .done := by
    intro b n code hb hn
    have hst : ∀ ls', runSteps (ProcAct.step c) b (.observe :: ls') = runSteps (ProcAct.step c) (b.observe c n code) ls' := by
      intro ls'; simp only [runSteps, ProcAct.step, hb, hn]
    by_cases hg : (!b.ctxShut && decide (b.shut = .pending) && c.respawn && (c.maxRetries < 0 || (b.retries : Int) < c.maxRetries)) = true
    · have e : b.observe c n code = { b with
          queue := b.queue ++ [.exited n code], log := b.log ++ [.exited n code], retries := b.retries + 1
          task := if c.delayed then .delaying else .scheduled } := by
        unfold observe; simp only; rw [if_pos hg]
      cases hdl : c.delayed with
      | true =>
        obtain ⟨ls', b', h1, h2⟩ := delaying (b.observe c n code) (by rw [e]; simp [hdl])
        exact ⟨.observe :: ls', b', by rw [hst]; exact h1, h2⟩
      | false =>
        obtain ⟨ls', b', h1, h2⟩ := scheduled (b.observe c n code) (by rw [e]; simp [hdl])
        exact ⟨.observe :: ls', b', by rw [hst]; exact h1, h2⟩
    · refine ⟨[.observe], b.observe c n code, by rw [hst]; rfl, ?_⟩
      unfold observe; simp only; rw [if_neg hg]; rfl
  have running : ∀ (b : ProcAct) (n : Nat), b.task = .running n → n < b.procs.length →
      ∃ ls' b', runSteps (ProcAct.step c) b ls' = some b' ∧ b'.comp = .done := by
    intro b n hb hn
    cases hpn : b.procs[n]? with
    | none => rw [List.getElem?_eq_none_iff] at hpn; omega
    | some x =>
      cases x with
      | some code => exact observing b n code hb hpn
      | none =>
        obtain ⟨ls', b', h1, h2⟩ := observing { b with procs := b.procs.set n (some 0) } n 0 hb (by simp [hn])
        exact ⟨.procExit n 0 :: ls', b', by simp only [runSteps, ProcAct.step, hpn, if_true]; exact h1, h2⟩
  have hl := hc.length
  cases ht : a.task with
  | absent => rw [(hc.absent ht).1] at hp; cases hp
  | ended => rw [hc.ended.mpr ht] at hp; cases hp
  | failed => exact absurd ht hf
  | scheduled => exact scheduled a ht
  | starting => exact ⟨[.spawnFail], a.cleanup, by simp [runSteps, ProcAct.step, ht], rfl⟩
  | delaying => exact delaying a ht
  | running n =>
    rw [ht] at hl
    exact running a n ht (by simp at hl; omega)
  | spawned n =>
    rw [ht] at hl
    obtain ⟨ls', b', h1, h2⟩ := running { a with transport := some n, task := .running n
                                                 queue := a.queue ++ [.started n], log := a.log ++ [.started n] } n rfl
      (by show n < a.procs.length; simp at hl; omega)
    exact ⟨.attach :: ls', b', by simp only [runSteps, ProcAct.step, ht]; exact h1, h2⟩

example : ∃ a, ProcAct.Reaches { respawn := true, delayed := true }
    [.execute, .begin true, .spawn, .attach, .process, .procExit 0 1, .observe] a ∧ a.comp = .pending ∧ a.task = .delaying :=
  ⟨_, rfl, by decide +kernel, by decide +kernel⟩

/-- If the launch configuration `emulate_tty` has a value that is no boolean the coroutine dies and the future is never
resolved. -/
theorem C36_never_resolved_violated : ∃ (c : ProcCfg) (ls : List ProcLabel) (a : ProcAct), ProcAct.Reaches c ls a ∧ a.comp = .pending ∧
    ∀ ls' a', runSteps (ProcAct.step c) a ls' = some a' → a'.comp = .pending := by
  refine ⟨{}, [.execute, .begin false], _, rfl, by decide +kernel, ?_⟩
  intro ls' a' hr
  have := runSteps_induct (R := fun b => Ctl {} b ∧ b.task = .failed) (by
    rintro b l b' ⟨hb, hbt⟩ hs
    refine ⟨hb.step hs, ?_⟩
    cases l with
    | execute =>
      simp only [ProcAct.step, Option.some.injEq] at hs; subst hs
      unfold execute
      rw [if_pos (hb.present (by rw [hbt]; simp)).2.2]
      exact hbt
    | process => rw [(process_frame hs).rest]; exact hbt
    | begin ok => simp [ProcAct.step, hbt] at hs
    | spawn => simp [ProcAct.step, hbt] at hs
    | spawnFail => simp [ProcAct.step, hbt] at hs
    | attach => simp [ProcAct.step, hbt] at hs
    | procExit n code =>
      simp only [ProcAct.step] at hs
      split at hs
      · simp only [Option.some.injEq] at hs; subst hs; exact hbt
      · cases hs
    | observe => simp [ProcAct.step, hbt] at hs
    | delayOver => simp [ProcAct.step, hbt] at hs
    | timerBegin s =>
      simp only [ProcAct.step] at hs
      split at hs
      · simp only [Option.some.injEq] at hs; subst hs; rw [setTimer_eq]; exact hbt
      · cases hs
    | timerFire s =>
      simp only [ProcAct.step] at hs
      split at hs
      · split at hs
        · simp only [Option.some.injEq] at hs; subst hs; rw [setTimer_eq]; exact hbt
        · cases hs
      · cases hs
    | tick => simp only [ProcAct.step, Option.some.injEq] at hs; subst hs; exact hbt
    | ask b =>
      simp only [ProcAct.step, Option.some.injEq] at hs; subst hs
      rw [(shutdownProcess_frame _ _).rest]; exact hbt
    | setShut => simp only [ProcAct.step, Option.some.injEq] at hs; subst hs; exact hbt
    | emit e =>
      simp only [ProcAct.step] at hs
      split at hs
      · simp only [Option.some.injEq] at hs; subst hs; exact hbt
      · cases hs) ls' _ _ ⟨Ctl.reach (c := {}) (ls := [.execute, .begin false]) rfl, by decide +kernel⟩ hr
  exact pending_of this.1 (by rw [this.2]; simp) (by rw [this.2]; simp)

/-- A signal event for an action whose process could not be started raises in the event handler, which ends the launch,
although the action had completed. -/
theorem C36_handler_raises_violated : ∃ (c : ProcCfg) (ls : List ProcLabel) (a a' : ProcAct), ProcAct.Reaches c ls a ∧
    a.comp = .done ∧ a.raised = 0 ∧
    runSteps (ProcAct.step c) a [.emit (.signal .term true false), .process] = some a' ∧ a'.raised = 1 :=
  ⟨{}, [.execute, .begin true, .spawnFail], _, _, rfl, by decide +kernel, by decide +kernel, rfl, by decide +kernel⟩

end Verif
