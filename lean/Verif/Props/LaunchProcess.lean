import Verif.Props.Escalation
import Verif.Props.System
import Verif.Spec.LaunchProcess

/-! # launch_process (C107) -/

namespace Verif
open ProcAct

/-! ## Nothing is requested -/

/-- What was recorded is what was handled. -/
theorem recorded_eq {c : ProcCfg} {ls : List ProcLabel} {a : ProcAct} (h : ProcAct.Reaches c ls a) :
    a.log = a.recorded ++ a.queue.filter ProcEv.isLife := by
  obtain ⟨hd, e⟩ := C32_handled_in_order c ls a h
  unfold recorded
  have : a.log.length - (a.queue.filter ProcEv.isLife).length = hd.length := by rw [e]; simp
  rw [this, e, List.take_left]

theorem ProcAct.Closed.zero {l : List ProcEv} (h : Closed 0 l) : l = [] := by
  generalize hn : 0 = n at h
  cases h with
  | nil => rfl
  | snoc => cases hn

/-- A coroutine that failed had not started another process. -/
theorem failed_length {c : ProcCfg} {ls : List ProcLabel} {a : ProcAct} (h : ProcAct.Reaches c ls a) (hf : a.task = .failed) :
    a.procs.length = a.retries := by
  refine (runSteps_induct (R := fun b => Ctl c b ∧ (b.task = .failed → b.procs.length = b.retries)) ?_ ls _ _ ⟨Ctl.init c, fun h => by cases h⟩ h).2 hf
  rintro b l b' ⟨hb, ih⟩ hs
  refine ⟨hb.step hs, fun ht => ?_⟩
  cases l with
  | execute =>
    simp only [ProcAct.step, Option.some.injEq] at hs; subst hs
    unfold ProcAct.execute at ht ⊢
    split at ht
    · rename_i hx; rw [if_pos hx]; exact ih ht
    · rename_i hx
      rw [if_neg hx]
      simp only at ht ⊢
      split at ht
      · rename_i hy; rw [if_pos hy]; exact ih ht
      · cases ht
  | begin ok =>
    simp only [ProcAct.step] at hs
    split at hs
    · rename_i hsch
      simp only [Option.some.injEq] at hs; subst hs
      have := hb.length
      rw [hsch] at this
      exact this
    · cases hs
  | spawn =>
    simp only [ProcAct.step] at hs
    split at hs
    · simp only [Option.some.injEq] at hs; subst hs; cases ht
    · cases hs
  | spawnFail =>
    simp only [ProcAct.step] at hs
    split at hs
    · simp only [Option.some.injEq] at hs; subst hs; cases ht
    · cases hs
  | attach =>
    simp only [ProcAct.step] at hs
    split at hs
    · simp only [Option.some.injEq] at hs; subst hs; cases ht
    · cases hs
  | procExit n code =>
    simp only [ProcAct.step] at hs
    split at hs
    · simp only [Option.some.injEq] at hs; subst hs
      simpa using ih ht
    · cases hs
  | observe =>
    simp only [ProcAct.step] at hs
    split at hs
    · split at hs
      · simp only [Option.some.injEq] at hs; subst hs
        unfold ProcAct.observe at ht
        simp only at ht
        split at ht
        · simp only at ht; split at ht <;> cases ht
        · cases ht
      · cases hs
    · cases hs
  | delayOver =>
    simp only [ProcAct.step] at hs
    split at hs
    · simp only [Option.some.injEq] at hs; subst hs
      split at ht <;> cases ht
    · cases hs
  | timerBegin s =>
    simp only [ProcAct.step] at hs
    split at hs
    · simp only [Option.some.injEq] at hs; subst hs; rw [setTimer_eq] at ht ⊢; exact ih ht
    · cases hs
  | timerFire s =>
    simp only [ProcAct.step] at hs
    split at hs
    · split at hs
      · simp only [Option.some.injEq] at hs; subst hs; rw [setTimer_eq] at ht ⊢; exact ih ht
      · cases hs
    · cases hs
  | tick => simp only [ProcAct.step, Option.some.injEq] at hs; subst hs; exact ih ht
  | setShut => simp only [ProcAct.step, Option.some.injEq] at hs; subst hs; exact ih ht
  | emit e =>
    simp only [ProcAct.step] at hs
    split at hs
    · simp only [Option.some.injEq] at hs; subst hs; exact ih ht
    · cases hs
  | ask b =>
    simp only [ProcAct.step, Option.some.injEq] at hs; subst hs
    rw [(shutdownProcess_frame _ _).rest] at ht ⊢; exact ih ht
  | process => rw [(process_frame hs).rest] at ht ⊢; exact ih ht

/-- An action that does not respawn and has reported an exit is complete. -/
theorem done_of_exit {c : ProcCfg} {ls : List ProcLabel} {a : ProcAct} (h : ProcAct.Reaches c ls a) (hr : c.respawn = false) {n : Nat} {code : Int}
    (he : .exited n code ∈ a.log) : a.comp = .done := by
  have hc := Ctl.reach h
  have h0 : a.retries = 0 := by
    cases hz : a.retries with
    | zero => rfl
    | succ k =>
      have := hc.limit.1 (by omega)
      rw [hr] at this; cases this
  have hx := hc.codes n code he
  have hlt : n < a.procs.length := (List.getElem?_eq_some_iff.mp hx).1
  have hlen := hc.length
  have hlog := hc.log
  rw [hc.ended]
  cases ht : a.task with
  | ended => rfl
  | absent => rw [(hc.absent ht).2.2.2.1] at he; cases he
  | scheduled => rw [ht] at hlen; simp only at hlen; omega
  | starting => rw [ht] at hlen; simp only at hlen; omega
  | delaying => rw [ht] at hlen; simp only at hlen; omega
  | spawned m =>
    rw [ht] at hlen hlog
    simp only at hlen hlog
    obtain ⟨_, e⟩ := hlen
    rw [h0] at e; subst e
    rw [hlog.zero] at he; cases he
  | running m =>
    rw [ht] at hlen hlog
    simp only at hlen hlog
    obtain ⟨_, e⟩ := hlen
    rw [h0] at e; subst e
    obtain ⟨l, hl, e⟩ := hlog
    rw [e, hl.zero] at he
    simp at he
  | failed =>
    have := failed_length h ht
    omega

/-- **C107 A block that ends without a request leaves no process (partial: no respawning).**  When the block of `with launch_process(…)` is left and no shutdown is
requested, as the process terminated, then the action is over: its process has ended and it starts no other one. -/
theorem C107_left_alone_partial (c : ProcCfg) (ls : List ProcLabel) (a : ProcAct) (h : ProcAct.Reaches c ls a) (hr : c.respawn = false)
    (ht : a.leaveBlock = a) : a.Over c := by
  have htm : a.proxyTerminated = true := by
    unfold leaveBlock at ht
    split at ht
    · rename_i hx; exact hx
    · exfalso
      have := congrArg (fun x : ProcAct => x.queue.length) ht
      simp at this
  unfold proxyTerminated at htm
  split at htm
  · rename_i n code hl
    have hm : .exited n code ∈ a.recorded := List.mem_of_getLast? hl
    have : .exited n code ∈ a.log := by rw [recorded_eq h]; exact List.mem_append_left _ hm
    exact over_of_done h (done_of_exit h hr this)
  · cases htm

example : ∃ a, ProcAct.Reaches {} [.execute, .begin true, .spawn, .attach, .process, .procExit 0 3, .observe, .process] a ∧ a.proxyTerminated = true ∧
    a.leaveBlock = a := ⟨_, rfl, by decide +kernel, by decide +kernel⟩

/-- **C107 violated for a process that is respawned.**  The block is left while the action waits to start the process again: the latest report is an exit, no shutdown is
requested, and the process is started again and stays. -/
theorem C107_left_alone_violated : ∃ (c : ProcCfg) (ls : List ProcLabel) (a a' : ProcAct), ProcAct.Reaches c ls a ∧ a.queue = [] ∧ a.leaveBlock = a ∧
    runSteps (ProcAct.step c) a.leaveBlock [.delayOver, .begin true, .spawn, .attach, .process] = some a' ∧ a'.Settled c ∧ a'.RunsProc 1 ∧
    a'.shut = .pending ∧ a'.deferred = [] ∧ a'.signals = [] := by
  refine ⟨{ respawn := true, delayed := true }, [.execute, .begin true, .spawn, .attach, .process, .procExit 0 3, .observe, .process], _, _, rfl,
    by decide +kernel, by decide +kernel, rfl, ⟨by decide +kernel, ?_⟩, ⟨by decide +kernel, by decide +kernel⟩, by decide +kernel, by decide +kernel, by decide +kernel⟩
  intro s
  cases s <;> exact ⟨rfl, rfl⟩

/-! ## A shutdown is requested -/

/-- An event that asks the action to shut down. -/
def asks : ProcEv → Bool
  | .shutdownProcess mine => mine
  | .shutdown _ => true
  | _ => false

/-- A request waits to be handled. -/
def AskedToEnd (q : List ProcEv) : Prop := ∃ e ∈ q, asks e = true

theorem AskedToEnd.mono {q q' : List ProcEv} (hq : ∀ e ∈ q, e ∈ q') (h : AskedToEnd q) : AskedToEnd q' := by
  obtain ⟨e, h1, h2⟩ := h
  exact ⟨e, hq e h1, h2⟩

/-- A request that was not dealt with yet. -/
structure Pend (n : Nat) (b : Bool) (a : ProcAct) : Prop where
  comp : a.comp = .pending
  shut : a.shut = .pending
  quiet : b = true → a.NoCtrlC
  pos : (a.transport = none ∧ a.retries = 0 ∧ n = 0 ∧ (AskedToEnd a.queue ∨ a.deferred ≠ [])) ∨
    (a.task = .running n ∧ a.transport = some n ∧ (AskedToEnd a.queue ∨ a.deferred ≠ [] ∧ .started n ∈ a.queue))

/-- What becomes of the process. -/
def Doomed (n : Nat) (b : Bool) (a : ProcAct) : Prop :=
  a.comp = .done ∨ a.complete n = true ∨ Pend n b a ∨ Hunted n b a

theorem Pend.mono {n : Nat} {b : Bool} {a a' : ProcAct} (h : Pend n b a) (h0 : a'.comp = a.comp) (h1 : a'.transport = a.transport)
    (h2 : a'.task = a.task ∨ a.transport = none)
    (h3 : a'.shut = a.shut) (h4 : a'.retries = a.retries) (h5 : a'.deferred = a.deferred) (hq : ∀ e ∈ a.queue, e ∈ a'.queue)
    (hc : b = true → .shutdown true ∈ a'.queue → .shutdown true ∈ a.queue) : Pend n b a' := by
  refine ⟨h0.trans h.comp, h3.trans h.shut, fun hb => ⟨fun hx => (h.quiet hb).1 (hc hb hx), by rw [h5]; exact (h.quiet hb).2⟩, ?_⟩
  rcases h.pos with ⟨x1, x2, x3, x4⟩ | ⟨x1, x2, x3⟩
  · exact .inl ⟨h1.trans x1, h4.trans x2, x3, by rw [h5]; exact x4.imp_left (AskedToEnd.mono hq)⟩
  · have h2 : a'.task = a.task := by
      rcases h2 with e | e
      · exact e
      · rw [x2] at e; cases e
    exact .inr ⟨h2.trans x1, h1.trans x2, by rw [h5]; exact x3.imp (AskedToEnd.mono hq) (fun ⟨y, z⟩ => ⟨y, hq _ z⟩)⟩

theorem deferred_none (bs : List Bool) : ∀ a : ProcAct, a.shut = .pending → a.comp = .pending → a.transport = none →
    bs.foldl (fun a b => a.shutdownProcess b) a = { a with deferred := bs.reverse ++ a.deferred } := by
  induction bs with
  | nil => intro a _ _ _; rfl
  | cons b bs ih =>
    intro a h1 h2 h3
    have e : a.shutdownProcess b = { a with deferred := b :: a.deferred } := by
      unfold shutdownProcess; simp [h1, h2, h3]
    rw [List.foldl_cons, e, ih { a with deferred := b :: a.deferred } h1 h2 h3]
    simp

/-- A request while there is no process. -/
theorem Pend.ask_none {n : Nat} {b m : Bool} {a : ProcAct} (hm : b = true → m = true) (h1 : a.comp = .pending) (h2 : a.shut = .pending)
    (h3 : a.transport = none) (h4 : a.retries = 0) (hn : n = 0) (hq : b = true → a.NoCtrlC) : Pend n b (a.shutdownProcess m) := by
  have e : a.shutdownProcess m = { a with deferred := m :: a.deferred } := by
    unfold shutdownProcess; simp [h1, h2, h3]
  rw [e]
  refine ⟨h1, h2, fun hb => ⟨(hq hb).1, ?_⟩, .inl ⟨h3, h4, hn, .inr (by simp)⟩⟩
  have := hm hb
  subst this
  simpa using (hq hb).2

theorem Hunted.weaken' {n : Nat} {b m : Bool} {a : ProcAct} (hm : b = true → m = true) (h : Hunted n m a) : Hunted n b a :=
  ⟨h.transport, h.task, h.shut, fun x => h.int (hm x), h.term, h.kill⟩

theorem doomed_process {c : ProcCfg} {n : Nat} {b : Bool} {a a' : ProcAct} (h : Pend n b a) (hs : a.process c = some a') : Doomed n b a' := by
  unfold ProcAct.process at hs
  have hcp := h.comp
  have hsp := h.shut
  split at hs
  · cases hs
  · rename_i e q hq
    simp only [Option.some.injEq] at hs
    subst hs
    have hquiet : b = true → ProcAct.NoCtrlC { a with queue := q } := fun hb =>
      ⟨fun hx => (h.quiet hb).1 (by rw [hq]; exact List.mem_cons_of_mem _ hx), (h.quiet hb).2⟩
    -- an event that is neither the request nor the start of the process
    have drop : ∀ x : List ProcEv, asks e = false → (∀ m, e ≠ .started m) → .shutdown true ∉ x →
        Pend n b { a with queue := q ++ x } := by
      intro x h1 h2 h3
      have sub : ∀ ev, ev ∈ a.queue → ev ≠ e → ev ∈ q ++ x := by
        intro ev hev hne
        rw [hq] at hev
        rcases List.mem_cons.mp hev with y | y
        · exact absurd y hne
        · exact List.mem_append_left _ y
      have suba : AskedToEnd a.queue → AskedToEnd (q ++ x) := by
        rintro ⟨ev, y, z⟩
        exact ⟨ev, sub ev y (fun hne => by rw [hne, h1] at z; cases z), z⟩
      refine ⟨hcp, hsp, fun hb => ⟨fun hx => ?_, (h.quiet hb).2⟩, ?_⟩
      · rcases List.mem_append.mp hx with y | y
        · exact (hquiet hb).1 y
        · exact h3 y
      · rcases h.pos with ⟨x1, x2, x3, x4⟩ | ⟨x1, x2, x3⟩
        · exact .inl ⟨x1, x2, x3, x4.imp_left suba⟩
        · exact .inr ⟨x1, x2, x3.imp suba (fun ⟨y, z⟩ => ⟨y, sub _ z (h2 n).symm⟩)⟩
    -- a request
    have req : ∀ (x : ProcAct) (m : Bool), (b = true → m = true) → x.comp = a.comp → x.shut = a.shut → x.transport = a.transport → x.task = a.task →
        x.retries = a.retries → (b = true → x.NoCtrlC) → Doomed n b (x.shutdownProcess m) := by
      intro x m hm e1 e2 e3 e4 e5 hn
      rcases h.pos with ⟨x1, x2, x3, _⟩ | ⟨x1, x2, _⟩
      · exact .inr (.inr (.inl (Pend.ask_none hm (e1.trans hcp) (e2.trans hsp) (e3.trans x1) (e5.trans x2) x3 hn)))
      · exact .inr (.inr (.inr ((Hunted.begin m (e4.trans x1) (e3.trans x2) (e1.trans hcp) (e2.trans hsp)).weaken' hm)))
    -- the start of a process
    have start : (∃ m, e = .started m) ∨ e = .otherStarted →
        Doomed n b (a.deferred.foldl (fun a b => a.shutdownProcess b) { a with queue := q }) := by
      intro he
      have hne : asks e = false := by
        rcases he with ⟨m, e1⟩ | e1 <;> rw [e1] <;> rfl
      have rq : AskedToEnd a.queue → AskedToEnd q := by
        rintro ⟨ev, hx, hy⟩
        rw [hq] at hx
        rcases List.mem_cons.mp hx with y | y
        · rw [y, hne] at hy; cases hy
        · exact ⟨ev, y, hy⟩
      rcases h.pos with ⟨x1, x2, x3, x4⟩ | ⟨x1, x2, x3⟩
      · rw [deferred_none a.deferred { a with queue := q } hsp hcp x1]
        refine .inr (.inr (.inl ⟨hcp, hsp, fun hb => ⟨(hquiet hb).1, ?_⟩, .inl ⟨x1, x2, x3, ?_⟩⟩))
        · have := (h.quiet hb).2
          simp [this]
        · rcases x4 with y | y
          · exact .inl (rq y)
          · refine .inr ?_
            simp [y]
      · suffices hsuf : ∀ bs, a.deferred = bs → Doomed n b (bs.foldl (fun a b => a.shutdownProcess b) { a with queue := q }) from hsuf _ rfl
        intro bs hd
        cases bs with
        | nil =>
          refine .inr (.inr (.inl ⟨hcp, hsp, hquiet, .inr ⟨x1, x2, .inl ?_⟩⟩))
          rcases x3 with y | ⟨y, _⟩
          · exact rq y
          · exact absurd hd y
        | cons d ds =>
          have hb' : b = true → d = true := by
            intro hb
            have := (h.quiet hb).2
            rw [hd] at this
            cases d
            · simp at this
            · rfl
          have hh := Hunted.begin (a := { a with queue := q }) d x1 x2 hcp hsp
          rw [List.foldl_cons, deferred_shut ds _ hh.shut]
          exact .inr (.inr (.inr (hh.weaken' hb')))
    cases e with
    | shutdownProcess mine =>
      simp only
      cases mine with
      | false =>
        simp only [Bool.and_false, Bool.false_eq_true, if_false]
        have := drop [] rfl (by simp) (by simp)
        rw [List.append_nil] at this
        exact .inr (.inr (.inl this))
      | true =>
        rw [if_pos (by rw [hcp]; simp)]
        exact req { a with queue := q } true (fun _ => rfl) rfl rfl rfl rfl rfl hquiet
    | shutdown sig =>
      simp only
      rw [if_pos (by rw [hcp]; simp)]
      refine req { a with queue := q, ctxShut := true } _ (fun hb => ?_) rfl rfl rfl rfl rfl hquiet
      cases sig with
      | false => rfl
      | true => exact absurd (by rw [hq]; exact List.mem_cons_self) (h.quiet hb).1
    | started m => exact start (.inl ⟨m, rfl⟩)
    | otherStarted => exact start (.inr rfl)
    | exited m code =>
      have := drop [] rfl (by simp) (by simp)
      rw [List.append_nil] at this
      exact .inr (.inr (.inl this))
    | timer s => exact .inr (.inr (.inl (drop [.signal s true true] rfl (by simp) (by simp))))
    | signal s mine own =>
      have hd := drop [] rfl (by simp) (by simp)
      rw [List.append_nil] at hd
      simp only
      split
      · unfold onSignal
        split
        · exact .inr (.inr (.inl (hd.mono (a' := { a with queue := q, raised := a.raised + 1 }) rfl rfl (.inl rfl) rfl rfl rfl (fun _ h => h) (fun _ h => h))))
        · split
          · exact .inr (.inr (.inl hd))
          · exact .inr (.inr (.inl (hd.mono (a' := { a with queue := q, signals := a.signals ++ [_] }) rfl rfl (.inl rfl) rfl rfl rfl (fun _ h => h) (fun _ h => h))))
      · exact .inr (.inr (.inl hd))

/-- What is over stays over. -/
theorem done_step {c : ProcCfg} {a a' : ProcAct} {l : ProcLabel} (hc : Ctl c a) (hd : a.comp = .done) (hs : a.step c l = some a') : a'.comp = .done := by
  have ht := hc.ended.mp hd
  have hx : a.executed = true := (hc.present (by rw [ht]; simp)).2.2
  cases l with
  | execute =>
    simp only [ProcAct.step, Option.some.injEq] at hs; subst hs
    unfold ProcAct.execute
    rw [if_pos hx]; exact hd
  | begin ok => simp [ProcAct.step, ht] at hs
  | spawn => simp [ProcAct.step, ht] at hs
  | spawnFail => simp [ProcAct.step, ht] at hs
  | attach => simp [ProcAct.step, ht] at hs
  | observe => simp [ProcAct.step, ht] at hs
  | delayOver => simp [ProcAct.step, ht] at hs
  | procExit n code =>
    simp only [ProcAct.step] at hs
    split at hs
    · simp only [Option.some.injEq] at hs; subst hs; exact hd
    · cases hs
  | timerBegin s =>
    simp only [ProcAct.step] at hs
    split at hs
    · simp only [Option.some.injEq] at hs; subst hs; rw [setTimer_eq]; exact hd
    · cases hs
  | timerFire s =>
    simp only [ProcAct.step] at hs
    split at hs
    · split at hs
      · simp only [Option.some.injEq] at hs; subst hs; rw [setTimer_eq]; exact hd
      · cases hs
    · cases hs
  | tick => simp only [ProcAct.step, Option.some.injEq] at hs; subst hs; exact hd
  | setShut => simp only [ProcAct.step, Option.some.injEq] at hs; subst hs; exact hd
  | emit e =>
    simp only [ProcAct.step] at hs
    split at hs
    · simp only [Option.some.injEq] at hs; subst hs; exact hd
    · cases hs
  | ask b =>
    simp only [ProcAct.step, Option.some.injEq] at hs; subst hs
    rw [(shutdownProcess_frame _ _).rest]; exact hd
  | process => rw [(process_frame hs).rest]; exact hd

theorem doomed_pend {c : ProcCfg} {n : Nat} {b : Bool} {a a' : ProcAct} {l : ProcLabel} (hc : Ctl c a) (h : Pend n b a)
    (hl : b = true → NoCtrlCLabel l) (hs : a.step c l = some a') : Doomed n b a' := by
  have hx : a.executed = true := by
    refine (hc.present ?_).2.2
    intro ht
    have := h.comp
    rw [(hc.absent ht).1] at this
    cases this
  have keep : ∀ {x : ProcAct}, Pend n b x → Doomed n b x := fun h => .inr (.inr (.inl h))
  cases l with
  | execute =>
    simp only [ProcAct.step, Option.some.injEq] at hs; subst hs
    unfold ProcAct.execute
    rw [if_pos hx]
    exact keep (h.mono rfl rfl (.inl rfl) rfl rfl rfl (fun _ h => h) (fun _ h => h))
  | begin ok =>
    simp only [ProcAct.step] at hs
    split at hs
    · rename_i ht
      simp only [Option.some.injEq] at hs; subst hs
      refine keep (h.mono rfl rfl (.inr ?_) rfl rfl rfl (fun _ h => h) (fun _ h => h))
      rcases h.pos with ⟨x, _⟩ | ⟨x, _⟩
      · exact x
      · rw [ht] at x; cases x
    · cases hs
  | spawn =>
    simp only [ProcAct.step] at hs
    split at hs
    · rename_i ht
      simp only [Option.some.injEq] at hs; subst hs
      refine keep (h.mono rfl rfl (.inr ?_) rfl rfl rfl (fun _ h => h) (fun _ h => h))
      rcases h.pos with ⟨x, _⟩ | ⟨x, _⟩
      · exact x
      · rw [ht] at x; cases x
    · cases hs
  | spawnFail =>
    simp only [ProcAct.step] at hs
    split at hs
    · simp only [Option.some.injEq] at hs; subst hs; exact .inl rfl
    · cases hs
  | attach =>
    simp only [ProcAct.step] at hs
    split at hs
    · rename_i m ht
      simp only [Option.some.injEq] at hs; subst hs
      have hlen := hc.length
      rw [ht] at hlen
      simp only at hlen
      refine keep ⟨h.comp, h.shut, fun hb => ⟨?_, (h.quiet hb).2⟩, .inr ?_⟩
      · simpa using (h.quiet hb).1
      · rcases h.pos with ⟨_, x2, x3, x4⟩ | ⟨x, _⟩
        · have hm : m = n := by omega
          subst hm
          refine ⟨rfl, rfl, x4.imp (AskedToEnd.mono fun _ y => List.mem_append_left _ y) (fun y => ⟨y, List.mem_append_right _ (List.mem_singleton.mpr rfl)⟩)⟩
        · rw [ht] at x; cases x
    · cases hs
  | procExit m code =>
    simp only [ProcAct.step] at hs
    split at hs
    · simp only [Option.some.injEq] at hs; subst hs
      exact keep (h.mono rfl rfl (.inl rfl) rfl rfl rfl (fun _ h => h) (fun _ h => h))
    · cases hs
  | observe =>
    have hs0 := hs
    simp only [ProcAct.step] at hs
    split at hs
    · rename_i m ht
      split at hs
      · rename_i code hcd
        refine .inr (.inl (complete_iff.mpr ⟨code, complete_step hs0 ?_⟩))
        rcases h.pos with ⟨x, _⟩ | ⟨x, _⟩
        · rw [hc.running m ht] at x; cases x
        · rw [ht] at x; cases x; exact hcd
      · cases hs
    · cases hs
  | delayOver =>
    simp only [ProcAct.step] at hs
    split at hs
    · rename_i ht
      simp only [Option.some.injEq] at hs; subst hs
      split
      · exact .inl rfl
      · refine keep (h.mono rfl rfl (.inr ?_) rfl rfl rfl (fun _ h => h) (fun _ h => h))
        rcases h.pos with ⟨x, _⟩ | ⟨x, _⟩
        · exact x
        · rw [ht] at x; cases x
    · cases hs
  | timerBegin s =>
    simp only [ProcAct.step] at hs
    split at hs
    · simp only [Option.some.injEq] at hs; subst hs
      rw [setTimer_eq]
      exact keep (h.mono rfl rfl (.inl rfl) rfl rfl rfl (fun _ h => h) (fun _ h => h))
    · cases hs
  | timerFire s =>
    simp only [ProcAct.step] at hs
    split at hs
    · split at hs
      · simp only [Option.some.injEq] at hs; subst hs
        rw [setTimer_eq]
        exact keep (h.mono rfl rfl (.inl rfl) rfl rfl rfl (fun _ h => List.mem_append_left _ h) (fun _ h => by simpa using h))
      · cases hs
    · cases hs
  | tick =>
    simp only [ProcAct.step, Option.some.injEq] at hs; subst hs
    exact keep (h.mono rfl rfl (.inl rfl) rfl rfl rfl (fun _ h => h) (fun _ h => h))
  | setShut =>
    simp only [ProcAct.step, Option.some.injEq] at hs; subst hs
    exact keep (h.mono rfl rfl (.inl rfl) rfl rfl rfl (fun _ h => h) (fun _ h => h))
  | emit e =>
    simp only [ProcAct.step] at hs
    split at hs
    · simp only [Option.some.injEq] at hs; subst hs
      refine keep (h.mono rfl rfl (.inl rfl) rfl rfl rfl (fun _ h => List.mem_append_left _ h) (fun hb hm => ?_))
      rcases List.mem_append.mp hm with y | y
      · exact y
      · have := List.mem_singleton.mp y
        subst this
        exact absurd rfl (hl hb).1
    · cases hs
  | ask m =>
    simp only [ProcAct.step, Option.some.injEq] at hs; subst hs
    have hm : b = true → m = true := by
      intro hb
      cases m with
      | true => rfl
      | false => exact absurd rfl (hl hb).2
    rcases h.pos with ⟨x1, x2, x3, _⟩ | ⟨x1, x2, _⟩
    · exact keep (Pend.ask_none hm h.comp h.shut x1 x2 x3 h.quiet)
    · exact .inr (.inr (.inr ((Hunted.begin m x1 x2 h.comp h.shut).weaken' hm)))
  | process => exact doomed_process h hs

theorem doomed_run {c : ProcCfg} {n : Nat} {b : Bool} {ls : List ProcLabel} {a a' : ProcAct} (hc : Ctl c a) (h : Doomed n b a)
    (hl : ∀ l ∈ ls, b = true → NoCtrlCLabel l) (hr : runSteps (ProcAct.step c) a ls = some a') : Doomed n b a' := by
  refine (runSteps_induct' (R := fun x => Ctl c x ∧ Doomed n b x) (C := fun l => b = true → NoCtrlCLabel l) ?_ ls _ _ hl ⟨hc, h⟩ hr).2
  rintro x l y hll ⟨hx, hd⟩ hs
  refine ⟨hx.step hs, ?_⟩
  rcases hd with h | h | h | h
  · exact .inl (done_step hx h hs)
  · obtain ⟨code, e⟩ := complete_iff.mp h
    exact .inr (.inl (complete_iff.mpr ⟨code, complete_step hs e⟩))
  · exact doomed_pend hx h hll hs
  · have hlt : n < x.procs.length := (hx.transport n h.transport).1
    have hlt1 : n < y.procs.length := by
      rcases step_procs hs with e | ⟨_, _, e⟩ | ⟨m, code, _, e⟩ <;> rw [e]
      · exact hlt
      · simp; omega
      · simpa using hlt
    have hv : y.procs[n]? = some (y.procs[n]) := List.getElem?_eq_getElem hlt1
    cases hw : y.procs[n] with
    | some code => rw [hw] at hv; exact .inr (.inl (complete_iff.mpr ⟨code, hv⟩))
    | none =>
      rw [hw] at hv
      have hv0 : x.procs[n]? = some (x.procs[n]) := List.getElem?_eq_getElem hlt
      cases hw0 : x.procs[n] with
      | none => rw [hw0] at hv0; exact .inr (.inr (.inr (h.step hx hv0 hs hv)))
      | some code =>
        rw [hw0] at hv0
        rw [complete_step hs hv0] at hv; cases hv

/-- Before the first process there was no restart. -/
theorem retries_none {c : ProcCfg} {ls : List ProcLabel} {a : ProcAct} (h : ProcAct.Reaches c ls a) (ht : a.transport = none) : a.retries = 0 := by
  refine (runSteps_induct (R := fun b => Ctl c b ∧ (b.transport = none → b.retries = 0)) ?_ ls _ _ ⟨Ctl.init c, fun _ => rfl⟩ h).2 ht
  rintro b l b' ⟨hb, ih⟩ hs
  refine ⟨hb.step hs, fun ht => ?_⟩
  cases l with
  | execute =>
    simp only [ProcAct.step, Option.some.injEq] at hs; subst hs
    unfold ProcAct.execute at ht ⊢
    split
    · rename_i hx; rw [if_pos hx] at ht; exact ih ht
    · rename_i hx
      rw [if_neg hx] at ht
      simp only at ht ⊢
      split
      · rename_i hy; rw [if_pos hy] at ht; exact ih ht
      · rename_i hy; rw [if_neg hy] at ht; exact ih ht
  | begin ok =>
    simp only [ProcAct.step] at hs
    split at hs
    · simp only [Option.some.injEq] at hs; subst hs; exact ih ht
    · cases hs
  | spawn =>
    simp only [ProcAct.step] at hs
    split at hs
    · simp only [Option.some.injEq] at hs; subst hs; exact ih ht
    · cases hs
  | spawnFail =>
    simp only [ProcAct.step] at hs
    split at hs
    · simp only [Option.some.injEq] at hs; subst hs; exact ih ht
    · cases hs
  | attach =>
    simp only [ProcAct.step] at hs
    split at hs
    · simp only [Option.some.injEq] at hs; subst hs; cases ht
    · cases hs
  | procExit n code =>
    simp only [ProcAct.step] at hs
    split at hs
    · simp only [Option.some.injEq] at hs; subst hs; exact ih ht
    · cases hs
  | observe =>
    simp only [ProcAct.step] at hs
    split at hs
    · rename_i m htk
      have hm := hb.running m htk
      split at hs
      · simp only [Option.some.injEq] at hs; subst hs
        unfold ProcAct.observe at ht
        simp only at ht
        split at ht
        · simp only [hm] at ht; cases ht
        · simp only [ProcAct.cleanup, hm] at ht; cases ht
      · cases hs
    · cases hs
  | delayOver =>
    simp only [ProcAct.step] at hs
    split at hs
    · simp only [Option.some.injEq] at hs; subst hs
      split
      · rename_i hx; rw [if_pos hx] at ht; exact ih ht
      · rename_i hx; rw [if_neg hx] at ht; exact ih ht
    · cases hs
  | timerBegin s =>
    simp only [ProcAct.step] at hs
    split at hs
    · simp only [Option.some.injEq] at hs; subst hs; rw [setTimer_eq] at ht ⊢; exact ih ht
    · cases hs
  | timerFire s =>
    simp only [ProcAct.step] at hs
    split at hs
    · split at hs
      · simp only [Option.some.injEq] at hs; subst hs; rw [setTimer_eq] at ht ⊢; exact ih ht
      · cases hs
    · cases hs
  | tick => simp only [ProcAct.step, Option.some.injEq] at hs; subst hs; exact ih ht
  | setShut => simp only [ProcAct.step, Option.some.injEq] at hs; subst hs; exact ih ht
  | emit e =>
    simp only [ProcAct.step] at hs
    split at hs
    · simp only [Option.some.injEq] at hs; subst hs; exact ih ht
    · cases hs
  | ask b =>
    simp only [ProcAct.step, Option.some.injEq] at hs; subst hs
    rw [(shutdownProcess_frame _ _).rest] at ht ⊢; exact ih ht
  | process => rw [(process_frame hs).rest] at ht ⊢; exact ih ht

/-- The state after leaving the block is a state of the action. -/
theorem leaveBlock_reaches {c : ProcCfg} {ls : List ProcLabel} {a : ProcAct} (h : ProcAct.Reaches c ls a) : ∃ ls', ProcAct.Reaches c ls' a.leaveBlock := by
  unfold leaveBlock
  split
  · exact ⟨ls, h⟩
  · refine ⟨ls ++ [.emit (.shutdownProcess true)], ?_⟩
    unfold ProcAct.Reaches at h ⊢
    rw [runSteps_append, h]
    rfl

/-- When everything that is due was done, the process was signalled or is gone. -/
theorem pend_reached {c : ProcCfg} {ls : List ProcLabel} {a : ProcAct} {n : Nat} {b : Bool} (h : ProcAct.Reaches c ls a) (hpend : Pend n b a)
    {ls' : List ProcLabel} {a' : ProcAct} (hl : ∀ l ∈ ls', b = true → NoCtrlCLabel l) (hr : runSteps (ProcAct.step c) a ls' = some a')
    (hset : a'.queue = []) (hn' : a'.RunsProc n) : Hunted n b a' := by
  have hd := doomed_run (Ctl.reach h) (.inr (.inr (.inl hpend))) hl hr
  have hc' := (Ctl.reach h).run hr
  obtain ⟨ht', hn'⟩ := hn'
  rcases hd with x | x | x | x
  · have := hc'.ended.mp x
    rw [ht'] at this; cases this
  · obtain ⟨code, hx⟩ := complete_iff.mp x
    rw [hn'] at hx; cases hx
  · rcases x.pos with ⟨y, _⟩ | ⟨_, _, y | ⟨_, y⟩⟩
    · rw [hc'.running n ht'] at y; cases y
    · obtain ⟨ev, z, _⟩ := y
      rw [hset] at z; cases z
    · rw [hset] at y; cases y
  · exact x

/-- Common part of the two theorems below. -/
theorem shut_down {c : ProcCfg} {ls : List ProcLabel} {a : ProcAct} {n : Nat} {b : Bool} (h : ProcAct.Reaches c ls a) (ht : a.proxyTerminated = false)
    (hp : a.comp = .pending) (hsh : a.shut = .pending) (hn : a.transport = none ∧ n = 0 ∨ a.RunsProc n) (hq : b = true → a.NoCtrlC)
    {ls' : List ProcLabel} {a' : ProcAct} (hl : ∀ l ∈ ls', b = true → NoCtrlCLabel l) (hr : runSteps (ProcAct.step c) a.leaveBlock ls' = some a')
    (hset : a'.Settled c) (hn' : a'.RunsProc n) : Hunted n b a' := by
  obtain ⟨ls1, h1⟩ := leaveBlock_reaches h
  have hc := Ctl.reach h
  have e : a.leaveBlock = { a with queue := a.queue ++ [.shutdownProcess true] } := by unfold leaveBlock; simp [ht]
  have hpend : Pend n b a.leaveBlock := by
    rw [e]
    refine ⟨hp, hsh, fun hb => ⟨by simpa using (hq hb).1, (hq hb).2⟩, ?_⟩
    rcases hn with ⟨x, y⟩ | ⟨x, _⟩
    · exact .inl ⟨x, (retries_none h x : a.retries = 0), y, .inl ⟨_, List.mem_append_right _ (List.mem_singleton.mpr rfl), rfl⟩⟩
    · exact .inr ⟨x, hc.running n x, .inl ⟨_, List.mem_append_right _ (List.mem_singleton.mpr rfl), rfl⟩⟩
  exact pend_reached h1 hpend hl hr hset.1 hn'

/-- **C107 The process is shut down when the block is left.**  The action was executed, its first process is not started yet or a process of it runs, and nobody has
begun to shut it down; the latest report is not an exit.  The block is left.  Then in every later state in which everything that is due was done, the
process, if it is the one that ran or was about to be started and still runs, has been sent SIGTERM, or the timer for it is still to fire, and the same for SIGKILL. -/
theorem C107_shut_down (c : ProcCfg) (ls : List ProcLabel) (a : ProcAct) (n : Nat) (h : ProcAct.Reaches c ls a) (ht : a.proxyTerminated = false)
    (hp : a.comp = .pending) (hsh : a.shut = .pending) (hn : a.transport = none ∧ n = 0 ∨ a.RunsProc n)
    (ls' : List ProcLabel) (a' : ProcAct) (hr : runSteps (ProcAct.step c) a.leaveBlock ls' = some a') (hset : a'.Settled c) (hn' : a'.RunsProc n) :
    (a'.Sent n .term ∨ a'.Awaits .term) ∧ (a'.Sent n .kill ∨ a'.Awaits .kill) := by
  have := shut_down (b := false) h ht hp hsh hn (fun h => by cases h) (fun _ _ h => by cases h) hr hset hn'
  exact ⟨settled_esc this.term hset, settled_esc this.kill hset⟩

/-- **C107 … with SIGINT first**, unless Ctrl-C was pressed (then the terminal has sent it). -/
theorem C107_interrupted (c : ProcCfg) (ls : List ProcLabel) (a : ProcAct) (n : Nat) (h : ProcAct.Reaches c ls a) (ht : a.proxyTerminated = false)
    (hp : a.comp = .pending) (hsh : a.shut = .pending) (hn : a.transport = none ∧ n = 0 ∨ a.RunsProc n) (hq : a.NoCtrlC)
    (ls' : List ProcLabel) (a' : ProcAct) (hl : ∀ l ∈ ls', NoCtrlCLabel l) (hr : runSteps (ProcAct.step c) a.leaveBlock ls' = some a')
    (hset : a'.Settled c) (hn' : a'.RunsProc n) : a'.Sent n .int := by
  have := shut_down (b := true) h ht hp hsh hn (fun _ => hq) (fun l hx _ => hl l hx) hr hset hn'
  rcases this.int rfl with x | x
  · rw [hset.1] at x; cases x
  · exact x

/-- The block is left before the process is started, and the process ignores all signals. -/
def leftEarly : List ProcLabel :=
  [.process, .begin true, .spawn, .attach, .process, .process, .timerBegin .term, .timerBegin .kill, .tick, .timerFire .term, .process, .process]

example : ∃ a a', ProcAct.Reaches { sigtermTimeout := 1, sigkillTimeout := 1 } [.execute] a ∧ a.proxyTerminated = false ∧ a.comp = .pending ∧ a.shut = .pending ∧
    a.transport = none ∧ a.NoCtrlC ∧ (∀ l ∈ leftEarly, NoCtrlCLabel l) ∧
    runSteps (ProcAct.step { sigtermTimeout := 1, sigkillTimeout := 1 }) a.leaveBlock leftEarly = some a' ∧ a'.RunsProc 0 ∧
    a'.signals = [⟨.int, 0, 0, true⟩, ⟨.term, 0, 1, true⟩] ∧ a'.sigkill = .waiting 2 ∧ a'.queue = [] := by
  refine ⟨_, _, rfl, by decide +kernel, by decide +kernel, by decide +kernel, by decide +kernel, ⟨by decide +kernel, by decide +kernel⟩, ?_, rfl,
    ⟨by decide +kernel, by decide +kernel⟩, by decide +kernel, by decide +kernel, by decide +kernel⟩
  intro l hl
  simp only [leftEarly, List.mem_cons, List.not_mem_nil, or_false] at hl
  rcases hl with rfl | rfl | rfl | rfl | rfl | rfl | rfl | rfl | rfl | rfl | rfl | rfl <;> exact ⟨by simp, by simp⟩

/-! ## What the proxy says -/

theorem ProcAct.Closed.paired {n : Nat} {l : List ProcEv} (h : Closed n l) :
    (∀ m, .started m ∈ l → ∃ code, .exited m code ∈ l) ∧ (∀ m code, .exited m code ∈ l → m < n) ∧ (∀ m, l.getLast? ≠ some (.started m)) := by
  induction h with
  | nil => simp
  | snoc n l code _ ih =>
    obtain ⟨h1, h2, h3⟩ := ih
    refine ⟨fun m hm => ?_, fun m co hm => ?_, fun m => by simp⟩
    · simp only [List.mem_append, List.mem_cons, ProcEv.started.injEq, reduceCtorEq, List.not_mem_nil, or_false] at hm ⊢
      rcases hm with hm | hm
      · obtain ⟨co, hc⟩ := h1 m hm
        exact ⟨co, .inl hc⟩
      · exact ⟨code, .inr (.inr (by rw [hm]))⟩
    · simp only [List.mem_append, List.mem_cons, reduceCtorEq, false_or, ProcEv.exited.injEq, List.not_mem_nil, or_false] at hm
      rcases hm with hm | hm
      · have := h2 m co hm; omega
      · omega

theorem log_open {c : ProcCfg} {ls : List ProcLabel} {a : ProcAct} (h : ProcAct.Reaches c ls a) :
    (∃ n, Closed n a.log) ∨ ∃ n l, Closed n l ∧ a.log = l ++ [.started n] := by
  have hc : Ctl c a := runSteps_induct (R := Ctl c) (fun _ _ _ hb hs => hb.step hs) ls _ _ (Ctl.init c) h
  have := hc.log
  cases ht : a.task with
  | running n => rw [ht] at this; obtain ⟨l, h1, h2⟩ := this; exact .inr ⟨n, l, h1, h2⟩
  | spawned n => rw [ht] at this; exact .inl ⟨_, this⟩
  | absent => rw [ht] at this; exact .inl ⟨_, this⟩
  | scheduled => rw [ht] at this; exact .inl ⟨_, this⟩
  | starting => rw [ht] at this; exact .inl ⟨_, this⟩
  | delaying => rw [ht] at this; exact .inl ⟨_, this⟩
  | ended => rw [ht] at this; exact .inl ⟨_, this⟩
  | failed => rw [ht] at this; exact .inl ⟨_, this⟩

/-- **C107 What the proxy says.**  Once the reports emitted so far were handled, `proxy.running` is true exactly if a process was reported as started and not as exited, and
`proxy.terminated` exactly if some process was started and all were reported as exited. -/
theorem C107_proxy (c : ProcCfg) (ls : List ProcLabel) (a : ProcAct) (h : ProcAct.Reaches c ls a) (hq : a.queue.filter ProcEv.isLife = []) :
    (a.proxyRunning = true ↔ ∃ n, .started n ∈ a.log ∧ ∀ code, .exited n code ∉ a.log) ∧
    (a.proxyTerminated = true ↔ (∃ n, .started n ∈ a.log) ∧ ∀ n, .started n ∈ a.log → ∃ code, .exited n code ∈ a.log) := by
  have hr : a.recorded = a.log := by have := recorded_eq h; rw [hq, List.append_nil] at this; exact this.symm
  unfold ProcAct.proxyRunning ProcAct.proxyTerminated
  rw [hr]
  rcases log_open h with ⟨n, hcl⟩ | ⟨n, l, hcl, hl⟩
  · obtain ⟨h1, h2, h3⟩ := hcl.paired
    constructor
    · constructor
      · intro hx
        split at hx
        next m hm => exact absurd hm (h3 m)
        next => cases hx
      · rintro ⟨m, hm, hn⟩
        obtain ⟨co, hc⟩ := h1 m hm
        exact absurd hc (hn co)
    · refine ⟨fun hx => ⟨?_, h1⟩, ?_⟩
      · generalize a.log = l at *
        cases hcl with
        | nil => cases hx
        | snoc n l code _ => exact ⟨n, by simp⟩
      · rintro ⟨⟨m, hm⟩, _⟩
        generalize a.log = l at *
        cases hcl with
        | nil => cases hm
        | snoc n l code _ => simp
  · obtain ⟨h1, h2, h3⟩ := hcl.paired
    have hno : ∀ code, ProcEv.exited n code ∉ a.log := by
      intro co hm
      rw [hl] at hm
      simp only [List.mem_append, List.mem_cons, reduceCtorEq, List.not_mem_nil, or_false] at hm
      have := h2 n co hm
      omega
    have hin : ProcEv.started n ∈ a.log := by rw [hl]; simp
    constructor
    · exact ⟨fun _ => ⟨n, hin, hno⟩, fun _ => by rw [hl]; simp⟩
    · constructor
      · intro hx; rw [hl] at hx; simp at hx
      · rintro ⟨_, hall⟩
        obtain ⟨co, hc⟩ := hall n hin
        exact absurd hc (hno co)

example : ∃ a, ProcAct.Reaches {} [.execute, .begin true, .spawn, .attach, .process] a ∧ a.queue.filter ProcEv.isLife = [] ∧ a.proxyRunning = true ∧
    a.proxyTerminated = false := ⟨_, rfl, by decide +kernel, by decide +kernel, by decide +kernel⟩

end Verif
