import Verif.Lemmas.JointSim
import Verif.Props.LaunchProcess
import Verif.Props.System

/-!
# C108: a requested shutdown reaches every process of the launch

The service and the process actions have one queue of events (Model/Joint.lean).  Each process action then behaves as the model of a single action
(Model/ExecuteLocal.lean) says (`joint_reach`, Lemmas/JointSim.lean), so what was proved about that holds here.
-/

namespace Verif

/-! ## Event objects for the examples -/

/-- `2 ^ a * (2 * b + 1)` -/
def pairNat (a b : Nat) : Nat := 2 ^ a * (2 * b + 1)

/-- The inverse. -/
def unpairNat : Nat → Nat → Nat × Nat
  | 0, t => (0, t / 2)
  | fuel + 1, t => if t % 2 = 0 then ((unpairNat fuel (t / 2)).1 + 1, (unpairNat fuel (t / 2)).2) else (0, t / 2)

theorem unpairNat_pair (a b : Nat) : ∀ fuel, a ≤ fuel → unpairNat fuel (pairNat a b) = (a, b) := by
  induction a with
  | zero =>
    intro fuel _
    have h : (2 * b + 1) / 2 = b := by omega
    cases fuel <;> simp [unpairNat, pairNat, h]
  | succ a ih =>
    intro fuel hf
    obtain ⟨fuel, rfl⟩ : ∃ k, fuel = k + 1 := ⟨fuel - 1, by omega⟩
    have h1 : pairNat (a + 1) b = 2 * pairNat a b := by simp only [pairNat, Nat.pow_succ]; rw [Nat.mul_comm (2 ^ a) 2, Nat.mul_assoc]
    have h2 : pairNat (a + 1) b % 2 = 0 := by omega
    have h3 : pairNat (a + 1) b / 2 = pairNat a b := by omega
    simp [unpairNat, h2, h3, ih fuel (by omega)]

theorem le_pairNat (a b : Nat) : a ≤ pairNat a b := by
  have h1 : a < 2 ^ a := Nat.lt_two_pow_self
  have h2 : 2 ^ a * 1 ≤ 2 ^ a * (2 * b + 1) := Nat.mul_le_mul_left _ (by omega)
  unfold pairNat
  omega

/-- The pair that a number stands for. -/
def unpairOf (t : Nat) : Nat × Nat := unpairNat t t

theorem unpairOf_pair (a b : Nat) : unpairOf (pairNat a b) = (a, b) := unpairNat_pair a b _ (le_pairNat a b)

def sigCode : Sig → Nat
  | .int => 0
  | .term => 1
  | .kill => 2
  | .user n => n + 3

/-- A number for each event that a process action emits itself. -/
def evCode : ProcEv → Nat
  | .started n => pairNat 0 n
  | .exited n (.ofNat c) => pairNat 1 (pairNat n c)
  | .exited n (.negSucc c) => pairNat 2 (pairNat n c)
  | .timer s => pairNat 3 (sigCode s)
  | .signal s true _ => pairNat 4 (sigCode s)
  | .signal s false _ => pairNat 5 (sigCode s)
  | _ => 0

def sigOf : Nat → Sig
  | 0 => .int
  | 1 => .term
  | 2 => .kill
  | n + 3 => .user n

theorem sigOf_code (s : Sig) : sigOf (sigCode s) = s := by cases s <;> rfl

/-- The event of a number. -/
def evOf (t : Nat) : ProcEv :=
  match unpairOf t with
  | (0, n) => .started n
  | (1, x) => .exited (unpairOf x).1 (.ofNat (unpairOf x).2)
  | (2, x) => .exited (unpairOf x).1 (.negSucc (unpairOf x).2)
  | (3, x) => .timer (sigOf x)
  | (4, x) => .signal (sigOf x) true true
  | (_, x) => .signal (sigOf x) false true

theorem evOf_code (e : ProcEv) (h : ProcAct.foreign e = false) : evOf (evCode e) = e := by
  cases e with
  | exited n c => cases c <;> simp [evOf, evCode, unpairOf_pair]
  | signal s m o => cases m <;> cases o <;> simp_all [evOf, evCode, unpairOf_pair, sigOf_code, ProcAct.foreign]
  | timer s => simp [evOf, evCode, unpairOf_pair, sigOf_code]
  | started n => simp [evOf, evCode, unpairOf_pair]
  | _ => simp [ProcAct.foreign] at h

/-- Event objects. -/
def sampleCodes : Codes where
  enc i e := .user (pairNat i (evCode e))
  see j
    | .shutdown _ sig => some (.shutdown sig)
    | .user t =>
      let i := (unpairOf t).1
      let e := evOf (unpairOf t).2
      if pairNat i (evCode e) = t ∧ ProcAct.foreign e = false then
        if i = j then some e else match e with | .started _ => some .otherStarted | _ => none
      else none
    | _ => none

/-- They are as they should be. -/
theorem sampleCodes_lawful : sampleCodes.Lawful where
  shutdown _ _ _ := rfl
  onlyShutdown i ev sig h := by
    cases ev with
    | shutdown r s => simp only [sampleCodes, Option.some.injEq, ProcEv.shutdown.injEq] at h; exact ⟨r, by rw [h]⟩
    | user t =>
      simp only [sampleCodes] at h
      split at h
      · rename_i hh
        split at h
        · simp only [Option.some.injEq] at h
          rw [h] at hh
          simp [ProcAct.foreign] at hh
        · split at h <;> simp at h
      · cases h
    | _ => cases h
  own i e h := by simp [sampleCodes, unpairOf_pair, evOf_code e h, h]
  onlyOwn i ev e h hf := by
    cases ev with
    | shutdown r s => simp only [sampleCodes, Option.some.injEq] at h; subst h; simp [ProcAct.foreign] at hf
    | user t =>
      simp only [sampleCodes] at h
      split at h
      · rename_i hh
        split at h
        · rename_i hi
          simp only [Option.some.injEq] at h
          rw [h, hi] at hh
          simp only [sampleCodes, hh.1]
        · split at h <;> simp at h
          subst h; simp [ProcAct.foreign] at hf
      · cases h
    | _ => cases h
  start i j n hj := by simp [sampleCodes, unpairOf_pair, evOf_code (.started n) rfl, ProcAct.foreign, Ne.symm hj]
  others i j e hj hf he := by
    simp only [sampleCodes, unpairOf_pair, evOf_code e hf, hf, and_self, if_true, if_neg (Ne.symm hj)]

/-! ## A shutdown is requested -/

theorem runSteps_mem {S L : Type} {step : S → L → Option S} {l : L} : ∀ {ls : List L} {s s' : S}, runSteps step s ls = some s' → l ∈ ls →
    ∃ s1 s2, step s1 l = some s2
  | [], _, _, _, hm => by cases hm
  | x :: xs, s, s', h, hm => by
    simp only [runSteps] at h
    cases hs : step s x with
    | none => rw [hs] at h; cases h
    | some s1 =>
      rw [hs] at h
      rcases List.mem_cons.mp hm with rfl | z
      · exact ⟨s, s1, hs⟩
      · exact runSteps_mem h z

/-- The process action is still to be signalled. -/
theorem joint_pend {P : Prog} {O : Oracle} {env : Dict String} {ids : List Nat} {cfg : Nat → ProcCfg} {K : Codes} (hK : K.Lawful) {ls : List JointLabel}
    {y : Sys} (h : Sys.ReachesJoint P O env ids cfg K ls y) {i : Nat} (hi : i ∈ ids) {r : String} {sig : Bool} (hr : .shutdown r sig ∈ y.svc.ctx.queue)
    {n : Nat} (hp : (y.act i).comp = .pending) (hsh : (y.act i).shut = .pending) (hn : (y.act i).transport = none ∧ n = 0 ∨ (y.act i).RunsProc n)
    {b : Bool} (hb : b = true → (y.view K i).NoCtrlC) {ls' : List JointLabel} {y' : Sys}
    (hl : b = true → (∀ r, .shutdown r true ∉ y'.svc.ctx.emitted.drop y.svc.ctx.emitted.length) ∧ .proc i (.ask false) ∉ ls')
    (hrun : runSteps (Sys.stepJoint P O ids cfg K) y ls' = some y') (hf : y'.failed = false) (hset : y'.SettledFor cfg i) (hn' : (y'.act i).RunsProc n) :
    Hunted n b (y'.act i) ∧ (y'.act i).Settled (cfg i) := by
  obtain ⟨hq, hreach⟩ := joint_reach hK h
  have hf0 : y.failed = false := by
    cases hh : y.failed
    · rfl
    · have : y'.failed = true := runSteps_induct (R := fun y : Sys => y.failed = true) (step := Sys.stepJoint P O ids cfg K)
        (fun s l s' a b => by
          cases hh : s'.failed
          · rw [joint_failed b hh] at a; cases a
          · rfl) ls' y y' hh hrun
      rw [hf] at this; cases this
  obtain ⟨ls0, h0⟩ := hreach hf0 i hi
  have hx : (y.act i).executed = true := by
    cases hh : (y.act i).executed
    · have := congrArg ProcAct.comp (ProcAct.unexecuted_reach h0 hh).eq
      simp only [Sys.view] at this
      rw [hp] at this; cases this
    · rfl
  obtain ⟨new, ls1, e1, e2, e3⟩ := joint_run hK hi hq hx hrun hf
  have hview : y'.view K i = y'.act i := by
    have hq' : (y'.act i).queue = [] := runSteps_induct (R := fun y : Sys => ∀ i, (y.act i).queue = []) (step := Sys.stepJoint P O ids cfg K)
      (fun s l s' a b => joint_queue a b) ls' y y' hq hrun i
    simp only [Sys.view, hset.1, List.filterMap_nil]
    rw [← hq']
  rw [hview] at e2
  have hs : (y'.act i).Settled (cfg i) := ⟨by rw [← hview]; simp [Sys.view, hset.1], hset.2⟩
  refine ⟨pend_reached h0 (b := b) ?_ ?_ e2 hs.1 hn', hs⟩
  · refine ⟨hp, hsh, hb, ?_⟩
    have ha : AskedToEnd (y.view K i).queue := ⟨.shutdown sig, List.mem_filterMap.mpr ⟨_, hr, hK.shutdown i r sig⟩, rfl⟩
    rcases hn with ⟨x, z⟩ | x
    · exact .inl ⟨x, retries_none h0 x, z, .inl ha⟩
    · exact .inr ⟨x.1, (ProcAct.Ctl.reach h0).running n x.1, .inl ha⟩
  · intro l' hl' hb'
    obtain ⟨k1, k2⟩ := hl hb'
    rw [e1] at k1
    simp only [List.drop_left] at k1
    rcases e3 l' hl' with rfl | rfl | ⟨ev, w1, e, w2, rfl⟩ | w
    · exact ⟨by simp, by simp⟩
    · exact ⟨by simp, by simp⟩
    · refine ⟨fun hc => ?_, by simp⟩
      simp only [ProcLabel.emit.injEq] at hc
      subst hc
      obtain ⟨r', rfl⟩ := hK.onlyShutdown i ev true w2
      exact k1 r' w1
    · refine ⟨fun hc => ?_, fun hc => k2 (by rw [← hc]; exact w)⟩
      subst hc
      -- an action does not emit the events of others
      obtain ⟨s1, s2, hsx⟩ := runSteps_mem hrun w
      simp [Sys.stepJoint] at hsx

/-- **C108 A requested shutdown reaches every process.**  A Shutdown event waits to be handled; the process action was executed, its first process is not started yet
or a process of it runs, and its shutdown has not begun.  Then in every later state in which everything that is due was done, and if no handler has raised an
exception, that process, if it still runs, has been sent SIGTERM, or the timer for it is still to fire, and the same for SIGKILL. -/
theorem C108_shutdown_reaches_partial (P : Prog) (O : Oracle) (env : Dict String) (ids : List Nat) (cfg : Nat → ProcCfg) (K : Codes) (hK : K.Lawful)
    (ls : List JointLabel) (y : Sys) (h : Sys.ReachesJoint P O env ids cfg K ls y) (r : String) (sig : Bool) (hr : .shutdown r sig ∈ y.svc.ctx.queue)
    (i : Nat) (hi : i ∈ ids) (n : Nat) (hp : (y.act i).comp = .pending) (hsh : (y.act i).shut = .pending)
    (hn : (y.act i).transport = none ∧ n = 0 ∨ (y.act i).RunsProc n) (ls' : List JointLabel) (y' : Sys)
    (hrun : runSteps (Sys.stepJoint P O ids cfg K) y ls' = some y') (hf : y'.failed = false) (hset : y'.SettledFor cfg i) (hn' : (y'.act i).RunsProc n) :
    ((y'.act i).Sent n .term ∨ (y'.act i).Awaits .term) ∧ ((y'.act i).Sent n .kill ∨ (y'.act i).Awaits .kill) := by
  obtain ⟨h1, h2⟩ := joint_pend hK h hi hr hp hsh hn (b := false) (by simp) (by simp) hrun hf hset hn'
  exact ⟨settled_esc h1.term h2, settled_esc h1.kill h2⟩

/-- **C108 … with SIGINT first**, unless Ctrl-C is pressed (then the terminal sends it). -/
theorem C108_interrupted_partial (P : Prog) (O : Oracle) (env : Dict String) (ids : List Nat) (cfg : Nat → ProcCfg) (K : Codes) (hK : K.Lawful)
    (ls : List JointLabel) (y : Sys) (h : Sys.ReachesJoint P O env ids cfg K ls y) (r : String) (sig : Bool) (hr : .shutdown r sig ∈ y.svc.ctx.queue)
    (i : Nat) (hi : i ∈ ids) (n : Nat) (hp : (y.act i).comp = .pending) (hsh : (y.act i).shut = .pending)
    (hn : (y.act i).transport = none ∧ n = 0 ∨ (y.act i).RunsProc n) (hq : ∀ r, .shutdown r true ∉ y.svc.ctx.queue) (hd : false ∉ (y.act i).deferred)
    (ls' : List JointLabel) (y' : Sys) (hrun : runSteps (Sys.stepJoint P O ids cfg K) y ls' = some y') (hf : y'.failed = false)
    (hl : .proc i (.ask false) ∉ ls') (he : ∀ r, .shutdown r true ∉ y'.svc.ctx.emitted.drop y.svc.ctx.emitted.length)
    (hset : y'.SettledFor cfg i) (hn' : (y'.act i).RunsProc n) : (y'.act i).Sent n .int := by
  have hc : (y.view K i).NoCtrlC := by
    refine ⟨fun hm => ?_, hd⟩
    obtain ⟨ev, m1, m2⟩ := List.mem_filterMap.mp hm
    obtain ⟨r', rfl⟩ := hK.onlyShutdown i ev true m2
    exact hq r' m1
  obtain ⟨h1, h2⟩ := joint_pend hK h hi hr hp hsh hn (b := true) (fun _ => hc) (fun _ => ⟨he, hl⟩) hrun hf hset hn'
  rcases h1.int rfl with x | x
  · rw [h2.1] at x; cases x
  · exact x

/-- The first Ctrl-C, and the first call of `shutdown`, put the event into the queue and leave the process actions as they are. -/
theorem requested {P : Prog} {O : Oracle} {ids : List Nat} {cfg : Nat → ProcCfg} {K : Codes} {y y1 : Sys} {l : Label}
    (hl : l = .sigint ∧ y.svc.sigint = false ∨ l = .shutdownSync ∧ y.svc.loop = true) (hsh : y.svc.shutting = false)
    (hs : y.stepJoint P O ids cfg K (.svc l) = some y1) :
    (∃ r, .shutdown r (decide (l = .sigint)) ∈ y1.svc.ctx.queue) ∧ ∀ i, ∃ b, y1.act i = { y.act i with ctxShut := b } := by
  have aux : y.stepSvc P O ids K l = some y1 → (∃ r, .shutdown r (decide (l = .sigint)) ∈ y1.svc.ctx.queue) ∧ ∀ i, ∃ b, y1.act i = { y.act i with ctxShut := b } := by
    intro h
    unfold Sys.stepSvc at h
    cases h1 : y.svc.step P O l with
    | none => rw [h1] at h; cases h
    | some s' =>
      rw [h1] at h
      simp only [Option.bind_some] at h
      split at h
      · simp only [Option.some.injEq] at h
        subst h
        refine ⟨?_, fun i => ⟨_, rfl⟩⟩
        rcases hl with ⟨rfl, h2⟩ | ⟨rfl, h2⟩
        · simp only [Svc.step] at h1
          split at h1
          · rw [if_neg (by simp [h2])] at h1
            simp only [Option.some.injEq] at h1
            subst h1
            exact ⟨"ctrl-c (SIGINT)", by simp [Sys.mark, Svc.request, hsh, Svc.setFlags, Svc.emitShutdown, Ctx.emit]⟩
          · cases h1
        · simp only [Svc.step] at h1
          split at h1
          · simp only [Option.some.injEq] at h1
            subst h1
            exact ⟨"LaunchService.shutdown() called", by simp [Sys.mark, Svc.request, hsh, Svc.setFlags, Svc.emitShutdown, Ctx.emit]⟩
          · cases h1
      · cases h
  rcases hl with ⟨rfl, _⟩ | ⟨rfl, _⟩ <;> exact aux (by simpa only [Sys.stepJoint] using hs)

/-- **C108 Ctrl-C and `shutdown` reach every process.**  As above, when Ctrl-C is pressed for the first time or `shutdown` is called, and the service is not shutting down
already. -/
theorem C108_request_reaches_partial (P : Prog) (O : Oracle) (env : Dict String) (ids : List Nat) (cfg : Nat → ProcCfg) (K : Codes) (hK : K.Lawful)
    (ls : List JointLabel) (y y1 : Sys) (h : Sys.ReachesJoint P O env ids cfg K ls y) (l : Label)
    (hl : l = .sigint ∧ y.svc.sigint = false ∨ l = .shutdownSync ∧ y.svc.loop = true) (hsv : y.svc.shutting = false)
    (hs : y.stepJoint P O ids cfg K (.svc l) = some y1) (i : Nat) (hi : i ∈ ids) (n : Nat) (hp : (y.act i).comp = .pending) (hsh : (y.act i).shut = .pending)
    (hn : (y.act i).transport = none ∧ n = 0 ∨ (y.act i).RunsProc n) (ls' : List JointLabel) (y' : Sys)
    (hrun : runSteps (Sys.stepJoint P O ids cfg K) y1 ls' = some y') (hf : y'.failed = false) (hset : y'.SettledFor cfg i) (hn' : (y'.act i).RunsProc n) :
    ((y'.act i).Sent n .term ∨ (y'.act i).Awaits .term) ∧ ((y'.act i).Sent n .kill ∨ (y'.act i).Awaits .kill) := by
  obtain ⟨⟨r, hr⟩, ha⟩ := requested hl hsv hs
  obtain ⟨b, ha⟩ := ha i
  have h1 : Sys.ReachesJoint P O env ids cfg K (ls ++ [.svc l]) y1 := by
    unfold Sys.ReachesJoint at h ⊢
    rw [runSteps_append, h]
    simp [runSteps, hs]
  exact C108_shutdown_reaches_partial P O env ids cfg K hK _ y1 h1 r _ hr i hi n (by rw [ha]; exact hp) (by rw [ha]; exact hsh)
    (by rw [ha]; exact hn) ls' y' hrun hf hset hn'

/-! ## Examples -/

/-- Two process actions. -/
def jointRun (P : Prog) (ls : List JointLabel) : Option Sys :=
  runSteps (Sys.stepJoint P sampleOracle [0, 1] (fun _ => { sigtermTimeout := 1, sigkillTimeout := 1 }) sampleCodes) { svc := Svc.init [] } ls

/-- The service handles one event and goes on. -/
def jointServe (q : List Event) : List JointLabel := [.handle 9 [0, 1] q, .svc .wake, .svc .check]

/-- Both actions are executed. -/
def jointStart : List JointLabel := [.svc (.emit (.includeDesc 0)), .svc (.start true), .svc .check] ++ jointServe []

/-- A process is started, and its start is reported. -/
def jointSpawn (i : Nat) : List JointLabel := [.proc i (.begin true), .proc i .spawn, .proc i .attach] ++ jointServe []

/-- Two processes. -/
def jointProg : Prog := { asyncProg with description := fun _ => [.act (.user 0) none (.custom 1 [] []), .act (.user 1) none (.custom 1 [] [])] }

/-- Both processes run. -/
def jointBoth : List JointLabel := jointStart ++ jointSpawn 0 ++ jointSpawn 1

/-- The event with which process action `i` sends a signal. -/
def signalOf (i : Nat) (s : Sig) : Event := sampleCodes.enc i (.signal s true true)

/-- After a shutdown was requested; the process of action 0 ignores SIGINT. -/
def jointAfter : List JointLabel :=
  jointServe [signalOf 0 .int, signalOf 1 .int] ++ jointServe [] ++ jointServe [] ++
    [.proc 0 (.timerBegin .term), .proc 0 (.timerBegin .kill), .proc 0 .tick, .proc 0 (.timerFire .term)] ++ jointServe [signalOf 0 .term] ++ jointServe []

/-- Both processes are interrupted, and the one that does not react is sent SIGTERM a second later, while the timer for SIGKILL runs. -/
example : (jointRun jointProg jointBoth).map (fun y => (y.svc.sigint, y.svc.shutting, y.svc.loop)) = some (false, false, true) ∧
    (jointRun jointProg jointBoth).map (fun y => ((y.act 0).comp, (y.act 0).shut, (y.act 0).task, (y.act 0).procs)) =
      some (.pending, .pending, .running 0, [none]) ∧
    (jointRun jointProg (jointBoth ++ [.svc .shutdownSync] ++ jointAfter)).map
      (fun y => (y.failed, (y.act 0).task, (y.act 0).signals, (y.act 1).signals)) =
      some (false, .running 0, [⟨.int, 0, 0, true⟩, ⟨.term, 0, 1, true⟩], [⟨.int, 0, 0, true⟩]) :=
  ⟨by decide +kernel, by decide +kernel, by decide +kernel⟩

/-- … and nothing more is due. -/
example : ∃ y, jointRun jointProg (jointBoth ++ [.svc .shutdownSync] ++ jointAfter) = some y ∧
    y.SettledFor (fun _ => { sigtermTimeout := 1, sigkillTimeout := 1 }) 0 ∧ (y.act 0).RunsProc 0 ∧ (y.act 0).Awaits .kill := by
  cases h : jointRun jointProg (jointBoth ++ [.svc .shutdownSync] ++ jointAfter) with
  | none =>
    have : (jointRun jointProg (jointBoth ++ [.svc .shutdownSync] ++ jointAfter)).isSome = true := by decide +kernel
    rw [h] at this; cases this
  | some y =>
    have e : (jointRun jointProg (jointBoth ++ [.svc .shutdownSync] ++ jointAfter)).map (fun y => (y.svc.ctx.queue, y.act 0)) =
        some ([], { executed := true, comp := .pending, shut := .done, transport := some 0, procs := [none], task := .running 0, sigterm := .fired,
                    sigkill := .waiting 2, ctxShut := true, now := 1, log := [.started 0], signals := [⟨.int, 0, 0, true⟩, ⟨.term, 0, 1, true⟩],
                    shutAt := some 0 }) := by decide +kernel
    rw [h] at e
    simp only [Option.map_some, Option.some.injEq, Prod.mk.injEq] at e
    refine ⟨y, rfl, ⟨e.1, ?_⟩, ?_, ?_⟩
    · rw [e.2]; intro s; cases s <;> exact ⟨rfl, rfl⟩
    · rw [e.2]; exact ⟨rfl, rfl⟩
    · rw [e.2]; exact ⟨2, rfl, by decide⟩

/-- A handler for the Shutdown event, registered after the process actions were executed and therefore called before theirs, raises an exception. -/
def raisingProg : Prog :=
  { jointProg with
    matchesEv := fun h e => h == 6 && e == .shutdown "LaunchService.shutdown() called" false
    once := fun _ => false
    callback := fun _ _ _ => { result := .error .valueError }
    description := fun _ => [.act (.user 0) none (.custom 1 [] []), .act (.user 1) none (.custom 1 [] []), .act (.user 2) none (.registerHandler 6 none)] }

/-- C108 is violated: no process is signalled or will be, and the run goes on waiting for the processes. -/
theorem C108_raised_violated :
    (jointRun raisingProg (jointBoth ++ [.svc .shutdownSync, .handle 9 [] [], .svc .wake, .svc .check])).map
      (fun y => (y.svc.pc, y.svc.ctx.queue, y.svc.shutting)) = some (.waiting [0, 1], [], true) ∧
    (jointRun raisingProg (jointBoth ++ [.svc .shutdownSync, .handle 9 [] [], .svc .wake, .svc .check])).map
      (fun y => ((y.act 0).task, (y.act 0).signals, (y.act 0).sigterm, (y.act 1).task, (y.act 1).signals)) =
      some (.running 0, [], .absent, .running 0, []) := by decide +kernel

/-- A handler for the Shutdown event starts a process. -/
def lateProg : Prog :=
  { jointProg with
    matchesEv := fun h e => h == 6 && e == .shutdown "bye" false
    once := fun _ => false
    callback := fun _ _ _ => { result := .ok [.act (.user 1) none (.custom 1 [] [])] }
    description := fun _ => [.act (.user 0) none (.custom 1 [] []), .act (.user 2) none (.registerHandler 6 none)] }

/-- C108 is violated: that process is not told about the shutdown, and the run goes on waiting for it. -/
theorem C108_late_violated :
    (jointRun lateProg (jointStart ++ jointSpawn 0 ++ [.svc (.emit (.shutdown "bye" false))] ++ jointServe [signalOf 0 .int] ++ jointServe [] ++ jointSpawn 1 ++
        [.proc 0 (.procExit 0 0), .proc 0 .observe] ++ jointServe [])).map
      (fun y => (y.svc.pc, y.svc.ctx.queue, y.svc.shutting, y.failed)) = some (.waiting [1], [], true, false) ∧
    (jointRun lateProg (jointStart ++ jointSpawn 0 ++ [.svc (.emit (.shutdown "bye" false))] ++ jointServe [signalOf 0 .int] ++ jointServe [] ++ jointSpawn 1 ++
        [.proc 0 (.procExit 0 0), .proc 0 .observe] ++ jointServe [])).map
      (fun y => ((y.act 0).task, (y.act 1).task, (y.act 1).signals, (y.act 1).sigterm, (y.act 1).sigkill)) =
      some (.ended, .running 0, [], .absent, .absent) := by decide +kernel

/-- C108 is violated for SIGINT: when Ctrl-C is pressed just before a process is started, nobody sends it SIGINT; only the timers run. -/
theorem C108_early_violated :
    (jointRun jointProg (jointStart ++ [.proc 0 (.begin true), .svc .sigint] ++ jointServe [] ++ [.proc 0 .spawn, .proc 0 .attach] ++ jointServe [] ++
        [.proc 0 (.timerBegin .term), .proc 0 (.timerBegin .kill)])).map
      (fun y => (y.svc.ctx.queue, y.failed, (y.act 0).task, (y.act 0).signals, (y.act 0).sigterm)) =
      some ([], false, .running 0, [], .waiting 1) := by decide +kernel

end Verif
