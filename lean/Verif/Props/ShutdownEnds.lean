import Verif.Spec.ShutdownEnds
import Verif.Lemmas.JointRun
import Verif.Props.Required

/-!
# C119: after a requested shutdown the launch comes to its end

C108 says that every process is told.  Here: once everything that is due was done, and every process that was sent SIGKILL has ended, all process actions are over, and the
run returns.
-/

namespace Verif
open ProcAct

/-! ## One process action -/

/-- What a step does to the coroutine. -/
theorem task_kept {c : ProcCfg} {a a' : ProcAct} {l : ProcLabel} (hx : a.executed = true) (hs : a.step c l = some a') :
    a'.task = a.task ∨ a.task = .scheduled ∨ a.task = .starting ∨ (∃ m, a.task = .spawned m ∧ a'.task = .running m) ∨
      (∃ m code, a.task = .running m ∧ a' = a.observe c m code) ∨
      (a.task = .delaying ∧ a' = if a.shut = .done then a.cleanup else { a with task := .scheduled }) := by
  cases l with
  | execute =>
    simp only [ProcAct.step, Option.some.injEq] at hs; subst hs
    unfold ProcAct.execute
    rw [if_pos hx]
    exact .inl rfl
  | begin ok =>
    simp only [ProcAct.step] at hs
    split at hs
    · rename_i ht; exact .inr (.inl ht)
    · cases hs
  | spawn =>
    simp only [ProcAct.step] at hs
    split at hs
    · rename_i ht; exact .inr (.inr (.inl ht))
    · cases hs
  | spawnFail =>
    simp only [ProcAct.step] at hs
    split at hs
    · rename_i ht; exact .inr (.inr (.inl ht))
    · cases hs
  | attach =>
    simp only [ProcAct.step] at hs
    split at hs
    · rename_i m ht
      simp only [Option.some.injEq] at hs; subst hs
      exact .inr (.inr (.inr (.inl ⟨m, ht, rfl⟩)))
    · cases hs
  | procExit n code =>
    simp only [ProcAct.step] at hs
    split at hs
    · simp only [Option.some.injEq] at hs; subst hs; exact .inl rfl
    · cases hs
  | observe =>
    simp only [ProcAct.step] at hs
    split at hs
    · rename_i m ht
      split at hs
      · rename_i code hcd
        simp only [Option.some.injEq] at hs
        exact .inr (.inr (.inr (.inr (.inl ⟨m, code, ht, hs.symm⟩))))
      · cases hs
    · cases hs
  | delayOver =>
    simp only [ProcAct.step] at hs
    split at hs
    · rename_i ht
      simp only [Option.some.injEq] at hs
      exact .inr (.inr (.inr (.inr (.inr ⟨ht, hs.symm⟩))))
    · cases hs
  | timerBegin s =>
    simp only [ProcAct.step] at hs
    split at hs
    · simp only [Option.some.injEq] at hs; subst hs; rw [setTimer_eq]; exact .inl rfl
    · cases hs
  | timerFire s =>
    simp only [ProcAct.step] at hs
    split at hs
    · split at hs
      · simp only [Option.some.injEq] at hs; subst hs; rw [setTimer_eq]; exact .inl rfl
      · cases hs
    · cases hs
  | tick => simp only [ProcAct.step, Option.some.injEq] at hs; subst hs; exact .inl rfl
  | setShut => simp only [ProcAct.step, Option.some.injEq] at hs; subst hs; exact .inl rfl
  | emit e =>
    simp only [ProcAct.step] at hs
    split at hs
    · simp only [Option.some.injEq] at hs; subst hs; exact .inl rfl
    · cases hs
  | ask b =>
    simp only [ProcAct.step, Option.some.injEq] at hs; subst hs
    rw [(shutdownProcess_frame _ _).rest]; exact .inl rfl
  | process => rw [(process_frame hs).rest]; exact .inl rfl

/-- When the context is shut down, no process is started again. -/
theorem observe_shut {c : ProcCfg} {a : ProcAct} {m : Nat} {code : Int} (h : a.ctxShut = true) : (a.observe c m code).comp = .done := by
  unfold ProcAct.observe
  simp [h, ProcAct.cleanup]

/-- The action comes to its end. -/
def Ending (a : ProcAct) : Prop :=
  a.ctxShut = true ∧ (a.comp ≠ .pending ∨ a.task = .failed ∨ (a.task = .delaying ∧ a.shut = .done) ∨
    ∃ n, (a.complete n = true ∧ (a.task = .running n ∨ a.task = .spawned n)) ∨ Pend n false a ∨ Hunted n false a)

/-- Where the coroutine is when the process exists. -/
theorem at_process {c : ProcCfg} {a : ProcAct} {n : Nat} (hc : Ctl c a) (hcp : a.comp = .pending) (h : Pend n false a ∨ Hunted n false a)
    (hlt : n < a.procs.length) : a.task = .running n ∨ a.task = .spawned n ∨ a.task = .failed := by
  rcases h with h | h
  · rcases h.pos with ⟨x1, x2, x3, _⟩ | ⟨x1, _⟩
    · have hlen := hc.length
      cases ht : a.task with
      | absent => rw [(hc.absent ht).1] at hcp; cases hcp
      | scheduled => rw [ht] at hlen; simp only at hlen; omega
      | starting => rw [ht] at hlen; simp only at hlen; omega
      | delaying => rw [ht] at hlen; simp only at hlen; omega
      | spawned m =>
        rw [ht] at hlen; simp only at hlen
        obtain rfl : m = n := by omega
        exact .inr (.inl rfl)
      | running m => rw [hc.running m ht] at x1; cases x1
      | ended => rw [hc.ended.mpr ht] at hcp; cases hcp
      | failed => exact .inr (.inr rfl)
    · exact .inl x1
  · exact .inl h.task

theorem complete_lt {a : ProcAct} {n : Nat} (h : a.complete n = true) : n < a.procs.length := by
  obtain ⟨code, e⟩ := complete_iff.mp h
  exact (List.getElem?_eq_some_iff.mp e).1

theorem Ending.step {c : ProcCfg} {a a' : ProcAct} {l : ProcLabel} (hc : Ctl c a) (h : Ending a) (hs : a.step c l = some a') : Ending a' := by
  obtain ⟨hsh, h⟩ := h
  refine ⟨ctxShut_step hsh hs, ?_⟩
  have hc' := hc.step hs
  by_cases hcp : a.comp = .pending
  · have hx : a.executed = true := by
      refine (hc.present ?_).2.2
      intro ht
      rw [(hc.absent ht).1] at hcp; cases hcp
    -- at a process that has ended
    have hend : ∀ n, a.task = .running n ∨ a.task = .spawned n → a'.complete n = true →
        a'.comp ≠ .pending ∨ a'.complete n = true ∧ (a'.task = .running n ∨ a'.task = .spawned n) := by
      intro n ht hco
      rcases task_kept hx hs with e | e | e | ⟨m, e1, e2⟩ | ⟨m, code, e1, e2⟩ | ⟨e, _⟩
      · exact .inr ⟨hco, by rw [e]; exact ht⟩
      · rw [e] at ht; simp at ht
      · rw [e] at ht; simp at ht
      · rw [e1] at ht
        simp at ht
        subst ht
        exact .inr ⟨hco, .inl e2⟩
      · left; rw [e2, observe_shut hsh]; simp
      · rw [e] at ht; simp at ht
    have hfail : a.task = .failed → a'.task = .failed := by
      intro ht
      rcases task_kept hx hs with e | e | e | ⟨m, e1, e2⟩ | ⟨m, code, e1, e2⟩ | ⟨e, _⟩
      · rw [e]; exact ht
      · rw [e] at ht; cases ht
      · rw [e] at ht; cases ht
      · rw [e1] at ht; cases ht
      · rw [e1] at ht; cases ht
      · rw [e] at ht; cases ht
    rcases h with h | h | ⟨h1, h2⟩ | ⟨n, ⟨h1, h2⟩ | h⟩
    · exact absurd hcp h
    · exact .inr (.inl (hfail h))
    · rcases task_kept hx hs with e | e | e | ⟨m, e1, e2⟩ | ⟨m, code, e1, e2⟩ | ⟨e1, e2⟩
      · exact .inr (.inr (.inl ⟨by rw [e]; exact h1, (about_step hc h2 hs).1⟩))
      · rw [e] at h1; cases h1
      · rw [e] at h1; cases h1
      · rw [e1] at h1; cases h1
      · rw [e1] at h1; cases h1
      · left; rw [e2, if_pos h2]; simp [ProcAct.cleanup]
    · obtain ⟨code, e⟩ := complete_iff.mp h1
      rcases hend n h2 (complete_iff.mpr ⟨code, complete_step hs e⟩) with x | x
      · exact .inl x
      · exact .inr (.inr (.inr ⟨n, .inl x⟩))
    · have hr : runSteps (ProcAct.step c) a [l] = some a' := by simp [runSteps, hs]
      have hd : Doomed n false a := h.elim (fun x => .inr (.inr (.inl x))) (fun x => .inr (.inr (.inr x)))
      rcases doomed_run (b := false) hc hd (by simp) hr with x | x | x | x
      · left; rw [x]; simp
      · have hlt : n < a.procs.length := by
          obtain ⟨code, e⟩ := complete_iff.mp x
          rcases step_procs hs with e' | ⟨_, _, e'⟩ | ⟨m, code', _, e'⟩
          · rw [← e']; exact complete_lt x
          · rw [e'] at e
            rw [List.getElem?_append] at e
            split at e
            · assumption
            · have : ([none] : List (Option Int))[n - a.procs.length]? = some (some code) := e
              rw [List.getElem?_singleton] at this
              split at this <;> simp at this
          · have := complete_lt x
            rw [e'] at this
            simpa using this
        rcases at_process hc hcp h hlt with y | y | y
        · rcases hend n (.inl y) x with z | z
          · exact .inl z
          · exact .inr (.inr (.inr ⟨n, .inl z⟩))
        · rcases hend n (.inr y) x with z | z
          · exact .inl z
          · exact .inr (.inr (.inr ⟨n, .inl z⟩))
        · exact .inr (.inl (hfail y))
      · exact .inr (.inr (.inr ⟨n, .inr (.inl x)⟩))
      · exact .inr (.inr (.inr ⟨n, .inr (.inr x)⟩))
  · left
    by_cases hl : l = .execute
    · subst hl
      simp only [ProcAct.step, Option.some.injEq] at hs; subst hs
      unfold ProcAct.execute
      split
      · exact hcp
      · simp only [hsh, if_true]; exact hcp
    · rcases comp_stays hs hl with e | e
      · rw [e]; exact hcp
      · rw [e]; simp

theorem Ending.run {c : ProcCfg} {ls : List ProcLabel} {a a' : ProcAct} (hc : Ctl c a) (h : Ending a) (hr : runSteps (ProcAct.step c) a ls = some a') : Ending a' :=
  (runSteps_induct (R := fun x => Ctl c x ∧ Ending x) (fun _ _ _ ⟨hx, hd⟩ hs => ⟨hx.step hs, hd.step hx hs⟩) ls _ _ ⟨hc, h⟩ hr).2

/-- The end. -/
theorem Ending.over {c : ProcCfg} {a : ProcAct} (hc : Ctl c a) (h : Ending a) (hset : a.Settled c)
    (hdue : ∀ l ∈ [ProcLabel.begin true, .spawn, .attach, .observe, .delayOver], a.step c l = none)
    (hfail : a.task ≠ .failed) (hwait : ¬ a.Awaits .kill) (hkill : ∀ n, a.Sent n .kill → ¬ a.RunsProc n) : a.comp ≠ .pending := by
  intro hcp
  have d1 := hdue (.begin true) (by simp)
  have d2 := hdue .spawn (by simp)
  have d3 := hdue .attach (by simp)
  have d4 := hdue .observe (by simp)
  have d5 := hdue .delayOver (by simp)
  have hrun : ∃ n, a.task = .running n ∧ a.procs[n]? = some none := by
    cases ht : a.task with
    | absent => rw [(hc.absent ht).1] at hcp; cases hcp
    | scheduled => simp [ProcAct.step, ht] at d1
    | starting => simp [ProcAct.step, ht] at d2
    | delaying => simp [ProcAct.step, ht] at d5
    | spawned m => simp [ProcAct.step, ht] at d3
    | ended => rw [hc.ended.mpr ht] at hcp; cases hcp
    | failed => exact absurd ht hfail
    | running m =>
      refine ⟨m, rfl, ?_⟩
      have hlen := hc.length
      rw [ht] at hlen
      simp only at hlen
      have hv : a.procs[m]? = some (a.procs[m]'(by omega)) := List.getElem?_eq_getElem (by omega)
      cases hw : a.procs[m]'(by omega) with
      | none => rw [hw] at hv; exact hv
      | some code => rw [hw] at hv; simp [ProcAct.step, ht, hv] at d4
  obtain ⟨n, ht, hn⟩ := hrun
  have hncomp : ∀ m, a.task = .running m → ¬ a.complete m = true := by
    intro m hm hco
    rw [ht] at hm
    cases hm
    obtain ⟨code, e⟩ := complete_iff.mp hco
    rw [hn] at e; cases e
  rcases h.2 with x | x | ⟨x, _⟩ | ⟨m, ⟨x, y | y⟩ | x | x⟩
  · exact x hcp
  · exact hfail x
  · rw [ht] at x; cases x
  · exact hncomp m y x
  · rw [ht] at y; cases y
  · rcases x.pos with ⟨y, _⟩ | ⟨_, _, ⟨e, y, _⟩ | ⟨_, y⟩⟩
    · rw [hc.running n ht] at y; cases y
    · rw [hset.1] at y; cases y
    · rw [hset.1] at y; cases y
  · have hm := x.task
    rw [ht] at hm
    cases hm
    rcases settled_esc x.kill hset with y | y
    · exact hkill n y ⟨ht, hn⟩
    · exact hwait y

/-! ## Before the start of a process -/

/-- Only a process that has run is started again. -/
theorem delaying_retries {c : ProcCfg} {ls : List ProcLabel} {a : ProcAct} (h : ProcAct.Reaches c ls a) (hd : a.task = .delaying) : 0 < a.retries := by
  unfold ProcAct.Reaches at h
  have key : Ctl c a ∧ (a.task = .delaying → 0 < a.retries) := by
    refine runSteps_induct (R := fun a => Ctl c a ∧ (a.task = .delaying → 0 < a.retries)) ?_ ls _ _
      ⟨Ctl.reach (ls := []) (by unfold ProcAct.Reaches; rfl), by simp⟩ h
    rintro a l a' ⟨hc, ih⟩ hs
    have hc' := hc.step hs
    refine ⟨hc', fun hd => ?_⟩
    have hmono : a.procs.length ≤ a'.procs.length := by
      rcases step_procs hs with e | ⟨_, _, e⟩ | ⟨_, _, _, e⟩ <;> rw [e] <;> simp
    have same : a'.task = a.task → 0 < a'.retries := by
      intro e
      have hl := hc.length
      have hl' := hc'.length
      have hd0 : a.task = .delaying := e ▸ hd
      rw [hd0] at hl
      rw [hd] at hl'
      simp only at hl hl'
      have := ih hd0
      omega
    by_cases hx : a.executed = true
    · rcases task_kept hx hs with e | e | e | ⟨m, e1, e2⟩ | ⟨m, code, e1, e2⟩ | ⟨e1, e2⟩
      · exact same e
      · cases l <;> simp only [ProcAct.step, e] at hs <;> first
          | exact same (by
              simp only [Option.some.injEq] at hs; subst hs
              first | rfl | (rw [(shutdownProcess_frame _ _).rest]) | (unfold ProcAct.execute; rw [if_pos hx]))
          | (cases hs; done)
          | skip
        all_goals first
          | (rw [(process_frame (c := c) hs).rest] at hd; rw [e] at hd; cases hd; done)
          | (repeat' split at hs
             all_goals first
               | (cases hs; done)
               | (simp only [Option.some.injEq] at hs; subst hs; first | (rw [setTimer_eq] at hd; simp [e] at hd; done) | (simp at hd; done) | (simp [e] at hd; done) | (simp [ProcAct.cleanup] at hd; done)))
      · cases l <;> simp only [ProcAct.step, e] at hs <;> first
          | exact same (by
              simp only [Option.some.injEq] at hs; subst hs
              first | rfl | (rw [(shutdownProcess_frame _ _).rest]) | (unfold ProcAct.execute; rw [if_pos hx]))
          | (cases hs; done)
          | skip
        all_goals first
          | (rw [(process_frame (c := c) hs).rest] at hd; rw [e] at hd; cases hd; done)
          | (repeat' split at hs
             all_goals first
               | (cases hs; done)
               | (simp only [Option.some.injEq] at hs; subst hs; first | (rw [setTimer_eq] at hd; simp [e] at hd; done) | (simp at hd; done) | (simp [e] at hd; done) | (simp [ProcAct.cleanup] at hd; done)))
      · rw [hd] at e2; cases e2
      · rw [e2] at hd ⊢
        unfold ProcAct.observe at hd ⊢
        simp only at hd ⊢
        split at hd
        · rename_i hcnd; rw [if_pos hcnd]; exact Nat.succ_pos _
        · simp [ProcAct.cleanup] at hd
      · rw [e2] at hd
        split at hd <;> simp [ProcAct.cleanup] at hd
    · have hx' : a.executed = false := by simpa using hx
      have ht : a.task = .absent := by
        cases ht : a.task with
        | absent => rfl
        | _ => exact absurd (hc.present (by rw [ht]; simp)).2.2 hx
      by_cases hl : l = .execute
      · subst hl
        simp only [ProcAct.step, Option.some.injEq] at hs; subst hs
        unfold ProcAct.execute at hd
        rw [if_neg hx] at hd
        simp only at hd
        split at hd
        · rw [show ({ a with executed := true } : ProcAct).task = a.task from rfl, ht] at hd; cases hd
        · cases hd
      · have hf : a.Fresh := ⟨(hc.absent ht).1, ht, (hc.absent ht).2.2.1⟩
        rw [(hf.step hl hs).task] at hd; cases hd
  exact key.2 hd

/-! ## All of them -/

section
variable {P : Prog} {O : Oracle} {env : Dict String} {ids : List Nat} {cfg : Nat → ProcCfg} {K : Codes}

theorem view_of_empty {y : Sys} {i : Nat} (hq : (y.act i).queue = []) (h : y.svc.ctx.queue = []) : y.view K i = y.act i := by
  simp only [Sys.view, h, List.filterMap_nil]
  rw [← hq]

/-- An action whose end has begun is over when nothing is due any more. -/
theorem joint_over (hK : K.Lawful) {ls : List JointLabel} {y : Sys} (h : Sys.ReachesJoint P O env ids cfg K ls y) {i : Nat} (hi : i ∈ ids)
    (hsh : (y.act i).ctxShut = true) (hend : (y.act i).comp = .pending → Ending (y.view K i)) {ls' : List JointLabel} {y' : Sys}
    (hrun : runSteps (Sys.stepJoint P O ids cfg K) y ls' = some y') (hf : y'.failed = false) (hdue : y'.NothingDue cfg i)
    (hfail : (y'.act i).task ≠ .failed) (hwait : ¬ (y'.act i).Awaits .kill) (hkill : ∀ n, (y'.act i).Sent n .kill → ¬ (y'.act i).RunsProc n) :
    (y'.act i).comp ≠ .pending ∧ (y'.act i).Over (cfg i) := by
  have h' : Sys.ReachesJoint P O env ids cfg K (ls ++ ls') y' := by
    unfold Sys.ReachesJoint at h ⊢
    rw [runSteps_append, h]
    exact hrun
  obtain ⟨hq, hreach⟩ := joint_reach hK h
  obtain ⟨hq', hreach'⟩ := joint_reach hK h'
  have hv := view_of_empty (K := K) (hq' i) hdue.1.1
  obtain ⟨ls1, h1⟩ := hreach' hf i hi
  rw [hv] at h1
  have hc' := Ctl.reach h1
  have key : (y'.act i).comp ≠ .pending := by
    by_cases hcp : (y.act i).comp = .pending
    · obtain ⟨ls0, h0⟩ := hreach (joint_failed_run hrun hf) i hi
      have hx : (y.act i).executed = true := by
        cases hh : (y.act i).executed
        · have := congrArg ProcAct.comp (ProcAct.unexecuted_reach h0 hh).eq
          simp only [Sys.view] at this
          rw [hcp] at this; cases this
        · rfl
      obtain ⟨new, ls2, _, e2, _⟩ := joint_run hK hi hq hx hrun hf
      have := (hend hcp).run (Ctl.reach h0) e2
      rw [hv] at this
      exact this.over hc' ⟨hq' i, hdue.1.2⟩ hdue.2 hfail hwait hkill
    · exact (runSteps_induct (R := fun y : Sys => (y.act i).ctxShut = true ∧ (y.act i).comp ≠ .pending) (step := Sys.stepJoint P O ids cfg K)
        (fun _ _ _ a b => quiet_joint a b) ls' y y' ⟨hsh, hcp⟩ hrun).2
  refine ⟨key, ?_⟩
  cases hcp : (y'.act i).comp with
  | pending => exact absurd hcp key
  | done => exact ProcAct.over_of_done h1 hcp
  | unset =>
    have ht : (y'.act i).task = .absent := Classical.byContradiction fun ht => (hc'.present ht).1 hcp
    exact ProcAct.Fresh.over ⟨hcp, ht, (hc'.absent ht).2.2.1⟩

/-- The end begins when a Shutdown event waits. -/
theorem stoppable_ends {c : ProcCfg} {ls : List ProcLabel} {a : ProcAct} (h : ProcAct.Reaches c ls a) (hsh : a.ctxShut = true) (hask : AskedToEnd a.queue)
    (hst : a.Stoppable) : Ending a := by
  have hc := Ctl.reach h
  refine ⟨hsh, ?_⟩
  by_cases hcp : a.comp = .pending
  · rcases hst with x | ⟨x, y⟩ | ⟨n, x, y⟩ | x
    · exact .inl x
    · exact .inr (.inr (.inr ⟨0, .inr (.inl ⟨hcp, x, by simp, .inl ⟨y, retries_none h y, rfl, .inl hask⟩⟩)⟩))
    · rcases y with y | y | ⟨y, z⟩
      · exact .inr (.inr (.inr ⟨n, .inr (.inl ⟨hcp, y, by simp, .inr ⟨x, hc.running n x, .inl hask⟩⟩)⟩))
      · refine .inr (.inr (.inr ⟨n, .inl ⟨?_, .inl x⟩⟩))
        have hlen := hc.length
        rw [x] at hlen
        simp only at hlen
        have hv : a.procs[n]? = some (a.procs[n]'(by omega)) := List.getElem?_eq_getElem (by omega)
        cases hw : a.procs[n]'(by omega) with
        | none => rw [hw] at hv; exact absurd hv y
        | some code => rw [hw] at hv; exact complete_iff.mpr ⟨code, hv⟩
      · by_cases hs : a.shut = .pending
        · exact .inr (.inr (.inr ⟨n, .inr (.inl ⟨hcp, hs, by simp, .inr ⟨x, hc.running n x, .inl hask⟩⟩)⟩))
        · have hd : a.shut = .done := by
            cases hv : a.shut with
            | pending => exact absurd hv hs
            | done => rfl
            | unset => exact absurd hv (hc.present (by rw [x]; simp)).2.1
          refine .inr (.inr (.inr ⟨n, .inr (.inr ⟨hc.running n x, x, hd, by simp, y, z⟩)⟩))
    · exact .inr (.inr (.inl x))
  · exact .inl hcp

/-- A request sets the flags. -/
theorem requested_flags {y y1 : Sys} {l : Label} (hl : l = .sigint ∧ y.svc.sigint = false ∨ l = .shutdownSync ∧ y.svc.loop = true)
    (hs : y.stepJoint P O ids cfg K (.svc l) = some y1) : y1.svc.shutting = true ∧ y1.svc.ctx.isShutdown = true := by
  have aux : y.stepSvc P O ids K l = some y1 → y1.svc.shutting = true ∧ y1.svc.ctx.isShutdown = true := by
    intro h
    obtain ⟨s', h1, rfl, _, _⟩ := stepSvc_inv h
    rcases hl with ⟨rfl, h2⟩ | ⟨rfl, h2⟩
    · simp only [Svc.step] at h1
      split at h1
      · rw [if_neg (by simp [h2])] at h1
        simp only [Option.some.injEq] at h1
        rw [← h1]
        exact ⟨rfl, rfl⟩
      · cases h1
    · simp only [Svc.step] at h1
      split at h1
      · simp only [Option.some.injEq] at h1
        rw [← h1]
        exact ⟨rfl, rfl⟩
      · cases h1
  rcases hl with ⟨rfl, _⟩ | ⟨rfl, _⟩ <;> exact aux (by simpa only [Sys.stepJoint] using hs)

/-- The run returns when all process actions are over. -/
theorem joint_returns (hK : K.Lawful) {ls : List JointLabel} {y : Sys} (h : Sys.ReachesJoint P O env ids cfg K ls y) (hsv : y.svc.shutting = true)
    {ls' : List JointLabel} {y' : Sys} (hrun : runSteps (Sys.stepJoint P O ids cfg K) y ls' = some y') (hf : y'.failed = false)
    (hq : y'.svc.ctx.queue = []) (hend : ∀ i ∈ ids, (y'.act i).comp ≠ .pending) (hstart : ∀ w, .svc (.start w) ∉ ls') (hw : y'.svc.pc.isWaiting = true)
    (hst : y'.svc.stage = .no) (hc : y'.svc.whenIdle = true ∨ y'.svc.coros = 0 ∧ .svc .threadFlags ∉ ls ++ ls') (hfut : y'.WaitsForProcesses ids) :
    ∃ ls'' y'', runSteps (Sys.stepJoint P O ids cfg K) y' ls'' = some y'' ∧ ls'' ⊆ [.svc .wake, .svc .check, .svc .finish] ∧ y''.svc.pc = .off := by
  have h' : Sys.ReachesJoint P O env ids cfg K (ls ++ ls') y' := by
    unfold Sys.ReachesJoint at h ⊢
    rw [runSteps_append, h]
    exact hrun
  have hshut : y'.svc.shutting = true := by
    have : ∀ (ls' : List JointLabel) (y : Sys), (∀ w, JointLabel.svc (.start w) ∉ ls') → (y.svc.shutting = true ∨ y.svc.pc = .off) →
        runSteps (Sys.stepJoint P O ids cfg K) y ls' = some y' → y'.svc.shutting = true ∨ y'.svc.pc = .off := by
      intro ls'
      induction ls' with
      | nil =>
        intro y _ a b
        simp only [runSteps, Option.some.injEq] at b
        subst b; exact a
      | cons l ls' ih =>
        intro y hn a b
        simp only [runSteps] at b
        cases hs : y.stepJoint P O ids cfg K l with
        | none => rw [hs] at b; cases b
        | some y1 =>
          rw [hs] at b
          exact ih y1 (fun w hm => hn w (List.mem_cons_of_mem _ hm))
            (shutting_joint (fun w e => hn w (by rw [e]; exact List.mem_cons_self ..)) (joint_failed_run b hf) a hs) b
    rcases this ls' y hstart (.inl hsv) hrun with x | x
    · exact x
    · rw [x] at hw; cases hw
  have hji := JointInv.reach h'
  have hdone : ∀ f, f ∈ y'.svc.pairs.map (·.2) ∨ f ∈ y'.svc.ctx.completion → y'.svc.isDone f = true := by
    intro f hm
    rcases hfut f hm with x | ⟨i, hi, x⟩
    · exact x
    · rcases hji.link i hi with ⟨e, _⟩ | ⟨f', e, h1, h2⟩
      · rw [e] at x; cases x
      · rw [e] at x
        simp only [List.mem_singleton] at x
        subst x
        refine h2.mpr ?_
        cases hcp : (y'.act i).comp with
        | unset => exact absurd hcp h1
        | pending => exact absurd hcp (hend i hi)
        | done => rfl
  have hidle : y'.svc.Idle := ⟨hq, fun p hp => hdone _ (.inl (List.mem_map_of_mem hp)), fun f hf => hdone f (.inr hf)⟩
  obtain ⟨l, s'', h1, h2, h3⟩ := ends_inv (P := P) (O := O) (RunInv.reachJoint h') hw hidle hshut hc hst
  obtain ⟨y'', h4, h5⟩ := returns_joint (ids := ids) (cfg := cfg) hK h3 h1
  refine ⟨_, y'', h4, ?_, by rw [h5]; exact h2⟩
  intro x hx
  obtain ⟨z, hz, rfl⟩ := List.mem_map.mp hx
  have := h3 hz
  simp only [List.mem_cons, List.not_mem_nil, or_false] at this
  rcases this with rfl | rfl | rfl <;> simp

/-! ## Ctrl-C and `shutdown` -/

theorem requested_end (hK : K.Lawful) {ls : List JointLabel} {y1 : Sys} (h1 : Sys.ReachesJoint P O env ids cfg K ls y1) {r : String} {sig : Bool}
    (hr : .shutdown r sig ∈ y1.svc.ctx.queue) (hsh : y1.svc.ctx.isShutdown = true) (hst : ∀ i ∈ ids, (y1.view K i).Stoppable) {ls' : List JointLabel} {y' : Sys}
    (hrun : runSteps (Sys.stepJoint P O ids cfg K) y1 ls' = some y') (hf : y'.failed = false) (hrest : y'.AtRest cfg ids) :
    ∀ i ∈ ids, (y'.act i).comp ≠ .pending ∧ (y'.act i).Over (cfg i) := by
  intro i hi
  have hcs := ctxShut_reach h1 hsh i
  obtain ⟨ls0, h0⟩ := (joint_reach hK h1).2 (joint_failed_run hrun hf) i hi
  obtain ⟨d1, d2, d3, d4⟩ := hrest i hi
  refine joint_over hK h1 hi hcs (fun _ => ?_) hrun hf d1 d2 d3 d4
  exact stoppable_ends h0 hcs ⟨.shutdown sig, List.mem_filterMap.mpr ⟨_, hr, hK.shutdown i r sig⟩, rfl⟩ (hst i hi)

theorem reach_snoc {ls : List JointLabel} {y y1 : Sys} {l : JointLabel} (h : Sys.ReachesJoint P O env ids cfg K ls y)
    (hs : y.stepJoint P O ids cfg K l = some y1) : Sys.ReachesJoint P O env ids cfg K (ls ++ [l]) y1 := by
  unfold Sys.ReachesJoint at h ⊢
  rw [runSteps_append, h]
  simp [runSteps, hs]

end

/-- **C119 After Ctrl-C or `shutdown` all processes end.**  Ctrl-C is pressed for the first time or `shutdown` is called, and the service is not shutting down already; every
process action can be stopped.  Then whenever the launch has come to rest, and no handler has raised an exception, all processes of all process actions have ended,
their ends were reported, and none of the actions starts another process. -/
theorem C119_request_ends_partial (P : Prog) (O : Oracle) (env : Dict String) (ids : List Nat) (cfg : Nat → ProcCfg) (K : Codes) (hK : K.Lawful)
    (ls : List JointLabel) (y y1 : Sys) (h : Sys.ReachesJoint P O env ids cfg K ls y) (l : Label)
    (hl : l = .sigint ∧ y.svc.sigint = false ∨ l = .shutdownSync ∧ y.svc.loop = true) (hsv : y.svc.shutting = false)
    (hs : y.stepJoint P O ids cfg K (.svc l) = some y1) (hst : ∀ i ∈ ids, (y1.view K i).Stoppable) (ls' : List JointLabel) (y' : Sys)
    (hrun : runSteps (Sys.stepJoint P O ids cfg K) y1 ls' = some y') (hf : y'.failed = false) (hrest : y'.AtRest cfg ids) :
    ∀ i ∈ ids, (y'.act i).Over (cfg i) := by
  obtain ⟨⟨r, hr⟩, _⟩ := requested hl hsv hs
  exact fun i hi => (requested_end hK (reach_snoc h hs) hr (requested_flags hl hs).2 hst hrun hf hrest i hi).2

/-- **C119 … and `run` returns**: it need only wake up, look and finish.  Here the run waits, all it waits for are the process actions and what is done, `run` was not called anew,
no other thread is inside `shutdown`; and the run shuts down when idle, or no coroutine that `shutdown` returned was dropped and no other thread called `shutdown`. -/
theorem C119_request_returns_partial (P : Prog) (O : Oracle) (env : Dict String) (ids : List Nat) (cfg : Nat → ProcCfg) (K : Codes) (hK : K.Lawful)
    (ls : List JointLabel) (y y1 : Sys) (h : Sys.ReachesJoint P O env ids cfg K ls y) (l : Label)
    (hl : l = .sigint ∧ y.svc.sigint = false ∨ l = .shutdownSync ∧ y.svc.loop = true) (hsv : y.svc.shutting = false)
    (hs : y.stepJoint P O ids cfg K (.svc l) = some y1) (hst : ∀ i ∈ ids, (y1.view K i).Stoppable) (ls' : List JointLabel) (y' : Sys)
    (hrun : runSteps (Sys.stepJoint P O ids cfg K) y1 ls' = some y') (hf : y'.failed = false) (hrest : y'.AtRest cfg ids) (hq : y'.svc.ctx.queue = [])
    (hw : y'.svc.pc.isWaiting = true) (hfut : y'.WaitsForProcesses ids) (hstart : ∀ w, .svc (.start w) ∉ ls') (hstage : y'.svc.stage = .no)
    (hc : y'.svc.whenIdle = true ∨ y'.svc.coros = 0 ∧ .svc .threadFlags ∉ ls ++ ls') :
    ∃ ls'' y'', runSteps (Sys.stepJoint P O ids cfg K) y' ls'' = some y'' ∧ ls'' ⊆ [.svc .wake, .svc .check, .svc .finish] ∧ y''.svc.pc = .off := by
  obtain ⟨⟨r, hr⟩, _⟩ := requested hl hsv hs
  have hfl := requested_flags hl hs
  have h1 := reach_snoc h hs
  refine joint_returns hK h1 hfl.1 hrun hf hq (fun i hi => (requested_end hK h1 hr hfl.2 hst hrun hf hrest i hi).1) hstart hw hstage ?_ hfut
  refine hc.imp id fun hc => ⟨hc.1, fun hm => ?_⟩
  simp only [List.append_assoc, List.mem_append, List.mem_singleton] at hm
  rcases hm with hm | hm | hm
  · exact hc.2 (List.mem_append_left _ hm)
  · rcases hl with ⟨rfl, _⟩ | ⟨rfl, _⟩ <;> simp at hm
  · exact hc.2 (List.mem_append_right _ hm)

/-! ## The Shutdown event -/

section
variable {P : Prog} {O : Oracle} {env : Dict String} {ids : List Nat} {cfg : Nat → ProcCfg} {K : Codes}

/-- A Shutdown event that was handled has been noted by everybody. -/
theorem handle_flags {y y' : Sys} {fuel : Nat} {told : List Nat} {q : List Event} {r : String} {sig : Bool}
    {rest : List Event} (hm : shutdownHandler ∈ y.svc.ctx.handlers) (hq : y.svc.ctx.queue = .shutdown r sig :: rest)
    (hs : y.stepJoint P O ids cfg K (.handle fuel told q) = some y') (hf : y'.failed = false) :
    y'.svc.shutting = true ∧ y'.svc.ctx.isShutdown = true := by
  refine ⟨handle_shutting hm hq hs hf, ?_⟩
  obtain ⟨e, rest', s', ok, h1, h2, h3, h4, _, _, h7, _⟩ := stepHandle_state hs
  have hok : ok = true := by
    rw [h4] at hf
    cases ok with
    | true => rfl
    | false => simp at hf
  rw [h7]
  show s'.ctx.isShutdown = true
  simp only [Svc.step] at h2
  split at h2
  · obtain ⟨e', q', p, r', hq', hp, rfl⟩ := process_inv h2
    rw [hq] at hq'
    simp only [List.cons.injEq] at hq'
    obtain ⟨rfl, rfl⟩ := hq'
    obtain ⟨_, _, hk⟩ := handleAll_facts _ hp
    cases r' with
    | error err =>
      have := h3 rfl
      rw [hok] at this; cases this
    | ok u =>
      obtain ⟨_, _, _, _, h5⟩ := hk rfl
      have hin : shutdownHandler ∈ y.svc.ctx.handlers.filter (P.withService.matchesEv · (.shutdown r sig)) := by
        rw [List.mem_filter]
        exact ⟨hm, by simp [Prog.withService, shutdownHandler, includeHandler, Event.isShutdown]⟩
      show p.ctx.isShutdown = true
      rw [h5]; simp [hin]
  · cases h2

/-- A process action that waits before it starts its process again learns of the shutdown. -/
theorem handle_delaying {c : ProcCfg} {ls : List ProcLabel} {a b : ProcAct} (h : ProcAct.Reaches c ls b) (hb : b = { a with queue := b.queue }) (hd : a.task = .delaying)
    (sig : Bool) : (a.handle c (some (.shutdown sig))).1.task = .delaying ∧ (a.handle c (some (.shutdown sig))).1.shut = .done := by
  have hdb : b.task = .delaying := by rw [hb]; exact hd
  have hc := Ctl.reach h
  obtain ⟨c1, c2, _⟩ := hc.present (by rw [hdb]; simp)
  have hnd : b.comp ≠ .done := fun hh => by rw [hc.ended.mp hh] at hdb; cases hdb
  have ht : b.transport ≠ none := fun hh => by
    have h1 := retries_none h hh
    have h2 := delaying_retries h hdb
    omega
  have e1 : b.comp = a.comp := by rw [hb]
  have e2 : b.shut = a.shut := by rw [hb]
  have e3 : b.transport = a.transport := by rw [hb]
  rw [e1] at c1 hnd
  rw [e2] at c2
  rw [e3] at ht
  refine ⟨(handle_keeps c a _).2.1.trans hd, ?_⟩
  unfold ProcAct.handle ProcAct.process
  simp only
  rw [if_pos (by simpa using c1)]
  unfold ProcAct.shutdownProcess
  simp only
  by_cases hs : a.shut = .pending
  · rw [if_neg (by simp [hs]), if_neg c1, if_neg hnd, if_neg ht]
  · rw [if_pos hs]
    show a.shut = .done
    cases hv : a.shut with
    | pending => exact absurd hv hs
    | unset => exact absurd hv c2
    | done => rfl

/-- The end begins when a Shutdown event is handled. -/
theorem handled_ends (hK : K.Lawful) {ls : List JointLabel} {y y1 : Sys} (h : Sys.ReachesJoint P O env ids cfg K ls y) {fuel : Nat} {told : List Nat}
    {q : List Event} {r : String} {sig : Bool} {rest : List Event} (hq : y.svc.ctx.queue = .shutdown r sig :: rest)
    (hs : y.stepJoint P O ids cfg K (.handle fuel told q) = some y1) (hf : y1.failed = false) {i : Nat} (hi : i ∈ ids)
    (hex : (y1.act i).executed = (y.act i).executed) (hsh : (y1.act i).ctxShut = true) (hst : (y.view K i).Stoppable ∨ (y.act i).task = .delaying)
    (hp : (y1.act i).comp = .pending) : Ending (y1.view K i) := by
  have h1 := reach_snoc h hs
  obtain ⟨hqa, hreach⟩ := joint_reach hK h
  obtain ⟨ls0, h0⟩ := hreach (joint_failed hs hf) i hi
  obtain ⟨ls1, h1'⟩ := (joint_reach hK h1).2 hf i hi
  have hc0 := Ctl.reach h0
  have hc1 := Ctl.reach h1'
  have hx1 : (y1.act i).executed = true := by
    cases hh : (y1.act i).executed
    · have := congrArg ProcAct.comp (ProcAct.unexecuted_reach h1' hh).eq
      simp only [Sys.view] at this
      rw [hp] at this; cases this
    · rfl
  have hx : (y.act i).executed = true := hex ▸ hx1
  obtain ⟨e, rest', s', ok, g1, g2, g3, g4, g5, g6, g7, g8⟩ := stepHandle_state hs
  have hok : ok = true := by
    rw [g4] at hf
    cases ok with
    | true => rfl
    | false => simp at hf
  rw [hq] at g1
  simp only [List.cons.injEq] at g1
  obtain ⟨rfl, rfl⟩ := g1
  have hnex : i ∉ executedIn ids y.svc s' := by
    intro hm
    have := g6 i hm
    unfold Sys.executes at this
    split at this
    · simp [hx] at this
    · cases this
  have hkeep : (y1.act i).comp = (y.act i).comp ∧ (y1.act i).task = (y.act i).task ∧ (y1.act i).procs = (y.act i).procs := by
    rw [g8]
    exact served_keeps hnex
  refine ⟨hsh, .inr ?_⟩
  have hcp : (y.act i).comp = .pending := hkeep.1 ▸ hp
  -- the action before the event, with the flag set
  rcases hst with hst | hst
  · have hrun : runSteps (Sys.stepJoint P O ids cfg K) y [.handle fuel told q] = some y1 := by simp [runSteps, hs]
    obtain ⟨new, ls2, _, e2, _⟩ := joint_run hK hi hqa hx hrun hf
    have hask : AskedToEnd (y.view K i).queue := ⟨.shutdown sig, List.mem_filterMap.mpr ⟨_, by rw [hq]; exact List.mem_cons_self .., hK.shutdown i r sig⟩, rfl⟩
    -- what it was
    have hset : ProcAct.Reaches (cfg i) (ls0 ++ [.setShut]) { y.view K i with ctxShut := true } := by
      unfold ProcAct.Reaches at h0 ⊢
      rw [runSteps_append, h0]
      simp [runSteps, ProcAct.step]
    have hend := stoppable_ends hset rfl hask hst
    have sd : ∀ n, Pend n false (y.view K i) ∨ Hunted n false (y.view K i) → (y1.act i).task = .failed ∨ ∃ n, ((y1.view K i).complete n = true ∧ ((y1.act i).task = .running n ∨ (y1.act i).task = .spawned n)) ∨
        Pend n false (y1.view K i) ∨ Hunted n false (y1.view K i) := by
      intro n hn
      rcases doomed_run (b := false) hc0 (hn.elim (fun x => .inr (.inr (.inl x))) (fun x => .inr (.inr (.inr x)))) (by simp) e2 with x | x | x | x
      · rw [show (y1.view K i).comp = (y1.act i).comp from rfl, hp] at x; cases x
      · have hlt : n < (y.view K i).procs.length := by
          have := complete_lt x
          rw [show (y1.view K i).procs = (y1.act i).procs from rfl, hkeep.2.2] at this
          exact this
        rcases at_process hc0 hcp hn hlt with z | z | z
        · exact .inr ⟨n, .inl ⟨x, .inl (hkeep.2.1.trans z)⟩⟩
        · exact .inr ⟨n, .inl ⟨x, .inr (hkeep.2.1.trans z)⟩⟩
        · exact .inl (hkeep.2.1.trans z)
      · exact .inr ⟨n, .inr (.inl x)⟩
      · exact .inr ⟨n, .inr (.inr x)⟩
    rcases hend.2 with x | x | ⟨x, z⟩ | ⟨n, ⟨x, z⟩ | x | x⟩
    · exact absurd hcp x
    · exact .inl (hkeep.2.1.trans x)
    · refine .inr (.inl ⟨hkeep.2.1.trans x, ?_⟩)
      exact (runSteps_induct (R := fun a : ProcAct => Ctl (cfg i) a ∧ a.shut = .done) (step := ProcAct.step (cfg i))
        (fun _ _ _ a b => ⟨a.1.step b, (about_step a.1 a.2 b).1⟩) ls2 _ _ ⟨hc0, z⟩ e2).2
    · refine .inr (.inr ⟨n, .inl ⟨?_, ?_⟩⟩)
      · obtain ⟨code, e⟩ := complete_iff.mp x
        exact complete_iff.mpr ⟨code, by rw [show (y1.view K i).procs = (y1.act i).procs from rfl, hkeep.2.2]; exact e⟩
      · exact z.elim (fun z => .inl (hkeep.2.1.trans z)) (fun z => .inr (hkeep.2.1.trans z))
    · rcases sd n (.inl ⟨x.comp, x.shut, by simp, x.pos⟩) with z | z
      · exact .inl z
      · exact .inr (.inr z)
    · rcases sd n (.inr ⟨x.transport, x.task, x.shut, by simp, x.term, x.kill⟩) with z | z
      · exact .inl z
      · exact .inr (.inr z)
  · refine .inr (.inl ⟨hkeep.2.1.trans hst, ?_⟩)
    show (y1.act i).shut = .done
    rw [g8]
    show (y.served ids cfg K s' told (.shutdown r sig) i).1.shut = .done
    unfold Sys.served
    rw [if_neg hnex, if_pos ⟨hi, g5 hok i hi⟩, hK.shutdown i r sig]
    exact (handle_delaying h0 rfl hst sig).2

end

/-- **C119 After a Shutdown event all processes end.**  A Shutdown event is handled, and no process action is executed meanwhile; every process action can be stopped or waits
before it starts its process again.  Then whenever the launch has come to rest, and no handler has raised an exception, all processes of all process actions have
ended, their ends were reported, and none of the actions starts another process. -/
theorem C119_event_ends_partial (P : Prog) (O : Oracle) (env : Dict String) (ids : List Nat) (cfg : Nat → ProcCfg) (K : Codes) (hK : K.Lawful)
    (ls : List JointLabel) (y y1 : Sys) (h : Sys.ReachesJoint P O env ids cfg K ls y) (r : String) (sig : Bool) (rest : List Event)
    (hev : y.svc.ctx.queue = .shutdown r sig :: rest) (hown : shutdownHandler ∈ y.svc.ctx.handlers) (fuel : Nat) (told : List Nat) (q : List Event)
    (hs : y.stepJoint P O ids cfg K (.handle fuel told q) = some y1) (hex : ∀ i ∈ ids, (y1.act i).executed = (y.act i).executed)
    (hst : ∀ i ∈ ids, (y.view K i).Stoppable ∨ (y.act i).task = .delaying) (ls' : List JointLabel) (y' : Sys)
    (hrun : runSteps (Sys.stepJoint P O ids cfg K) y1 ls' = some y') (hf : y'.failed = false) (hrest : y'.AtRest cfg ids) :
    ∀ i ∈ ids, (y'.act i).Over (cfg i) := by
  intro i hi
  have h1 := reach_snoc h hs
  have hf1 := joint_failed_run hrun hf
  have hcs := ctxShut_reach h1 (handle_flags hown hev hs hf1).2 i
  obtain ⟨d1, d2, d3, d4⟩ := hrest i hi
  exact (joint_over hK h1 hi hcs (handled_ends hK h hev hs hf1 hi (hex i hi) hcs (hst i hi)) hrun hf d1 d2 d3 d4).2

/-- **C119 … and `run` returns**, as above. -/
theorem C119_event_returns_partial (P : Prog) (O : Oracle) (env : Dict String) (ids : List Nat) (cfg : Nat → ProcCfg) (K : Codes) (hK : K.Lawful)
    (ls : List JointLabel) (y y1 : Sys) (h : Sys.ReachesJoint P O env ids cfg K ls y) (r : String) (sig : Bool) (rest : List Event)
    (hev : y.svc.ctx.queue = .shutdown r sig :: rest) (hown : shutdownHandler ∈ y.svc.ctx.handlers) (fuel : Nat) (told : List Nat) (q : List Event)
    (hs : y.stepJoint P O ids cfg K (.handle fuel told q) = some y1) (hex : ∀ i ∈ ids, (y1.act i).executed = (y.act i).executed)
    (hst : ∀ i ∈ ids, (y.view K i).Stoppable ∨ (y.act i).task = .delaying) (ls' : List JointLabel) (y' : Sys)
    (hrun : runSteps (Sys.stepJoint P O ids cfg K) y1 ls' = some y') (hf : y'.failed = false) (hrest : y'.AtRest cfg ids) (hq : y'.svc.ctx.queue = [])
    (hw : y'.svc.pc.isWaiting = true) (hfut : y'.WaitsForProcesses ids) (hstart : ∀ w, .svc (.start w) ∉ ls') (hstage : y'.svc.stage = .no)
    (hc : y'.svc.whenIdle = true ∨ y'.svc.coros = 0 ∧ .svc .threadFlags ∉ ls ++ ls') :
    ∃ ls'' y'', runSteps (Sys.stepJoint P O ids cfg K) y' ls'' = some y'' ∧ ls'' ⊆ [.svc .wake, .svc .check, .svc .finish] ∧ y''.svc.pc = .off := by
  have h1 := reach_snoc h hs
  have hf1 := joint_failed_run hrun hf
  have hfl := handle_flags hown hev hs hf1
  refine joint_returns hK h1 hfl.1 hrun hf hq (fun i hi => ?_) hstart hw hstage ?_ hfut
  · have hcs := ctxShut_reach h1 hfl.2 i
    obtain ⟨d1, d2, d3, d4⟩ := hrest i hi
    exact (joint_over hK h1 hi hcs (handled_ends hK h hev hs hf1 hi (hex i hi) hcs (hst i hi)) hrun hf d1 d2 d3 d4).1
  · refine hc.imp id fun hc => ⟨hc.1, fun hm => ?_⟩
    simp only [List.append_assoc, List.mem_append, List.mem_singleton] at hm
    rcases hm with hm | hm | hm
    · exact hc.2 (List.mem_append_left _ hm)
    · cases hm
    · exact hc.2 (List.mem_append_right _ hm)

/-! ## Examples -/

/-- The processes react to SIGINT; the last event is handled. -/
def endsAfter : List JointLabel :=
  jointServe [signalOf 0 .int, signalOf 1 .int] ++ jointServe [] ++ jointServe [] ++ [.proc 0 (.procExit 0 0), .proc 0 .observe] ++ jointServe [] ++
    [.proc 1 (.procExit 0 (-2)), .proc 1 .observe, .handle 9 [0, 1] []]

/-- The hypotheses are met: both actions can be stopped, the launch comes to rest, and all it waits for is done. -/
example : ∃ y1 y', jointRun jointProg (jointBoth ++ [.svc .shutdownSync]) = some y1 ∧ (∀ i ∈ [0, 1], (y1.view sampleCodes i).Stoppable) ∧
    jointRun jointProg (jointBoth ++ [.svc .shutdownSync] ++ endsAfter) = some y' ∧ y'.failed = false ∧ y'.svc.pc.isWaiting = true ∧ y'.WaitsForProcesses [0, 1] ∧
    y'.AtRest (fun _ => { sigtermTimeout := 1, sigkillTimeout := 1 }) [0, 1] := by
  have e1 : (jointRun jointProg (jointBoth ++ [.svc .shutdownSync])).map (fun y => ((y.act 0).shut, (y.act 0).task, (y.act 1).shut, (y.act 1).task)) =
      some (.pending, .running 0, .pending, .running 0) := by decide +kernel
  have e2 : (jointRun jointProg (jointBoth ++ [.svc .shutdownSync] ++ endsAfter)).map (fun y => (y.svc.ctx.queue, y.act 0)) =
      some ([], { executed := true, comp := .done, shut := .done, transport := some 0, procs := [some 0], task := .ended, sigterm := .cancelled, sigkill := .cancelled,
                  ctxShut := true, log := [.started 0, .exited 0 0], signals := [⟨.int, 0, 0, true⟩], shutAt := some 0, resolved := 1 }) := by decide +kernel
  have e3 : (jointRun jointProg (jointBoth ++ [.svc .shutdownSync] ++ endsAfter)).map (fun y => y.act 1) =
      some { executed := true, comp := .done, shut := .done, transport := some 0, procs := [some (-2)], task := .ended, sigterm := .cancelled, sigkill := .cancelled,
             ctxShut := true, log := [.started 0, .exited 0 (-2)], signals := [⟨.int, 0, 0, true⟩], shutAt := some 0, resolved := 1 } := by decide +kernel
  have e4 : (jointRun jointProg (jointBoth ++ [.svc .shutdownSync] ++ endsAfter)).map
      (fun y => (y.failed, y.svc.pc.isWaiting, (y.svc.pairs.map (·.2) ++ y.svc.ctx.completion).all fun f => y.svc.isDone f)) = some (false, true, true) := by decide +kernel
  cases h1 : jointRun jointProg (jointBoth ++ [.svc .shutdownSync]) with
  | none => rw [h1] at e1; cases e1
  | some y1 =>
    cases h2 : jointRun jointProg (jointBoth ++ [.svc .shutdownSync] ++ endsAfter) with
    | none => rw [h2] at e2; cases e2
    | some y' =>
      rw [h1] at e1
      rw [h2] at e2 e3 e4
      simp only [Option.map_some, Option.some.injEq, Prod.mk.injEq] at e1 e2 e3 e4
      refine ⟨y1, y', rfl, ?_, rfl, e4.1, e4.2.1, ?_, ?_⟩
      · intro i hi
        simp only [List.mem_cons, List.not_mem_nil, or_false] at hi
        rcases hi with rfl | rfl
        · exact .inr (.inr (.inl ⟨0, e1.2.1, .inl e1.1⟩))
        · exact .inr (.inr (.inl ⟨0, e1.2.2.2, .inl e1.2.2.1⟩))
      · exact fun f hf => .inl (List.all_eq_true.mp e4.2.2 f (List.mem_append.mpr hf))
      · intro i hi
        simp only [List.mem_cons, List.not_mem_nil, or_false] at hi
        rcases hi with rfl | rfl
        · rw [Sys.NothingDue, Sys.SettledFor, e2.1, e2.2]
          refine ⟨⟨⟨rfl, fun s => by cases s <;> exact ⟨rfl, rfl⟩⟩, ?_⟩, by simp, ?_, ?_⟩
          · intro l hl
            simp only [List.mem_cons, List.not_mem_nil, or_false] at hl
            rcases hl with rfl | rfl | rfl | rfl | rfl <;> rfl
          · rintro ⟨d, hd, _⟩; cases hd
          · rintro n _ ⟨hr, _⟩; cases hr
        · rw [Sys.NothingDue, Sys.SettledFor, e2.1, e3]
          refine ⟨⟨⟨rfl, fun s => by cases s <;> exact ⟨rfl, rfl⟩⟩, ?_⟩, by simp, ?_, ?_⟩
          · intro l hl
            simp only [List.mem_cons, List.not_mem_nil, or_false] at hl
            rcases hl with rfl | rfl | rfl | rfl | rfl <;> rfl
          · rintro ⟨d, hd, _⟩; cases hd
          · rintro n _ ⟨hr, _⟩; cases hr

/-- … and the run returns. -/
example : (jointRun jointProg (jointBoth ++ [.svc .shutdownSync] ++ endsAfter)).map (fun y => (y.svc.ctx.queue, y.svc.whenIdle, decide (y.svc.stage = .no))) =
      some ([], true, true) ∧
    (jointRun jointProg (jointBoth ++ [.svc .shutdownSync] ++ endsAfter ++ [.svc .wake, .svc .check, .svc .finish])).map (fun y => (y.svc.pc, y.svc.result)) =
      some (.off, some false) := ⟨by decide +kernel, by decide +kernel⟩

/-- The same with a Shutdown event that a user emits: before it is handled … -/
example : (jointRun jointProg (jointBoth ++ [.svc (.emit (.shutdown "bye" false))])).map
      (fun y => (y.svc.ctx.queue, decide (shutdownHandler ∈ y.svc.ctx.handlers), (y.act 0).shut, (y.act 0).task, (y.act 1).shut, (y.act 1).task)) =
      some ([.shutdown "bye" false], true, .pending, .running 0, .pending, .running 0) ∧
    (jointRun jointProg (jointBoth ++ [.svc (.emit (.shutdown "bye" false))] ++ endsAfter ++ [.svc .wake, .svc .check, .svc .finish])).map
      (fun y => (y.failed, y.svc.pc, (y.act 0).task, (y.act 1).task)) = some (false, .off, .ended, .ended) := ⟨by decide +kernel, by decide +kernel⟩

/-- Process 0 of action 1 has ended and is about to be started again when the launch is asked to shut down.  Before it is started, SIGTERM and SIGKILL are sent to the old one. -/
def restartAfter : List JointLabel :=
  jointBoth ++ [.proc 1 (.procExit 0 0), .proc 1 .observe] ++ jointServe [] ++ [.svc .shutdownSync] ++ jointServe [signalOf 0 .int, signalOf 1 .int] ++ jointServe [] ++
    jointServe [] ++ [.proc 0 (.procExit 0 0), .proc 0 .observe] ++ jointServe [] ++
    [.proc 1 (.timerBegin .term), .proc 1 (.timerBegin .kill), .proc 1 .tick, .proc 1 (.timerFire .term)] ++ jointServe [signalOf 1 .term] ++ jointServe [] ++
    [.proc 1 .tick, .proc 1 (.timerFire .kill)] ++ jointServe [signalOf 1 .kill] ++ jointServe [] ++ jointSpawn 1

/-- C119 is violated when a process is about to be started again: it is started although the launch shuts down, no signal is sent to it, nothing is due any more, and `run` waits
until it ends by itself.  (That the restart takes longer than both timeouts is needed for this; they may be zero.) -/
theorem C119_restart_violated :
    (runSteps (Sys.stepJoint jointProg sampleOracle [0, 1] (fun _ => { sigtermTimeout := 1, sigkillTimeout := 1, respawn := true }) sampleCodes) { svc := Svc.init [] }
        restartAfter).map (fun y => (y.failed, y.svc.ctx.queue, y.svc.shutting, y.svc.pc)) = some (false, [], true, .waiting [1]) ∧
    (runSteps (Sys.stepJoint jointProg sampleOracle [0, 1] (fun _ => { sigtermTimeout := 1, sigkillTimeout := 1, respawn := true }) sampleCodes) { svc := Svc.init [] }
        restartAfter).map (fun y => ((y.act 0).task, (y.act 1).task, (y.act 1).procs, (y.act 1).signals)) =
      some (.ended, .running 1, [some 0, none], []) ∧
    (runSteps (Sys.stepJoint jointProg sampleOracle [0, 1] (fun _ => { sigtermTimeout := 1, sigkillTimeout := 1, respawn := true }) sampleCodes) { svc := Svc.init [] }
        restartAfter).map (fun y => [ProcLabel.begin true, .spawn, .attach, .observe, .delayOver, .timerBegin .term, .timerFire .term, .timerBegin .kill, .timerFire .kill].all
          fun l => ((y.act 1).step { sigtermTimeout := 1, sigkillTimeout := 1, respawn := true } l).isNone) = some true :=
  ⟨by decide +kernel, by decide +kernel, by decide +kernel⟩

end Verif
