import Verif.Spec.ExecuteLocal

/-! # Lemmas about process actions -/

namespace Verif
namespace ProcAct

/-- What handling events can change. -/
structure Frame (a a' : ProcAct) : Prop where
  rest : a' = { a with
    queue := a'.queue, ctxShut := a'.ctxShut, shut := a'.shut, deferred := a'.deferred, sigterm := a'.sigterm,
    sigkill := a'.sigkill, shutAt := a'.shutAt, signals := a'.signals, raised := a'.raised }
  shutUnset : a'.shut = .unset ↔ a.shut = .unset
  shutDone : a.shut = .done → a'.shut = .done
  ctxShut : a.ctxShut = true → a'.ctxShut = true

theorem Frame.refl (a : ProcAct) : Frame a a := ⟨rfl, Iff.rfl, id, id⟩

theorem Frame.trans {a b c : ProcAct} (h1 : Frame a b) (h2 : Frame b c) : Frame a c := by
  refine ⟨?_, h2.shutUnset.trans h1.shutUnset, fun h => h2.shutDone (h1.shutDone h), fun h => h2.ctxShut (h1.ctxShut h)⟩
  have e2 := h2.rest
  rw [h1.rest] at e2
  exact e2

theorem shutdownProcess_frame (b : Bool) (a : ProcAct) : Frame a (a.shutdownProcess b) := by
  unfold shutdownProcess
  split
  · exact Frame.refl a
  · rename_i h
    have h : a.shut = .pending := by simpa using h
    repeat' split
    all_goals exact ⟨rfl, by simp [h], by simp [h], id⟩

theorem deferred_frame (bs : List Bool) : ∀ a : ProcAct, Frame a (bs.foldl (fun a b => a.shutdownProcess b) a) := by
  induction bs with
  | nil => exact Frame.refl
  | cons b bs ih => intro a; exact (shutdownProcess_frame b a).trans (ih _)

theorem onSignal_frame (s : Sig) (o : Bool) (a : ProcAct) : Frame a (a.onSignal s o) := by
  unfold onSignal
  repeat' split
  all_goals exact ⟨rfl, Iff.rfl, id, id⟩

theorem process_frame {c : ProcCfg} {a a' : ProcAct} (h : a.process c = some a') : Frame a a' := by
  unfold process at h
  split at h
  · cases h
  · rename_i e q hq
    simp only [Option.some.injEq] at h
    have hpop : Frame a { a with queue := q } := ⟨rfl, Iff.rfl, id, id⟩
    refine hpop.trans ?_
    subst h
    cases e with
    | shutdownProcess m => simp only; split; exact shutdownProcess_frame _ _; exact Frame.refl _
    | signal s m o => simp only; split; exact onSignal_frame _ _ _; exact Frame.refl _
    | shutdown sig =>
      simp only
      have h1 : Frame { a with queue := q } { a with queue := q, ctxShut := true } := ⟨rfl, Iff.rfl, id, fun _ => rfl⟩
      split
      · exact h1.trans (shutdownProcess_frame _ _)
      · exact h1
    | started n => exact deferred_frame _ _
    | otherStarted => exact deferred_frame _ _
    | exited n code => exact Frame.refl _
    | timer s => exact ⟨rfl, Iff.rfl, id, id⟩

/-- Logs of processes `0 … n-1` that all exited. -/
inductive Closed : Nat → List ProcEv → Prop
  | nil : Closed 0 []
  | snoc (n : Nat) (l : List ProcEv) (code : Int) : Closed n l → Closed (n + 1) (l ++ [.started n, .exited n code])

theorem Closed.append {n : Nat} {l : List ProcEv} (h : Closed n l) : ∀ r, Lifecycles n r → Lifecycles 0 (l ++ r) := by
  induction h with
  | nil => intro r hr; exact hr
  | snoc n l code _ ih =>
    intro r hr
    rw [List.append_assoc]
    exact ih _ (.exited n code r hr)

/-- The control invariant. -/
structure Ctl (c : ProcCfg) (a : ProcAct) : Prop where
  absent : a.task = .absent → a.comp = .unset ∧ a.shut = .unset ∧ a.procs = [] ∧ a.log = [] ∧ a.transport = none ∧ a.retries = 0
  present : a.task ≠ .absent → a.comp ≠ .unset ∧ a.shut ≠ .unset ∧ a.executed = true
  ended : a.comp = .done ↔ a.task = .ended
  resolved : a.resolved = if a.comp = .done then 1 else 0
  length : match a.task with
    | .scheduled | .starting | .delaying => a.procs.length = a.retries
    | .spawned n | .running n => a.procs.length = n + 1 ∧ n = a.retries
    | _ => a.procs.length ≤ a.retries + 1
  transport : ∀ n, a.transport = some n → n < a.procs.length ∧ (a.task = .running n ∨ a.complete n = true)
  running : ∀ n, a.task = .running n → a.transport = some n
  log : match a.task with
    | .running n => ∃ l, Closed n l ∧ a.log = l ++ [.started n]
    | .spawned n => Closed n a.log
    | _ => Closed a.procs.length a.log
  codes : ∀ n code, .exited n code ∈ a.log → a.procs[n]? = some (some code)
  limit : (0 < a.retries → c.respawn = true) ∧ (0 ≤ c.maxRetries → (a.retries : Int) ≤ c.maxRetries)

theorem Ctl.frame {c : ProcCfg} {a a' : ProcAct} (h : Ctl c a) (hf : Frame a a') : Ctl c a' := by
  have hr := hf.rest
  have e1 : a'.task = a.task := by rw [hr]
  have e2 : a'.comp = a.comp := by rw [hr]
  have e3 : a'.procs = a.procs := by rw [hr]
  have e4 : a'.log = a.log := by rw [hr]
  have e5 : a'.transport = a.transport := by rw [hr]
  have e6 : a'.retries = a.retries := by rw [hr]
  have e7 : a'.resolved = a.resolved := by rw [hr]
  have e8 : a'.executed = a.executed := by rw [hr]
  constructor
  · rw [e1, e2, hf.shutUnset, e3, e4, e5, e6]; exact h.absent
  · rw [e1, e2, e8]; intro hp; obtain ⟨x, y, z⟩ := h.present hp; exact ⟨x, fun hs => y (hf.shutUnset.mp hs), z⟩
  · rw [e1, e2]; exact h.ended
  · rw [e2, e7]; exact h.resolved
  · rw [e1, e3, e6]; exact h.length
  · unfold complete; rw [e1, e3, e5]; exact h.transport
  · rw [e1, e5]; exact h.running
  · rw [e1, e3, e4]; exact h.log
  · rw [e3, e4]; exact h.codes
  · rw [e6]; exact h.limit

/-- Ending the coroutine. -/
theorem Ctl.cleanup {c : ProcCfg} {a : ProcAct} (h : Ctl c a) (hp : a.comp = .pending)
    (ht : ∀ n, a.transport = some n → a.complete n = true) (hl : Closed a.procs.length a.log)
    (hlen : a.procs.length ≤ a.retries + 1) (hx : a.shut ≠ .unset ∧ a.executed = true) : Ctl c a.cleanup := by
  have hr := h.resolved
  rw [hp] at hr
  simp at hr
  exact ⟨fun hq => (by cases hq), fun _ => ⟨by simp [ProcAct.cleanup], hx.1, hx.2⟩, by simp [ProcAct.cleanup],
    by simp [ProcAct.cleanup, hr], hlen, fun n hn => ⟨(h.transport n hn).1, .inr (ht n hn)⟩, fun n hq => (by cases hq),
    hl, h.codes, h.limit⟩

theorem complete_append {a : ProcAct} {n : Nat} (h : a.complete n = true) (x : List (Option Int)) :
    ({ a with procs := a.procs ++ x } : ProcAct).complete n = true := by
  unfold complete at h ⊢
  split at h
  · rename_i code hc
    have : (a.procs ++ x)[n]? = some (some code) := by
      obtain ⟨hi, he⟩ := List.getElem?_eq_some_iff.mp hc
      rw [List.getElem?_append_left hi]; exact hc
    simp [this]
  · cases h

theorem pending_of {c : ProcCfg} {a : ProcAct} (h : Ctl c a) (hp : a.task ≠ .absent) (hn : a.task ≠ .ended) : a.comp = .pending := by
  cases hc : a.comp with
  | unset => exact absurd hc (h.present hp).1
  | done => exact absurd (h.ended.mp hc) hn
  | pending => rfl

theorem Ctl.step {c : ProcCfg} {a a' : ProcAct} {l : ProcLabel} (h : Ctl c a) (hs : a.step c l = some a') : Ctl c a' := by
  cases l with
  | execute =>
    simp only [ProcAct.step, Option.some.injEq] at hs; subst hs
    unfold execute
    split
    · exact ⟨h.absent, h.present, h.ended, h.resolved, h.length, h.transport, h.running, h.log, h.codes, h.limit⟩
    · rename_i hx
      have ht : a.task = .absent := by
        cases ht : a.task with
        | absent => rfl
        | _ => exact absurd (h.present (by rw [ht]; simp)).2.2 hx
      obtain ⟨h1, h2, h3, h4, h5, h6⟩ := h.absent ht
      simp only
      split
      · exact ⟨h.absent, fun hq => absurd ht hq, h.ended, h.resolved, h.length, h.transport, h.running, h.log, h.codes, h.limit⟩
      · have hr := h.resolved
        rw [h1] at hr
        refine ⟨fun hq => (by cases hq), fun _ => ⟨by simp, by simp, rfl⟩, by simp, by simpa using hr, ?_, ?_, fun n hq => (by cases hq), ?_,
          h.codes, h.limit⟩
        · show a.procs.length = a.retries
          rw [h3, h6]; rfl
        · intro n hn
          rw [show a.transport = some n from hn] at h5; cases h5
        · show Closed a.procs.length a.log
          rw [h3, h4]; exact .nil
  | begin ok =>
    simp only [ProcAct.step] at hs
    split at hs
    · rename_i ht
      simp only [Option.some.injEq] at hs; subst hs
      have hpr := h.present (by rw [ht]; simp)
      have hpe := pending_of h (by rw [ht]; simp) (by rw [ht]; simp)
      have hl := h.length
      have hg := h.log
      rw [ht] at hl hg
      have htr : ∀ n, a.transport = some n → n < a.procs.length ∧ a.complete n = true := by
        intro n hn
        obtain ⟨x, y⟩ := h.transport n hn
        exact ⟨x, y.resolve_left (by rw [ht]; simp)⟩
      cases ok with
      | true =>
        exact ⟨fun hq => (by cases hq), fun _ => hpr, by simp [hpe], h.resolved, hl,
          fun n hn => ⟨(htr n hn).1, .inr (htr n hn).2⟩, fun n hq => (by cases hq), hg, h.codes, h.limit⟩
      | false =>
        exact ⟨fun hq => (by cases hq), fun _ => hpr, by simp [hpe], h.resolved, by show a.procs.length ≤ a.retries + 1; omega,
          fun n hn => ⟨(htr n hn).1, .inr (htr n hn).2⟩, fun n hq => (by cases hq), hg, h.codes, h.limit⟩
    · cases hs
  | spawn =>
    simp only [ProcAct.step] at hs
    split at hs
    · rename_i ht
      simp only [Option.some.injEq] at hs; subst hs
      have hpr := h.present (by rw [ht]; simp)
      have hpe := pending_of h (by rw [ht]; simp) (by rw [ht]; simp)
      have hl := h.length
      have hg := h.log
      rw [ht] at hl hg
      refine ⟨fun hq => (by cases hq), fun _ => hpr, by simp [hpe], h.resolved, ⟨by simp, hl⟩, fun n hn => ?_,
        fun n hq => (by cases hq), hg, fun n code hm => ?_, h.limit⟩
      · obtain ⟨x, y⟩ := h.transport n hn
        have y := y.resolve_left (by rw [ht]; simp)
        exact ⟨by simp; omega, .inr (complete_append y [none])⟩
      · have := h.codes n code hm
        obtain ⟨hi, he⟩ := List.getElem?_eq_some_iff.mp this
        show (a.procs ++ [none])[n]? = _
        rw [List.getElem?_append_left hi]; exact this
    · cases hs
  | spawnFail =>
    simp only [ProcAct.step] at hs
    split at hs
    · rename_i ht
      simp only [Option.some.injEq] at hs; subst hs
      have hpr := h.present (by rw [ht]; simp)
      have hpe := pending_of h (by rw [ht]; simp) (by rw [ht]; simp)
      have hl := h.length
      have hg := h.log
      rw [ht] at hl hg
      refine h.cleanup hpe (fun n hn => ?_) hg (by omega) hpr.2
      exact (h.transport n hn).2.resolve_left (by rw [ht]; simp)
    · cases hs
  | attach =>
    simp only [ProcAct.step] at hs
    split at hs
    · rename_i n ht
      simp only [Option.some.injEq] at hs; subst hs
      have hpr := h.present (by rw [ht]; simp)
      have hpe := pending_of h (by rw [ht]; simp) (by rw [ht]; simp)
      have hl := h.length
      have hg := h.log
      rw [ht] at hl hg
      refine ⟨fun hq => (by cases hq), fun _ => hpr, by simp [hpe], h.resolved, hl, fun m hm => ?_, fun m hm => ?_,
        ⟨a.log, hg, rfl⟩, fun m code hm => ?_, h.limit⟩
      · simp at hm; subst hm
        exact ⟨by show n < a.procs.length; omega, .inl rfl⟩
      · simp at hm ⊢; exact hm
      · rcases List.mem_append.mp hm with hm | hm
        · exact h.codes m code hm
        · simp at hm
    · cases hs
  | procExit n code =>
    simp only [ProcAct.step] at hs
    split at hs
    · rename_i hn
      simp only [Option.some.injEq] at hs; subst hs
      have hlt : n < a.procs.length := (List.getElem?_eq_some_iff.mp hn).1
      refine ⟨fun hq => ?_, h.present, h.ended, h.resolved, ?_, fun m hm => ?_, h.running, ?_, fun m code' hm => ?_, h.limit⟩
      · rw [(h.absent hq).2.2.1] at hn; simp at hn
      · have hl := h.length
        simp only [List.length_set]; exact hl
      · obtain ⟨x, y⟩ := h.transport m hm
        refine ⟨by simpa using x, y.imp id fun hc => ?_⟩
        unfold complete at hc ⊢
        by_cases hmn : n = m
        · subst hmn; simp [hlt]
        · simp only [List.getElem?_set_ne hmn]; exact hc
      · have hg := h.log
        simp only [List.length_set]; exact hg
      · have hc := h.codes m code' hm
        by_cases hmn : n = m
        · subst hmn; rw [hn] at hc; cases hc
        · show (a.procs.set n _)[m]? = _
          rw [List.getElem?_set_ne hmn]; exact hc
    · cases hs
  | observe =>
    simp only [ProcAct.step] at hs
    split at hs
    · rename_i n ht
      split at hs
      · rename_i code hc
        simp only [Option.some.injEq] at hs; subst hs
        have hpr := h.present (by rw [ht]; simp)
        have hpe := pending_of h (by rw [ht]; simp) (by rw [ht]; simp)
        have hl := h.length
        have hg := h.log
        rw [ht] at hl hg
        obtain ⟨l, hcl, hlog⟩ := hg
        have hcl' : Closed a.procs.length (a.log ++ [.exited n code]) := by
          rw [hlog, hl.1, List.append_assoc]
          exact .snoc n l code hcl
        have htr : ∀ m, a.transport = some m → m < a.procs.length ∧ a.complete m = true := by
          intro m hm
          refine ⟨(h.transport m hm).1, ?_⟩
          rw [h.running n ht] at hm
          simp only [Option.some.injEq] at hm; subst hm
          unfold complete; rw [hc]
        have hcodes : ∀ m code', ProcEv.exited m code' ∈ a.log ++ [.exited n code] → a.procs[m]? = some (some code') := by
          intro m code' hm
          rcases List.mem_append.mp hm with hm | hm
          · exact h.codes m code' hm
          · simp at hm; rw [hm.1, hm.2]; exact hc
        unfold observe
        simp only
        split
        · rename_i hg
          simp only [Bool.and_eq_true, Bool.or_eq_true, decide_eq_true_eq] at hg
          obtain ⟨⟨⟨_, _⟩, hre⟩, hmax⟩ := hg
          have hlim : (0 < a.retries + 1 → c.respawn = true) ∧ (0 ≤ c.maxRetries → ((a.retries + 1 : Nat) : Int) ≤ c.maxRetries) :=
            ⟨fun _ => hre, fun h0 => by omega⟩
          cases c.delayed with
          | true =>
            exact ⟨fun hq => (by cases hq), fun _ => hpr, by simp [hpe], h.resolved, by show a.procs.length = a.retries + 1; omega,
              fun m hm => ⟨(htr m hm).1, .inr (htr m hm).2⟩, fun m hq => (by cases hq), hcl', hcodes, hlim⟩
          | false =>
            exact ⟨fun hq => (by cases hq), fun _ => hpr, by simp [hpe], h.resolved, by show a.procs.length = a.retries + 1; omega,
              fun m hm => ⟨(htr m hm).1, .inr (htr m hm).2⟩, fun m hq => (by cases hq), hcl', hcodes, hlim⟩
        · have hr := h.resolved
          rw [hpe] at hr
          simp at hr
          exact ⟨fun hq => (by cases hq), fun _ => ⟨by simp [ProcAct.cleanup], hpr.2⟩, by simp [ProcAct.cleanup],
            by simp [ProcAct.cleanup, hr], by show a.procs.length ≤ a.retries + 1; omega,
            fun m hm => ⟨(htr m hm).1, .inr (htr m hm).2⟩, fun m hq => (by cases hq), hcl', hcodes, h.limit⟩
      · cases hs
    · cases hs
  | delayOver =>
    simp only [ProcAct.step] at hs
    split at hs
    · rename_i ht
      simp only [Option.some.injEq] at hs; subst hs
      have hpr := h.present (by rw [ht]; simp)
      have hpe := pending_of h (by rw [ht]; simp) (by rw [ht]; simp)
      have hl := h.length
      have hg := h.log
      rw [ht] at hl hg
      have htr : ∀ n, a.transport = some n → n < a.procs.length ∧ a.complete n = true := by
        intro n hn
        obtain ⟨x, y⟩ := h.transport n hn
        exact ⟨x, y.resolve_left (by rw [ht]; simp)⟩
      split
      · exact h.cleanup hpe (fun n hn => (htr n hn).2) hg (by omega) hpr.2
      · exact ⟨fun hq => (by cases hq), fun _ => hpr, by simp [hpe], h.resolved, hl,
          fun n hn => ⟨(htr n hn).1, .inr (htr n hn).2⟩, fun n hq => (by cases hq), hg, h.codes, h.limit⟩
    · cases hs
  | timerBegin s =>
    simp only [ProcAct.step] at hs
    split at hs
    · simp only [Option.some.injEq] at hs; subst hs
      refine h.frame ?_
      cases s <;> exact ⟨rfl, Iff.rfl, id, id⟩
    · cases hs
  | timerFire s =>
    simp only [ProcAct.step] at hs
    split at hs
    · split at hs
      · simp only [Option.some.injEq] at hs; subst hs
        refine h.frame ?_
        cases s <;> exact ⟨rfl, Iff.rfl, id, id⟩
      · cases hs
    · cases hs
  | tick =>
    simp only [ProcAct.step, Option.some.injEq] at hs; subst hs
    exact ⟨h.absent, h.present, h.ended, h.resolved, h.length, h.transport, h.running, h.log, h.codes, h.limit⟩
  | ask b =>
    simp only [ProcAct.step, Option.some.injEq] at hs; subst hs
    exact h.frame (shutdownProcess_frame b a)
  | setShut =>
    simp only [ProcAct.step, Option.some.injEq] at hs; subst hs
    exact h.frame ⟨rfl, Iff.rfl, id, fun _ => rfl⟩
  | emit e =>
    simp only [ProcAct.step] at hs
    split at hs
    · simp only [Option.some.injEq] at hs; subst hs
      exact h.frame ⟨rfl, Iff.rfl, id, id⟩
    · cases hs
  | process => exact h.frame (process_frame hs)

theorem Ctl.init (c : ProcCfg) : Ctl c {} :=
  ⟨fun _ => ⟨rfl, rfl, rfl, rfl, rfl, rfl⟩, fun hq => absurd rfl hq, by simp, rfl, by simp, fun n hn => (by cases hn),
    fun n hn => (by cases hn), .nil, fun n code hm => (by cases hm), by simp⟩

theorem Ctl.run {c : ProcCfg} {ls : List ProcLabel} {a a' : ProcAct} (h : Ctl c a)
    (hr : runSteps (ProcAct.step c) a ls = some a') : Ctl c a' :=
  runSteps_induct (R := Ctl c) (fun _ _ _ h hs => h.step hs) ls _ _ h hr

theorem Ctl.executed_of_done {c : ProcCfg} {a : ProcAct} (h : Ctl c a) (hd : a.shut = .done) : a.executed = true := by
  by_cases ht : a.task = .absent
  · rw [(h.absent ht).2.1] at hd; cases hd
  · exact (h.present ht).2.2

theorem Ctl.reach {c : ProcCfg} {ls : List ProcLabel} {a : ProcAct} (h : ProcAct.Reaches c ls a) : Ctl c a :=
  (Ctl.init c).run h

/-! ## Signals -/

/-- A signal event the action emitted to interrupt its process. -/
def ownInt : ProcEv → Bool
  | .signal .int _ true => true
  | .timer .int => true
  | _ => false

/-- An interrupt the action delivered. -/
def ownIntD (d : Delivered) : Bool := d.own && decide (d.sig = .int)

/-- Interrupts that were sent, will be, or may still be. -/
def tokens (a : ProcAct) : Nat :=
  a.signals.countP ownIntD + a.queue.countP ownInt + (if a.shut = .done then 0 else 1)

theorem tokens_shutdownProcess (b : Bool) (a : ProcAct) : (a.shutdownProcess b).tokens ≤ a.tokens := by
  unfold shutdownProcess
  split
  · exact Nat.le_refl _
  · rename_i h
    have h : a.shut = .pending := by simpa using h
    repeat' split
    all_goals simp_all [tokens]
    all_goals simp [ownInt]
    all_goals omega

theorem tokens_deferred (bs : List Bool) : ∀ a : ProcAct, (bs.foldl (fun a b => a.shutdownProcess b) a).tokens ≤ a.tokens := by
  induction bs with
  | nil => intro a; exact Nat.le_refl _
  | cons b bs ih => intro a; exact Nat.le_trans (ih _) (tokens_shutdownProcess b a)

theorem tokens_pop (a : ProcAct) (e : ProcEv) (q : List ProcEv) (h : a.queue = e :: q) :
    ({ a with queue := q } : ProcAct).tokens + (if ownInt e then 1 else 0) = a.tokens := by
  simp only [tokens, h, List.countP_cons]; omega

theorem tokens_onSignal (s : Sig) (o : Bool) (a : ProcAct) :
    (a.onSignal s o).tokens ≤ a.tokens + (if ownInt (.signal s true o) then 1 else 0) := by
  unfold onSignal
  split
  · simp [tokens]
  · split
    · omega
    · cases o <;> cases s <;> simp [tokens, ownInt, ownIntD, List.countP_append] <;> omega

theorem tokens_step {c : ProcCfg} {a a' : ProcAct} {l : ProcLabel} (hs : a.step c l = some a')
    (hex : a.shut = .done → a.executed = true) : a'.tokens ≤ a.tokens := by
  cases l with
  | execute =>
    simp only [ProcAct.step, Option.some.injEq] at hs; subst hs
    unfold execute
    split
    · exact Nat.le_refl _
    · rename_i hx
      have hd : a.shut ≠ .done := fun h => hx (hex h)
      simp only
      split
      · exact Nat.le_refl _
      · simp [tokens, hd]
  | begin ok =>
    simp only [ProcAct.step] at hs
    split at hs
    · simp only [Option.some.injEq] at hs; subst hs; exact Nat.le_refl _
    · cases hs
  | spawn =>
    simp only [ProcAct.step] at hs
    split at hs
    · simp only [Option.some.injEq] at hs; subst hs; exact Nat.le_refl _
    · cases hs
  | spawnFail =>
    simp only [ProcAct.step] at hs
    split at hs
    · simp only [Option.some.injEq] at hs; subst hs; exact Nat.le_refl _
    · cases hs
  | attach =>
    simp only [ProcAct.step] at hs
    split at hs
    · simp only [Option.some.injEq] at hs; subst hs; simp [tokens, ownInt]
    · cases hs
  | procExit n code =>
    simp only [ProcAct.step] at hs
    split at hs
    · simp only [Option.some.injEq] at hs; subst hs; exact Nat.le_refl _
    · cases hs
  | observe =>
    simp only [ProcAct.step] at hs
    split at hs
    · split at hs
      · simp only [Option.some.injEq] at hs; subst hs
        unfold observe
        simp only
        split
        · simp [tokens, ownInt]
        · simp only [tokens, ProcAct.cleanup, List.countP_append]
          exact Nat.le_refl _
      · cases hs
    · cases hs
  | delayOver =>
    simp only [ProcAct.step] at hs
    split at hs
    · simp only [Option.some.injEq] at hs; subst hs
      split <;> exact Nat.le_refl _
    · cases hs
  | timerBegin s =>
    simp only [ProcAct.step] at hs
    split at hs
    · simp only [Option.some.injEq] at hs; subst hs; cases s <;> exact Nat.le_refl _
    · cases hs
  | timerFire s =>
    simp only [ProcAct.step] at hs
    split at hs
    · split at hs
      · simp only [Option.some.injEq] at hs; subst hs
        rename_i ht _
        cases s with
        | term => simp only [tokens, setTimer, List.countP_append]; exact Nat.le_refl _
        | kill => simp only [tokens, setTimer, List.countP_append]; exact Nat.le_refl _
        | _ => simp [timerOf] at ht
      · cases hs
    · cases hs
  | tick =>
    simp only [ProcAct.step, Option.some.injEq] at hs; subst hs; exact Nat.le_refl _
  | ask b =>
    simp only [ProcAct.step, Option.some.injEq] at hs; subst hs
    exact tokens_shutdownProcess b a
  | setShut =>
    simp only [ProcAct.step, Option.some.injEq] at hs; subst hs; exact Nat.le_refl _
  | emit e =>
    simp only [ProcAct.step] at hs
    split at hs
    · rename_i he
      simp only [Option.some.injEq] at hs; subst hs
      have : ownInt e = false := by
        cases e with
        | signal s m o => cases s <;> cases o <;> simp_all [foreign, ownInt]
        | timer s => simp [foreign] at he
        | _ => rfl
      simp [tokens, this]
    · cases hs
  | process =>
    simp only [ProcAct.step] at hs
    unfold process at hs
    split at hs
    · cases hs
    · rename_i e q hq
      simp only [Option.some.injEq] at hs
      have hp := tokens_pop a e q hq
      subst hs
      cases e with
      | shutdownProcess m =>
        simp only
        simp [ownInt] at hp
        split
        · exact Nat.le_trans (tokens_shutdownProcess _ _) (Nat.le_of_eq hp)
        · exact Nat.le_of_eq hp
      | signal s m o =>
        simp only
        split
        · rename_i hm
          have hm : m = true := by simp at hm; exact hm.2
          subst hm
          exact Nat.le_trans (tokens_onSignal s o _) (Nat.le_of_eq hp)
        · omega
      | shutdown sig =>
        simp only
        simp [ownInt] at hp
        split
        · exact Nat.le_trans (tokens_shutdownProcess _ _) (Nat.le_of_eq hp)
        · exact Nat.le_of_eq hp
      | started n =>
        simp [ownInt] at hp
        exact Nat.le_trans (tokens_deferred _ _) (Nat.le_of_eq hp)
      | otherStarted =>
        simp [ownInt] at hp
        exact Nat.le_trans (tokens_deferred _ _) (Nat.le_of_eq hp)
      | exited n code =>
        simp [ownInt] at hp
        exact Nat.le_of_eq hp
      | timer s =>
        simp only
        rw [← hp]
        simp only [tokens, List.countP_append]
        cases s <;> simp [ownInt] <;> omega

/-- The time of a signal has come: the shutdown procedure began so long ago. -/
def Due (c : ProcCfg) (a : ProcAct) (s : Sig) (t : Nat) : Prop := ∃ t0, a.shutAt = some t0 ∧ t0 + period c s ≤ t

/-- The timing invariant. -/
structure Timing (c : ProcCfg) (a : ProcAct) : Prop where
  begun : ∀ t0, a.shutAt = some t0 → a.shut = .done ∧ t0 ≤ a.now
  scheduled : ∀ s, a.timerOf s = .scheduled → a.shutAt ≠ none
  waiting : ∀ s d, a.timerOf s = .waiting d → Due c a s d
  timer : ∀ s, .timer s ∈ a.queue → (s = .term ∨ s = .kill) ∧ Due c a s a.now
  signal : ∀ s m, .signal s m true ∈ a.queue → m = true ∧ (s = .int ∧ a.shutAt ≠ none ∨ (s = .term ∨ s = .kill) ∧ Due c a s a.now)
  delivered : ∀ d ∈ a.signals, d.time ≤ a.now ∧ d.proc < a.procs.length ∧
    (d.own = true → d.sig = .int ∧ (∃ t0, a.shutAt = some t0 ∧ t0 ≤ d.time) ∨ (d.sig = .term ∨ d.sig = .kill) ∧ Due c a d.sig d.time)

theorem Due.mono {c : ProcCfg} {a : ProcAct} {s : Sig} {t t' : Nat} (h : Due c a s t) (hl : t ≤ t') : Due c a s t' := by
  obtain ⟨t0, x, y⟩ := h
  exact ⟨t0, x, Nat.le_trans y hl⟩

theorem Timing.shutdownProcess {c : ProcCfg} {a : ProcAct} (h : Timing c a) (b : Bool) : Timing c (a.shutdownProcess b) := by
  unfold ProcAct.shutdownProcess
  split
  · exact h
  · rename_i hp
    have hp : a.shut = .pending := by simpa using hp
    have hn : a.shutAt = none := by
      cases hs : a.shutAt with
      | none => rfl
      | some t0 => rw [(h.begun t0 hs).1] at hp; cases hp
    have hnd : ∀ s t, ¬Due c a s t := fun s t ⟨t0, x, _⟩ => by rw [hn] at x; cases x
    split
    · exact ⟨fun t0 ht => (by rw [show a.shutAt = some t0 from ht] at hn; cases hn), h.scheduled, h.waiting, h.timer, h.signal, h.delivered⟩
    split
    · exact ⟨fun t0 ht => (by rw [show a.shutAt = some t0 from ht] at hn; cases hn), h.scheduled, h.waiting, h.timer, h.signal, h.delivered⟩
    split
    · exact ⟨h.begun, h.scheduled, h.waiting, h.timer, h.signal, h.delivered⟩
    · refine ⟨fun t0 ht => ?_, fun s hs => by simp, fun s d hs => ?_, fun s hs => ?_, fun s m hs => ?_, fun d hd => ?_⟩
      · simp at ht; exact ⟨rfl, Nat.le_of_eq ht.symm⟩
      · cases s <;> simp [timerOf] at hs
      · rcases List.mem_append.mp hs with hs | hs
        · exact absurd (h.timer s hs).2 (hnd _ _)
        · split at hs <;> simp at hs
      · rcases List.mem_append.mp hs with hs | hs
        · obtain ⟨_, y | y⟩ := h.signal s m hs
          · exact absurd hn y.2
          · exact absurd y.2 (hnd _ _)
        · split at hs
          · simp at hs; exact ⟨hs.2, .inl ⟨hs.1, by simp⟩⟩
          · simp at hs
      · obtain ⟨x, y, z⟩ := h.delivered d hd
        refine ⟨x, y, fun ho => ?_⟩
        rcases z ho with z | z
        · obtain ⟨_, t0, z, _⟩ := z
          rw [hn] at z; cases z
        · exact absurd z.2 (hnd _ _)

theorem Timing.deferred {c : ProcCfg} (bs : List Bool) :
    ∀ a : ProcAct, Timing c a → Timing c (bs.foldl (fun a b => a.shutdownProcess b) a) := by
  induction bs with
  | nil => intro a h; exact h
  | cons b bs ih => intro a h; exact ih _ (h.shutdownProcess b)

theorem Timing.onSignal {c : ProcCfg} {a : ProcAct} (h : Timing c a) (s : Sig) (o : Bool)
    (ho : o = true → s = .int ∧ a.shutAt ≠ none ∨ (s = .term ∨ s = .kill) ∧ Due c a s a.now)
    (htr : ∀ n, a.transport = some n → n < a.procs.length) : Timing c (a.onSignal s o) := by
  unfold ProcAct.onSignal
  split
  · exact ⟨h.begun, h.scheduled, h.waiting, h.timer, h.signal, h.delivered⟩
  · rename_i n hn
    split
    · exact h
    · refine ⟨h.begun, h.scheduled, h.waiting, h.timer, h.signal, fun d hd => ?_⟩
      rcases List.mem_append.mp hd with hd | hd
      · exact h.delivered d hd
      · simp at hd; subst hd
        refine ⟨Nat.le_refl _, htr n hn, fun hq => ?_⟩
        rcases ho hq with ⟨x, y⟩ | y
        · refine .inl ⟨x, ?_⟩
          obtain ⟨t0, ht0⟩ := Option.ne_none_iff_exists'.mp y
          exact ⟨t0, ht0, (h.begun t0 ht0).2⟩
        · exact .inr y

theorem Timing.process {c : ProcCfg} {a a' : ProcAct} (h : Timing c a) (hc : Ctl c a) (hs : a.process c = some a') : Timing c a' := by
  unfold ProcAct.process at hs
  split at hs
  · cases hs
  · rename_i e q hq
    simp only [Option.some.injEq] at hs
    have hpop : Timing c { a with queue := q } :=
      ⟨h.begun, h.scheduled, h.waiting, fun s hm => h.timer s (by rw [hq]; exact .tail _ hm),
        fun s m hm => h.signal s m (by rw [hq]; exact .tail _ hm), h.delivered⟩
    subst hs
    cases e with
    | shutdownProcess m =>
      simp only
      split
      · exact hpop.shutdownProcess _
      · exact hpop
    | signal s m o =>
      simp only
      split
      · refine hpop.onSignal s o (fun ho => ?_) (fun n hn => (hc.transport n hn).1)
        subst ho
        exact (h.signal s m (by rw [hq]; exact .head _)).2
      · exact hpop
    | shutdown sig =>
      simp only
      have h2 : Timing c { a with queue := q, ctxShut := true } :=
        ⟨hpop.begun, hpop.scheduled, hpop.waiting, hpop.timer, hpop.signal, hpop.delivered⟩
      split
      · exact h2.shutdownProcess _
      · exact h2
    | started n => exact Timing.deferred _ _ hpop
    | otherStarted => exact Timing.deferred _ _ hpop
    | exited n code => exact hpop
    | timer s =>
      have ht := h.timer s (by rw [hq]; exact .head _)
      refine ⟨h.begun, h.scheduled, h.waiting, fun s' hm => ?_, fun s' m hm => ?_, h.delivered⟩
      · rcases List.mem_append.mp hm with hm | hm
        · exact hpop.timer s' hm
        · simp at hm
      · rcases List.mem_append.mp hm with hm | hm
        · exact hpop.signal s' m hm
        · simp at hm
          rw [hm.1]
          exact ⟨hm.2, .inr ht⟩

theorem Timing.cleanup {c : ProcCfg} {a : ProcAct} (h : Timing c a) : Timing c a.cleanup := by
  refine ⟨h.begun, fun s hs => ?_, fun s d hs => ?_, h.timer, h.signal, h.delivered⟩
  · refine h.scheduled s ?_
    cases s with
    | term => simp only [timerOf, ProcAct.cleanup] at hs ⊢; cases ht : a.sigterm <;> simp_all [cancelTimer]
    | kill => simp only [timerOf, ProcAct.cleanup] at hs ⊢; cases ht : a.sigkill <;> simp_all [cancelTimer]
    | _ => exact hs
  · refine h.waiting s d ?_
    cases s with
    | term => simp only [timerOf, ProcAct.cleanup] at hs ⊢; cases ht : a.sigterm <;> simp_all [cancelTimer]
    | kill => simp only [timerOf, ProcAct.cleanup] at hs ⊢; cases ht : a.sigkill <;> simp_all [cancelTimer]
    | _ => exact hs

/-- Adding an event that is no signal or timer event of the action. -/
theorem Timing.emit {c : ProcCfg} {a : ProcAct} (h : Timing c a) (e : ProcEv) (h1 : ∀ s, e ≠ .timer s) (h2 : ∀ s m, e ≠ .signal s m true) :
    Timing c { a with queue := a.queue ++ [e] } := by
  refine ⟨h.begun, h.scheduled, h.waiting, fun s hm => ?_, fun s m hm => ?_, h.delivered⟩
  · rcases List.mem_append.mp hm with hm | hm
    · exact h.timer s hm
    · simp at hm; exact absurd hm.symm (h1 s)
  · rcases List.mem_append.mp hm with hm | hm
    · exact h.signal s m hm
    · simp at hm; exact absurd hm.symm (h2 s m)

theorem timerOf_setTimer (a : ProcAct) (s s' : Sig) (t : EscTimer) (hs : s = .term ∨ s = .kill) :
    (a.setTimer s t).timerOf s' = if s' = s then t else a.timerOf s' := by
  rcases hs with rfl | rfl <;> cases s' <;> simp [setTimer, timerOf]

theorem timerOf_present {a : ProcAct} {s : Sig} (h : a.timerOf s ≠ .absent) : s = .term ∨ s = .kill := by
  cases s <;> simp_all [timerOf]

theorem setTimer_eq (a : ProcAct) (s : Sig) (t : EscTimer) :
    a.setTimer s t = { a with sigterm := (a.setTimer s t).sigterm, sigkill := (a.setTimer s t).sigkill } := by
  cases s <;> rfl

theorem Timing.step {c : ProcCfg} {a a' : ProcAct} {l : ProcLabel} (h : Timing c a) (hc : Ctl c a)
    (hs : a.step c l = some a') : Timing c a' := by
  cases l with
  | execute =>
    simp only [ProcAct.step, Option.some.injEq] at hs; subst hs
    unfold execute
    split
    · exact ⟨h.begun, h.scheduled, h.waiting, h.timer, h.signal, h.delivered⟩
    · rename_i hx
      simp only
      split
      · exact ⟨h.begun, h.scheduled, h.waiting, h.timer, h.signal, h.delivered⟩
      · refine ⟨fun t0 ht => ?_, h.scheduled, h.waiting, h.timer, h.signal, h.delivered⟩
        have hd := (h.begun t0 ht).1
        cases hta : a.task with
        | absent => rw [(hc.absent hta).2.1] at hd; cases hd
        | _ => exact absurd (hc.present (by rw [hta]; simp)).2.2 hx
  | begin ok =>
    simp only [ProcAct.step] at hs
    split at hs
    · simp only [Option.some.injEq] at hs; subst hs
      exact ⟨h.begun, h.scheduled, h.waiting, h.timer, h.signal, h.delivered⟩
    · cases hs
  | spawn =>
    simp only [ProcAct.step] at hs
    split at hs
    · simp only [Option.some.injEq] at hs; subst hs
      refine ⟨h.begun, h.scheduled, h.waiting, h.timer, h.signal, fun d hd => ?_⟩
      obtain ⟨x, y, z⟩ := h.delivered d hd
      exact ⟨x, by simp; omega, z⟩
    · cases hs
  | spawnFail =>
    simp only [ProcAct.step] at hs
    split at hs
    · simp only [Option.some.injEq] at hs; subst hs; exact h.cleanup
    · cases hs
  | attach =>
    simp only [ProcAct.step] at hs
    split at hs
    · simp only [Option.some.injEq] at hs; subst hs
      rename_i n _
      have := h.emit (.started n) (by simp) (by simp)
      exact ⟨this.begun, this.scheduled, this.waiting, this.timer, this.signal, this.delivered⟩
    · cases hs
  | procExit n code =>
    simp only [ProcAct.step] at hs
    split at hs
    · simp only [Option.some.injEq] at hs; subst hs
      refine ⟨h.begun, h.scheduled, h.waiting, h.timer, h.signal, fun d hd => ?_⟩
      obtain ⟨x, y, z⟩ := h.delivered d hd
      exact ⟨x, by simpa using y, z⟩
    · cases hs
  | observe =>
    simp only [ProcAct.step] at hs
    split at hs
    · rename_i n _
      split at hs
      · rename_i code _
        simp only [Option.some.injEq] at hs; subst hs
        have hm := h.emit (.exited n code) (by simp) (by simp)
        have hm : Timing c { a with queue := a.queue ++ [.exited n code], log := a.log ++ [.exited n code] } :=
          ⟨hm.begun, hm.scheduled, hm.waiting, hm.timer, hm.signal, hm.delivered⟩
        unfold observe
        simp only
        split
        · exact ⟨hm.begun, hm.scheduled, hm.waiting, hm.timer, hm.signal, hm.delivered⟩
        · exact hm.cleanup
      · cases hs
    · cases hs
  | delayOver =>
    simp only [ProcAct.step] at hs
    split at hs
    · simp only [Option.some.injEq] at hs; subst hs
      split
      · exact h.cleanup
      · exact ⟨h.begun, h.scheduled, h.waiting, h.timer, h.signal, h.delivered⟩
    · cases hs
  | timerBegin s =>
    simp only [ProcAct.step] at hs
    split at hs
    · rename_i ht
      simp only [Option.some.injEq] at hs; subst hs
      have hsk := timerOf_present (a := a) (s := s) (by rw [ht]; simp)
      obtain ⟨t0, ht0⟩ := Option.ne_none_iff_exists'.mp (h.scheduled s ht)
      have hle := (h.begun t0 ht0).2
      rw [setTimer_eq]
      refine ⟨h.begun, fun s' hs' => ?_, fun s' d hs' => ?_, h.timer, h.signal, h.delivered⟩
      · rw [← setTimer_eq, timerOf_setTimer _ _ _ _ hsk] at hs'
        split at hs'
        · cases hs'
        · exact h.scheduled s' hs'
      · rw [← setTimer_eq, timerOf_setTimer _ _ _ _ hsk] at hs'
        split at hs'
        · rename_i he
          simp only [EscTimer.waiting.injEq] at hs'
          subst hs' he
          exact ⟨t0, ht0, by omega⟩
        · exact h.waiting s' d hs'
    · cases hs
  | timerFire s =>
    simp only [ProcAct.step] at hs
    split at hs
    · rename_i d ht
      split at hs
      · rename_i hd
        simp only [Option.some.injEq] at hs; subst hs
        have hsk := timerOf_present (a := a) (s := s) (by rw [ht]; simp)
        have hdue := (h.waiting s d ht).mono hd
        have key : Timing c (a.setTimer s .fired) := by
          rw [setTimer_eq]
          refine ⟨h.begun, fun s' hs' => ?_, fun s' d hs' => ?_, h.timer, h.signal, h.delivered⟩
          · rw [← setTimer_eq, timerOf_setTimer _ _ _ _ hsk] at hs'
            split at hs'
            · cases hs'
            · exact h.scheduled s' hs'
          · rw [← setTimer_eq, timerOf_setTimer _ _ _ _ hsk] at hs'
            split at hs'
            · cases hs'
            · exact h.waiting s' d hs'
        have hdue' : Due c (a.setTimer s .fired) s (a.setTimer s .fired).now := by rw [setTimer_eq]; exact hdue
        have hqe : (a.setTimer s .fired).queue = a.queue := by rw [setTimer_eq]
        refine ⟨key.begun, key.scheduled, key.waiting, fun s' hm => ?_, fun s' m hm => ?_, key.delivered⟩
        · rcases List.mem_append.mp hm with hm | hm
          · exact key.timer s' (by rw [hqe]; exact hm)
          · simp at hm; subst hm; exact ⟨hsk, hdue'⟩
        · rcases List.mem_append.mp hm with hm | hm
          · exact key.signal s' m (by rw [hqe]; exact hm)
          · simp at hm
      · cases hs
    · cases hs
  | tick =>
    simp only [ProcAct.step, Option.some.injEq] at hs; subst hs
    have hl : a.now ≤ a.now + 1 := Nat.le_succ _
    refine ⟨fun t0 ht => ?_, h.scheduled, h.waiting, fun s hm => ?_, fun s m hm => ?_, fun d hd => ?_⟩
    · obtain ⟨x, y⟩ := h.begun t0 ht
      exact ⟨x, Nat.le_trans y hl⟩
    · obtain ⟨x, y⟩ := h.timer s hm
      exact ⟨x, y.mono hl⟩
    · obtain ⟨x, y⟩ := h.signal s m hm
      exact ⟨x, y.imp id fun y => ⟨y.1, y.2.mono hl⟩⟩
    · obtain ⟨x, y⟩ := h.delivered d hd
      exact ⟨Nat.le_trans x hl, y⟩
  | ask b =>
    simp only [ProcAct.step, Option.some.injEq] at hs; subst hs
    exact h.shutdownProcess b
  | setShut =>
    simp only [ProcAct.step, Option.some.injEq] at hs; subst hs
    exact ⟨h.begun, h.scheduled, h.waiting, h.timer, h.signal, h.delivered⟩
  | emit e =>
    simp only [ProcAct.step] at hs
    split at hs
    · rename_i he
      simp only [Option.some.injEq] at hs; subst hs
      exact h.emit e (by rintro s rfl; simp [foreign] at he) (by rintro s m rfl; simp [foreign] at he)
    · cases hs
  | process => exact h.process hc hs

theorem Timing.init (c : ProcCfg) : Timing c {} := by
  refine ⟨by simp, fun s hs => ?_, fun s d hs => ?_, by simp, by simp, by simp⟩ <;> cases s <;> simp [timerOf] at hs

/-- Control, timing and number of interrupts. -/
structure Inv (c : ProcCfg) (a : ProcAct) : Prop where
  ctl : Ctl c a
  timing : Timing c a
  tokens : a.tokens ≤ 1

theorem Inv.step {c : ProcCfg} {a a' : ProcAct} {l : ProcLabel} (h : Inv c a) (hs : a.step c l = some a') : Inv c a' :=
  ⟨h.ctl.step hs, h.timing.step h.ctl hs, Nat.le_trans (tokens_step hs (h.ctl.executed_of_done)) h.tokens⟩

theorem Inv.init (c : ProcCfg) : Inv c {} := ⟨Ctl.init c, Timing.init c, by simp [ProcAct.tokens]⟩

theorem Inv.run {c : ProcCfg} {ls : List ProcLabel} {a a' : ProcAct} (h : Inv c a)
    (hr : runSteps (ProcAct.step c) a ls = some a') : Inv c a' :=
  runSteps_induct (R := Inv c) (fun _ _ _ h hs => h.step hs) ls _ _ h hr

theorem Inv.reach {c : ProcCfg} {ls : List ProcLabel} {a : ProcAct} (h : ProcAct.Reaches c ls a) : Inv c a :=
  (Inv.init c).run h

theorem Inv.tokens_run {c : ProcCfg} {ls : List ProcLabel} {a a' : ProcAct} (h : Inv c a)
    (hr : runSteps (ProcAct.step c) a ls = some a') : a'.tokens ≤ a.tokens :=
  (runSteps_induct (R := fun b => Inv c b ∧ b.tokens ≤ a.tokens)
    (fun _ _ _ ⟨hb, hle⟩ hs => ⟨hb.step hs, Nat.le_trans (tokens_step hs hb.ctl.executed_of_done) hle⟩) ls _ _ ⟨h, Nat.le_refl _⟩ hr).2

/-! ## Processes that ended -/

/-- The signals delivered to one process. -/
def signalsTo (a : ProcAct) (n : Nat) : List Delivered := a.signals.filter (fun d => d.proc == n)

/-- What can happen to processes and signals in one step. -/
theorem shutdownProcess_signals (b : Bool) (a : ProcAct) : (a.shutdownProcess b).signals = a.signals := by
  unfold shutdownProcess
  repeat' split
  all_goals rfl

theorem deferred_signals (bs : List Bool) : ∀ a : ProcAct, (bs.foldl (fun a b => a.shutdownProcess b) a).signals = a.signals := by
  induction bs with
  | nil => intro a; rfl
  | cons b bs ih => intro a; exact (ih _).trans (shutdownProcess_signals b a)

/-- A step delivers nothing, or one signal to the attached process, whose end has not been noticed. -/
theorem step_signals {c : ProcCfg} {a a' : ProcAct} {l : ProcLabel} (hs : a.step c l = some a') :
    a'.signals = a.signals ∨ ∃ n s o q, a.queue = .signal s true o :: q ∧ l = .process ∧ a.comp ≠ .unset ∧ a.transport = some n ∧
      a.complete n = false ∧ a'.signals = a.signals ++ [⟨s, n, a.now, o⟩] := by
  cases l with
  | execute =>
    simp only [ProcAct.step, Option.some.injEq] at hs; subst hs
    unfold execute
    left
    split
    · rfl
    · simp only; split <;> rfl
  | begin ok =>
    simp only [ProcAct.step] at hs
    split at hs
    · simp only [Option.some.injEq] at hs; subst hs; exact .inl rfl
    · cases hs
  | spawn =>
    simp only [ProcAct.step] at hs
    split at hs
    · simp only [Option.some.injEq] at hs; subst hs; exact .inl rfl
    · cases hs
  | spawnFail =>
    simp only [ProcAct.step] at hs
    split at hs
    · simp only [Option.some.injEq] at hs; subst hs; exact .inl rfl
    · cases hs
  | attach =>
    simp only [ProcAct.step] at hs
    split at hs
    · simp only [Option.some.injEq] at hs; subst hs; exact .inl rfl
    · cases hs
  | procExit n code =>
    simp only [ProcAct.step] at hs
    split at hs
    · simp only [Option.some.injEq] at hs; subst hs; exact .inl rfl
    · cases hs
  | observe =>
    simp only [ProcAct.step] at hs
    split at hs
    · split at hs
      · simp only [Option.some.injEq] at hs; subst hs
        unfold observe
        simp only
        split <;> exact .inl rfl
      · cases hs
    · cases hs
  | delayOver =>
    simp only [ProcAct.step] at hs
    split at hs
    · simp only [Option.some.injEq] at hs; subst hs
      split <;> exact .inl rfl
    · cases hs
  | timerBegin s =>
    simp only [ProcAct.step] at hs
    split at hs
    · simp only [Option.some.injEq] at hs; subst hs
      rw [setTimer_eq]; exact .inl rfl
    · cases hs
  | timerFire s =>
    simp only [ProcAct.step] at hs
    split at hs
    · split at hs
      · simp only [Option.some.injEq] at hs; subst hs
        rw [setTimer_eq]; exact .inl rfl
      · cases hs
    · cases hs
  | tick =>
    simp only [ProcAct.step, Option.some.injEq] at hs; subst hs; exact .inl rfl
  | ask b =>
    simp only [ProcAct.step, Option.some.injEq] at hs; subst hs
    exact .inl (shutdownProcess_signals b a)
  | setShut =>
    simp only [ProcAct.step, Option.some.injEq] at hs; subst hs; exact .inl rfl
  | emit e =>
    simp only [ProcAct.step] at hs
    split at hs
    · simp only [Option.some.injEq] at hs; subst hs; exact .inl rfl
    · cases hs
  | process =>
    simp only [ProcAct.step] at hs
    unfold process at hs
    split at hs
    · cases hs
    · rename_i e q hq
      simp only [Option.some.injEq] at hs
      subst hs
      cases e with
      | shutdownProcess m =>
        simp only; split
        · exact .inl (shutdownProcess_signals _ _)
        · exact .inl rfl
      | signal s m o =>
        simp only
        split
        · rename_i hm
          simp at hm
          obtain ⟨hu, hm⟩ := hm
          subst hm
          unfold onSignal
          split
          · exact .inl rfl
          · rename_i n hn
            split
            · exact .inl rfl
            · rename_i hcn
              exact .inr ⟨n, s, o, q, hq, trivial, hu, hn, Bool.eq_false_iff.mpr hcn, rfl⟩
        · exact .inl rfl
      | shutdown sig =>
        simp only; split
        · exact .inl (shutdownProcess_signals _ _)
        · exact .inl rfl
      | started n => exact .inl (deferred_signals _ _)
      | otherStarted => exact .inl (deferred_signals _ _)
      | exited n code => exact .inl rfl
      | timer s => exact .inl rfl

/-- A process that ended stays ended, and a step delivers nothing to it. -/
theorem step_procs {c : ProcCfg} {a a' : ProcAct} {l : ProcLabel} (hs : a.step c l = some a') :
    a'.procs = a.procs ∨ (a.task = .starting ∧ l = .spawn ∧ a'.procs = a.procs ++ [none]) ∨
      ∃ n code, a.procs[n]? = some none ∧ a'.procs = a.procs.set n (some code) := by
  cases l with
  | execute =>
    simp only [ProcAct.step, Option.some.injEq] at hs; subst hs
    unfold execute
    left
    split
    · rfl
    · simp only; split <;> rfl
  | begin ok =>
    simp only [ProcAct.step] at hs
    split at hs
    · simp only [Option.some.injEq] at hs; subst hs; exact .inl rfl
    · cases hs
  | spawn =>
    simp only [ProcAct.step] at hs
    split at hs
    · rename_i ht
      simp only [Option.some.injEq] at hs; subst hs; exact .inr (.inl ⟨ht, rfl, rfl⟩)
    · cases hs
  | spawnFail =>
    simp only [ProcAct.step] at hs
    split at hs
    · simp only [Option.some.injEq] at hs; subst hs; exact .inl rfl
    · cases hs
  | attach =>
    simp only [ProcAct.step] at hs
    split at hs
    · simp only [Option.some.injEq] at hs; subst hs; exact .inl rfl
    · cases hs
  | procExit n code =>
    simp only [ProcAct.step] at hs
    split at hs
    · rename_i hn
      simp only [Option.some.injEq] at hs; subst hs; exact .inr (.inr ⟨n, code, hn, rfl⟩)
    · cases hs
  | observe =>
    simp only [ProcAct.step] at hs
    split at hs
    · split at hs
      · simp only [Option.some.injEq] at hs; subst hs
        unfold observe
        simp only
        split <;> exact .inl rfl
      · cases hs
    · cases hs
  | delayOver =>
    simp only [ProcAct.step] at hs
    split at hs
    · simp only [Option.some.injEq] at hs; subst hs
      split <;> exact .inl rfl
    · cases hs
  | timerBegin s =>
    simp only [ProcAct.step] at hs
    split at hs
    · simp only [Option.some.injEq] at hs; subst hs
      rw [setTimer_eq]; exact .inl rfl
    · cases hs
  | timerFire s =>
    simp only [ProcAct.step] at hs
    split at hs
    · split at hs
      · simp only [Option.some.injEq] at hs; subst hs
        rw [setTimer_eq]; exact .inl rfl
      · cases hs
    · cases hs
  | tick =>
    simp only [ProcAct.step, Option.some.injEq] at hs; subst hs; exact .inl rfl
  | ask b =>
    simp only [ProcAct.step, Option.some.injEq] at hs; subst hs
    left
    rw [(shutdownProcess_frame b a).rest]
  | setShut =>
    simp only [ProcAct.step, Option.some.injEq] at hs; subst hs; exact .inl rfl
  | emit e =>
    simp only [ProcAct.step] at hs
    split at hs
    · simp only [Option.some.injEq] at hs; subst hs; exact .inl rfl
    · cases hs
  | process =>
    left
    rw [(process_frame hs).rest]

theorem complete_iff {a : ProcAct} {n : Nat} : a.complete n = true ↔ ∃ code, a.procs[n]? = some (some code) := by
  unfold complete
  split
  · rename_i code hc; simp [hc]
  · rename_i hc
    simp only [Bool.false_eq_true, false_iff, not_exists]
    intro code hq; exact hc code hq

theorem complete_step {c : ProcCfg} {a a' : ProcAct} {l : ProcLabel} (hs : a.step c l = some a') {n : Nat}
    {code : Int} (h : a.procs[n]? = some (some code)) : a'.procs[n]? = some (some code) := by
  rcases step_procs hs with e | ⟨_, _, e⟩ | ⟨m, code', hm, e⟩
  · rw [e]; exact h
  · rw [e, List.getElem?_append_left (List.getElem?_eq_some_iff.mp h).1]; exact h
  · rw [e]
    by_cases hmn : m = n
    · subst hmn; rw [h] at hm; cases hm
    · rw [List.getElem?_set_ne hmn]; exact h

/-- Nothing is delivered to a process whose end was noticed. -/
theorem ended_no_signal {c : ProcCfg} {ls : List ProcLabel} {a a' : ProcAct} {n : Nat} {code : Int}
    (h : a.procs[n]? = some (some code)) (hr : runSteps (ProcAct.step c) a ls = some a') :
    a'.procs[n]? = some (some code) ∧ a'.signalsTo n = a.signalsTo n := by
  refine runSteps_induct (R := fun b => b.procs[n]? = some (some code) ∧ b.signalsTo n = a.signalsTo n) ?_ ls _ _ ⟨h, rfl⟩ hr
  rintro b b' l ⟨h1, h2⟩ hs
  refine ⟨complete_step hs h1, ?_⟩
  rcases step_signals hs with e | ⟨m, s, o, q, _, _, _, _, hm, e⟩
  · unfold signalsTo at h2 ⊢; rw [e]; exact h2
  · have hne : m ≠ n := by
      rintro rfl
      rw [complete_iff.mpr ⟨code, h1⟩] at hm; cases hm
    unfold signalsTo at h2 ⊢
    rw [e, List.filter_append, h2]
    simp [hne]

/-! ## After completion -/

/-- No escalation timer is going to fire. -/
def Quiet (a : ProcAct) : Prop := ∀ s, a.timerOf s = .absent ∨ a.timerOf s = .fired ∨ a.timerOf s = .cancelled

theorem quiet_iff (a : ProcAct) : a.Quiet ↔
    (a.sigterm = .absent ∨ a.sigterm = .fired ∨ a.sigterm = .cancelled) ∧
    (a.sigkill = .absent ∨ a.sigkill = .fired ∨ a.sigkill = .cancelled) := by
  constructor
  · intro h; exact ⟨h .term, h .kill⟩
  · rintro ⟨h1, h2⟩ s
    cases s with
    | term => exact h1
    | kill => exact h2
    | _ => exact .inl rfl

theorem cleanup_quiet (a : ProcAct) : a.cleanup.Quiet := by
  rw [quiet_iff]
  constructor
  · simp only [ProcAct.cleanup]; cases a.sigterm <;> simp [cancelTimer]
  · simp only [ProcAct.cleanup]; cases a.sigkill <;> simp [cancelTimer]

theorem shutdownProcess_done {b : Bool} {a : ProcAct} (h : a.comp = .done) :
    a.shutdownProcess b = { a with shut := (a.shutdownProcess b).shut } := by
  unfold shutdownProcess
  split
  · rfl
  · simp [h]

theorem quiet_shutdownProcess (b : Bool) (a : ProcAct) (h : a.comp = .done) (hq : a.Quiet) : (a.shutdownProcess b).Quiet := by
  rw [shutdownProcess_done h]; exact hq

theorem deferred_done (bs : List Bool) : ∀ a : ProcAct, a.comp = .done →
    (bs.foldl (fun a b => a.shutdownProcess b) a) = { a with shut := (bs.foldl (fun a b => a.shutdownProcess b) a).shut } := by
  induction bs with
  | nil => intro a _; rfl
  | cons b bs ih =>
    intro a h
    have h2 : (a.shutdownProcess b).comp = .done := by rw [shutdownProcess_done h]; exact h
    simp only [List.foldl_cons]
    rw [ih _ h2]
    rw [shutdownProcess_done h]

theorem quiet_deferred (bs : List Bool) (a : ProcAct) (h : a.comp = .done) (hq : a.Quiet) :
    (bs.foldl (fun a b => a.shutdownProcess b) a).Quiet := by
  rw [deferred_done bs a h]; exact hq

theorem quiet_step {c : ProcCfg} {a a' : ProcAct} {l : ProcLabel} (hc : Ctl c a) (hd : a.comp = .done) (h : a.Quiet)
    (hs : a.step c l = some a') :
    a'.comp = .done ∧ a'.Quiet ∧ a'.procs.length = a.procs.length ∧ a'.log = a.log ∧ a'.resolved = a.resolved ∧ a'.signals = a.signals := by
  have ht := hc.ended.mp hd
  have hx : a.executed = true := (hc.present (by rw [ht]; simp)).2.2
  have hq := (quiet_iff a).mp h
  have hsig : a'.signals = a.signals := by
    rcases step_signals hs with e | ⟨n, _, _, _, _, _, _, hn, hcn, _⟩
    · exact e
    · rw [(hc.transport n hn).2.resolve_left (by rw [ht]; simp)] at hcn; cases hcn
  suffices a'.comp = .done ∧ a'.Quiet ∧ a'.procs.length = a.procs.length ∧ a'.log = a.log ∧ a'.resolved = a.resolved from
    ⟨this.1, this.2.1, this.2.2.1, this.2.2.2.1, this.2.2.2.2, hsig⟩
  cases l with
  | execute =>
    simp only [ProcAct.step, Option.some.injEq] at hs; subst hs
    unfold execute
    rw [if_pos hx]
    exact ⟨hd, h, rfl, rfl, rfl⟩
  | begin ok => simp [ProcAct.step, ht] at hs
  | spawn => simp [ProcAct.step, ht] at hs
  | spawnFail => simp [ProcAct.step, ht] at hs
  | attach => simp [ProcAct.step, ht] at hs
  | procExit n code =>
    simp only [ProcAct.step] at hs
    split at hs
    · simp only [Option.some.injEq] at hs; subst hs
      exact ⟨hd, h, by simp, rfl, rfl⟩
    · cases hs
  | observe => simp [ProcAct.step, ht] at hs
  | delayOver => simp [ProcAct.step, ht] at hs
  | timerBegin s =>
    simp only [ProcAct.step] at hs
    split at hs
    · rename_i hsch
      rcases h s with e | e | e <;> rw [e] at hsch <;> cases hsch
    · cases hs
  | timerFire s =>
    simp only [ProcAct.step] at hs
    split at hs
    · rename_i hsch
      rcases h s with e | e | e <;> rw [e] at hsch <;> cases hsch
    · cases hs
  | tick =>
    simp only [ProcAct.step, Option.some.injEq] at hs; subst hs
    exact ⟨hd, h, rfl, rfl, rfl⟩
  | ask b =>
    simp only [ProcAct.step, Option.some.injEq] at hs; subst hs
    refine ⟨by rw [(shutdownProcess_frame b a).rest]; exact hd, quiet_shutdownProcess b a hd h, ?_⟩
    rw [shutdownProcess_done hd]
    exact ⟨rfl, rfl, rfl⟩
  | setShut =>
    simp only [ProcAct.step, Option.some.injEq] at hs; subst hs
    exact ⟨hd, h, rfl, rfl, rfl⟩
  | emit e =>
    simp only [ProcAct.step] at hs
    split at hs
    · simp only [Option.some.injEq] at hs; subst hs
      exact ⟨hd, h, rfl, rfl, rfl⟩
    · cases hs
  | process =>
    have hf := process_frame hs
    have hr := hf.rest
    refine ⟨by rw [hr]; exact hd, ?_, by rw [hr], by rw [hr], by rw [hr]⟩
    simp only [ProcAct.step] at hs
    unfold process at hs
    split at hs
    · cases hs
    · rename_i e q hq2
      simp only [Option.some.injEq] at hs
      subst hs
      cases e with
      | shutdownProcess m =>
        simp only; split
        · exact quiet_shutdownProcess _ _ hd h
        · exact h
      | signal s m o =>
        simp only; split
        · unfold onSignal
          repeat' split
          all_goals exact h
        · exact h
      | shutdown sig =>
        simp only; split
        · exact quiet_shutdownProcess _ _ hd h
        · exact h
      | started n => exact quiet_deferred _ _ hd h
      | otherStarted => exact quiet_deferred _ _ hd h
      | exited n code => exact h
      | timer s => exact h

/-- A step that completes the action leaves it quiet. -/
theorem quiet_of_step {c : ProcCfg} {a a' : ProcAct} {l : ProcLabel} (hc : Ctl c a) (hn : a.comp ≠ .done) (hs : a.step c l = some a')
    (hd : a'.comp = .done) : a'.Quiet := by
  cases l with
  | execute =>
    simp only [ProcAct.step, Option.some.injEq] at hs; subst hs
    unfold execute at hd
    split at hd
    · exact absurd hd hn
    · simp only at hd; split at hd
      · exact absurd hd hn
      · cases hd
  | begin ok =>
    simp only [ProcAct.step] at hs
    split at hs
    · simp only [Option.some.injEq] at hs; subst hs; exact absurd hd hn
    · cases hs
  | spawn =>
    simp only [ProcAct.step] at hs
    split at hs
    · simp only [Option.some.injEq] at hs; subst hs; exact absurd hd hn
    · cases hs
  | spawnFail =>
    simp only [ProcAct.step] at hs
    split at hs
    · simp only [Option.some.injEq] at hs; subst hs; exact cleanup_quiet a
    · cases hs
  | attach =>
    simp only [ProcAct.step] at hs
    split at hs
    · simp only [Option.some.injEq] at hs; subst hs; exact absurd hd hn
    · cases hs
  | procExit n code =>
    simp only [ProcAct.step] at hs
    split at hs
    · simp only [Option.some.injEq] at hs; subst hs; exact absurd hd hn
    · cases hs
  | observe =>
    simp only [ProcAct.step] at hs
    split at hs
    · split at hs
      · simp only [Option.some.injEq] at hs; subst hs
        unfold observe at hd ⊢
        simp only at hd ⊢
        split at hd
        · exact absurd hd hn
        · rename_i hg
          rw [if_neg hg]
          exact cleanup_quiet _
      · cases hs
    · cases hs
  | delayOver =>
    simp only [ProcAct.step] at hs
    split at hs
    · simp only [Option.some.injEq] at hs; subst hs
      split at hd
      · rename_i hg; rw [if_pos hg]; exact cleanup_quiet a
      · exact absurd hd hn
    · cases hs
  | timerBegin s =>
    simp only [ProcAct.step] at hs
    split at hs
    · simp only [Option.some.injEq] at hs; subst hs
      rw [setTimer_eq] at hd; exact absurd hd hn
    · cases hs
  | timerFire s =>
    simp only [ProcAct.step] at hs
    split at hs
    · split at hs
      · simp only [Option.some.injEq] at hs; subst hs
        rw [setTimer_eq] at hd; exact absurd hd hn
      · cases hs
    · cases hs
  | tick =>
    simp only [ProcAct.step, Option.some.injEq] at hs; subst hs; exact absurd hd hn
  | ask b =>
    simp only [ProcAct.step, Option.some.injEq] at hs; subst hs
    rw [(shutdownProcess_frame b a).rest] at hd
    exact absurd hd hn
  | setShut =>
    simp only [ProcAct.step, Option.some.injEq] at hs; subst hs; exact absurd hd hn
  | emit e =>
    simp only [ProcAct.step] at hs
    split at hs
    · simp only [Option.some.injEq] at hs; subst hs; exact absurd hd hn
    · cases hs
  | process =>
    rw [(process_frame hs).rest] at hd
    exact absurd hd hn

theorem quiet_reach {c : ProcCfg} {ls : List ProcLabel} {a : ProcAct} (h : ProcAct.Reaches c ls a) (hd : a.comp = .done) : a.Quiet := by
  refine (runSteps_induct (R := fun b => Ctl c b ∧ (b.comp = .done → b.Quiet)) ?_ ls _ _ ⟨Ctl.init c, by simp⟩ h).2 hd
  rintro b b' l ⟨h1, h2⟩ hs
  refine ⟨h1.step hs, fun hq => ?_⟩
  by_cases hb : b.comp = .done
  · exact (quiet_step h1 hb (h2 hb) hs).2.1
  · exact quiet_of_step h1 hb hs hq

theorem quiet_run {c : ProcCfg} {ls : List ProcLabel} {a a' : ProcAct} (hc : Ctl c a) (hd : a.comp = .done) (h : a.Quiet)
    (hr : runSteps (ProcAct.step c) a ls = some a') :
    a'.comp = .done ∧ a'.procs.length = a.procs.length ∧ a'.log = a.log ∧ a'.resolved = a.resolved ∧ a'.signals = a.signals := by
  obtain ⟨_, h1, _, h2⟩ := runSteps_induct (R := fun b => Ctl c b ∧ b.comp = .done ∧ b.Quiet ∧ b.procs.length = a.procs.length ∧
    b.log = a.log ∧ b.resolved = a.resolved ∧ b.signals = a.signals) (by
      rintro b b' l ⟨h0, h1, h2, h3, h4, h5, h6⟩ hs
      obtain ⟨g1, g2, g3, g4, g5, g6⟩ := quiet_step h0 h1 h2 hs
      exact ⟨h0.step hs, g1, g2, g3.trans h3, g4.trans h4, g5.trans h5, g6.trans h6⟩) ls _ _ ⟨hc, hd, h, rfl, rfl, rfl, rfl⟩ hr
  exact ⟨h1, h2⟩

end ProcAct
end Verif
