import Verif.Props.ExecuteLocal
import Verif.Spec.Escalation

/-! # A process that does not react is sent all three signals (C35) -/

namespace Verif
open ProcAct

/-- The signal is on its way, or was sent. -/
def OnWay (n : Nat) (s : Sig) (a : ProcAct) : Prop := .signal s true true ∈ a.queue ∨ a.Sent n s

/-- The escalation goes on. -/
def Esc (n : Nat) (s : Sig) (a : ProcAct) : Prop :=
  a.timerOf s = .scheduled ∨ (∃ d, a.timerOf s = .waiting d) ∨ .timer s ∈ a.queue ∨ OnWay n s a

/-- A process being shut down. -/
structure Hunted (n : Nat) (b : Bool) (a : ProcAct) : Prop where
  transport : a.transport = some n
  task : a.task = .running n
  shut : a.shut = .done
  int : b = true → OnWay n .int a
  term : Esc n .term a
  kill : Esc n .kill a

theorem OnWay.mono {n : Nat} {s : Sig} {a a' : ProcAct} (h : OnWay n s a) (hq : ∀ e ∈ a.queue, e ∈ a'.queue)
    (hs : a'.signals = a.signals) : OnWay n s a' := by
  rcases h with h | ⟨d, hd, x⟩
  · exact .inl (hq _ h)
  · exact .inr ⟨d, by rw [hs]; exact hd, x⟩

theorem Esc.mono {n : Nat} {s : Sig} {a a' : ProcAct} (h : Esc n s a) (hq : ∀ e ∈ a.queue, e ∈ a'.queue)
    (hs : a'.signals = a.signals) (ht : a'.timerOf s = a.timerOf s) : Esc n s a' := by
  rcases h with h | h | h | h
  · exact .inl (by rw [ht]; exact h)
  · exact .inr (.inl (by rw [ht]; exact h))
  · exact .inr (.inr (.inl (hq _ h)))
  · exact .inr (.inr (.inr (h.mono hq hs)))

theorem Hunted.mono {n : Nat} {b : Bool} {a a' : ProcAct} (h : Hunted n b a) (h1 : a'.transport = a.transport) (h2 : a'.task = a.task)
    (h3 : a'.shut = a.shut) (hq : ∀ e ∈ a.queue, e ∈ a'.queue) (hs : a'.signals = a.signals)
    (ht : a'.sigterm = a.sigterm) (hk : a'.sigkill = a.sigkill) : Hunted n b a' :=
  ⟨h1.trans h.transport, h2.trans h.task, h3.trans h.shut, fun hb => (h.int hb).mono hq hs, h.term.mono hq hs ht, h.kill.mono hq hs hk⟩

theorem shut_noop (b : Bool) (a : ProcAct) (h : a.shut = .done) : a.shutdownProcess b = a := by
  unfold shutdownProcess; simp [h]

theorem deferred_shut (bs : List Bool) : ∀ a : ProcAct, a.shut = .done → bs.foldl (fun a b => a.shutdownProcess b) a = a := by
  induction bs with
  | nil => intro a _; rfl
  | cons b bs ih =>
    intro a h
    rw [List.foldl_cons]
    rw [shut_noop b a h]; exact ih a h

/-- Dropping an event that is no signal or timer of the action. -/
theorem Hunted.drop {n : Nat} {b : Bool} {a : ProcAct} {e : ProcEv} {q : List ProcEv} (h : Hunted n b a) (hq : a.queue = e :: q)
    (h1 : ∀ s, e ≠ .timer s) (h2 : ∀ s, e ≠ .signal s true true) : Hunted n b { a with queue := q } := by
  have ow : ∀ s, OnWay n s a → OnWay n s { a with queue := q } := by
    rintro s (x | x)
    · rw [hq] at x
      rcases List.mem_cons.mp x with x | x
      · exact absurd x.symm (h2 s)
      · exact .inl x
    · exact .inr x
  have es : ∀ s, Esc n s a → Esc n s { a with queue := q } := by
    rintro s (x | x | x | x)
    · exact .inl x
    · exact .inr (.inl x)
    · rw [hq] at x
      rcases List.mem_cons.mp x with x | x
      · exact absurd x.symm (h1 s)
      · exact .inr (.inr (.inl x))
    · exact .inr (.inr (.inr (ow s x)))
  exact ⟨h.transport, h.task, h.shut, fun hb => ow _ (h.int hb), es _ h.term, es _ h.kill⟩

theorem Hunted.process {c : ProcCfg} {n : Nat} {b : Bool} {a a' : ProcAct} (hc : Ctl c a) (h : Hunted n b a)
    (hn : a.procs[n]? = some none) (hs : a.process c = some a') : Hunted n b a' := by
  unfold ProcAct.process at hs
  have hcu : a.comp ≠ .unset := (hc.present (by rw [h.task]; simp)).1
  cases hq : a.queue with
  | nil => rw [hq] at hs; cases hs
  | cons e q =>
    rw [hq] at hs
    simp only [Option.some.injEq] at hs
    subst hs
    cases e with
    | shutdownProcess mine =>
      have hd := h.drop hq (by intro s; simp) (by intro s; simp)
      simp only
      split
      · rw [shut_noop true { a with queue := q } h.shut]; exact hd
      · exact hd
    | shutdown sig =>
      have hd := h.drop hq (by intro s; simp) (by intro s; simp)
      have e := shut_noop (!sig || c.noninteractive) { a with queue := q, ctxShut := true } h.shut
      simp only
      rw [if_pos hcu, e]
      exact hd.mono (a' := { a with queue := q, ctxShut := true }) rfl rfl rfl (fun _ h => h) rfl rfl rfl
    | started m =>
      have hd := h.drop hq (by intro s; simp) (by intro s; simp)
      simp only
      rw [deferred_shut _ { a with queue := q } h.shut]; exact hd
    | otherStarted =>
      have hd := h.drop hq (by intro s; simp) (by intro s; simp)
      simp only
      rw [deferred_shut _ { a with queue := q } h.shut]; exact hd
    | exited m code => exact h.drop hq (by intro s; simp) (by intro s; simp)
    | timer s =>
      have ow : ∀ s', OnWay n s' a → OnWay n s' { a with queue := q ++ [.signal s true true] } := by
        rintro s' (x | x)
        · rw [hq] at x
          rcases List.mem_cons.mp x with x | x
          · cases x
          · exact .inl (List.mem_append_left _ x)
        · exact .inr x
      have es : ∀ s', Esc n s' a → Esc n s' { a with queue := q ++ [.signal s true true] } := by
        rintro s' (x | x | x | x)
        · exact .inl x
        · exact .inr (.inl x)
        · rw [hq] at x
          rcases List.mem_cons.mp x with x | x
          · cases x
            exact .inr (.inr (.inr (.inl (List.mem_append_right _ (List.mem_singleton.mpr rfl)))))
          · exact .inr (.inr (.inl (List.mem_append_left _ x)))
        · exact .inr (.inr (.inr (ow s' x)))
      exact ⟨h.transport, h.task, h.shut, fun hb => ow _ (h.int hb), es _ h.term, es _ h.kill⟩
    | signal s mine own =>
      simp only
      cases mine with
      | false => simpa using h.drop hq (by intro s; simp) (by intro s; simp)
      | true =>
        have hco : a.complete n = false := by unfold complete; rw [hn]
        have hco' : ProcAct.complete { a with queue := q } n = false := hco
        rw [if_pos (by simpa using hcu)]
        have e : ProcAct.onSignal s own { a with queue := q } = { a with queue := q, signals := a.signals ++ [⟨s, n, a.now, own⟩] } := by
          unfold onSignal
          simp only [h.transport]
          rw [if_neg (by have := hco'; rw [Bool.not_eq_true]; simpa [complete] using this)]
        rw [e]
        have ow : ∀ s', OnWay n s' a → OnWay n s' { a with queue := q, signals := a.signals ++ [⟨s, n, a.now, own⟩] } := by
          rintro s' (x | ⟨d, x, y⟩)
          · rw [hq] at x
            rcases List.mem_cons.mp x with x | x
            · cases x
              exact .inr ⟨⟨_, n, a.now, true⟩, List.mem_append_right _ (List.mem_singleton.mpr rfl), rfl, rfl, rfl⟩
            · exact .inl x
          · exact .inr ⟨d, List.mem_append_left _ x, y⟩
        have es : ∀ s', Esc n s' a → Esc n s' { a with queue := q, signals := a.signals ++ [⟨s, n, a.now, own⟩] } := by
          rintro s' (x | x | x | x)
          · exact .inl x
          · exact .inr (.inl x)
          · rw [hq] at x
            rcases List.mem_cons.mp x with x | x
            · cases x
            · exact .inr (.inr (.inl x))
          · exact .inr (.inr (.inr (ow s' x)))
        exact ⟨h.transport, h.task, h.shut, fun hb => ow _ (h.int hb), es _ h.term, es _ h.kill⟩

theorem Hunted.timer {n : Nat} {b : Bool} {a a' : ProcAct} (h : Hunted n b a) (s : Sig) (h1 : a'.transport = a.transport) (h2 : a'.task = a.task)
    (h3 : a'.shut = a.shut) (hq : ∀ e ∈ a.queue, e ∈ a'.queue) (hs : a'.signals = a.signals)
    (ht : ∀ s', s' ≠ s → a'.timerOf s' = a.timerOf s') (he : Esc n s a') : Hunted n b a' := by
  have es : ∀ s', Esc n s' a → Esc n s' a' := by
    intro s' x
    by_cases e : s' = s
    · subst e; exact he
    · exact x.mono hq hs (ht s' e)
  exact ⟨h1.trans h.transport, h2.trans h.task, h3.trans h.shut, fun hb => (h.int hb).mono hq hs, es _ h.term, es _ h.kill⟩

theorem timerOf_set_ne (a : ProcAct) (s s' : Sig) (t : EscTimer) (h : s' ≠ s) : (a.setTimer s t).timerOf s' = a.timerOf s' := by
  cases s <;> cases s' <;> simp_all [setTimer, timerOf]

theorem Hunted.step {c : ProcCfg} {n : Nat} {b : Bool} {a a' : ProcAct} {l : ProcLabel} (hc : Ctl c a) (h : Hunted n b a)
    (hn : a.procs[n]? = some none) (hs : a.step c l = some a') (hn' : a'.procs[n]? = some none) : Hunted n b a' := by
  have ht := h.task
  cases l with
  | execute =>
    have hx : a.executed = true := (hc.present (by rw [ht]; simp)).2.2
    simp only [ProcAct.step, Option.some.injEq] at hs; subst hs
    unfold execute
    simp only [hx]
    exact h.mono rfl rfl rfl (fun _ h => h) rfl rfl rfl
  | begin ok => simp [ProcAct.step, ht] at hs
  | spawn => simp [ProcAct.step, ht] at hs
  | spawnFail => simp [ProcAct.step, ht] at hs
  | attach => simp [ProcAct.step, ht] at hs
  | delayOver => simp [ProcAct.step, ht] at hs
  | procExit m code =>
    simp only [ProcAct.step] at hs
    split at hs
    · simp only [Option.some.injEq] at hs; subst hs
      exact h.mono rfl rfl rfl (fun _ h => h) rfl rfl rfl
    · cases hs
  | observe => simp [ProcAct.step, ht, hn] at hs
  | timerBegin s =>
    simp only [ProcAct.step] at hs
    split at hs
    · rename_i hsch
      simp only [Option.some.injEq] at hs; subst hs
      have hp := timerOf_present (s := s) (a := a) (by rw [hsch]; simp)
      refine h.timer s ?_ ?_ ?_ ?_ ?_ (fun s' e => timerOf_set_ne _ _ _ _ e) (.inr (.inl ⟨a.now + period c s, ?_⟩))
      · rw [setTimer_eq]
      · rw [setTimer_eq]
      · rw [setTimer_eq]
      · rw [setTimer_eq]; exact fun _ h => h
      · rw [setTimer_eq]
      · rcases hp with e | e <;> subst e <;> rfl
    · cases hs
  | timerFire s =>
    simp only [ProcAct.step] at hs
    split at hs
    · split at hs
      · simp only [Option.some.injEq] at hs; subst hs
        refine h.timer s ?_ ?_ ?_ ?_ ?_ (fun s' e => timerOf_set_ne _ _ _ _ e) (.inr (.inr (.inl ?_)))
        · rw [setTimer_eq]
        · rw [setTimer_eq]
        · rw [setTimer_eq]
        · exact fun _ h => List.mem_append_left _ h
        · rw [setTimer_eq]
        · exact List.mem_append_right _ (List.mem_singleton.mpr rfl)
      · cases hs
    · cases hs
  | tick => simp only [ProcAct.step, Option.some.injEq] at hs; subst hs; exact h.mono rfl rfl rfl (fun _ h => h) rfl rfl rfl
  | setShut => simp only [ProcAct.step, Option.some.injEq] at hs; subst hs; exact h.mono rfl rfl rfl (fun _ h => h) rfl rfl rfl
  | emit e =>
    simp only [ProcAct.step] at hs
    split at hs
    · simp only [Option.some.injEq] at hs; subst hs
      exact h.mono rfl rfl rfl (fun _ h => List.mem_append_left _ h) rfl rfl rfl
    · cases hs
  | ask m =>
    simp only [ProcAct.step, Option.some.injEq] at hs; subst hs
    rw [shut_noop _ _ h.shut]; exact h
  | process => exact h.process hc hn hs

/-- A hunted process has ended, or is still hunted. -/
theorem Hunted.run {c : ProcCfg} {n : Nat} {b : Bool} {ls : List ProcLabel} {a a' : ProcAct} (hc : Ctl c a) (h : Hunted n b a)
    (hn : a.procs[n]? = some none) (hr : runSteps (ProcAct.step c) a ls = some a') :
    (∃ code, a'.procs[n]? = some (some code)) ∨ a'.procs[n]? = some none ∧ Hunted n b a' := by
  refine (runSteps_induct (R := fun b' => Ctl c b' ∧ ((∃ code, b'.procs[n]? = some (some code)) ∨ b'.procs[n]? = some none ∧ Hunted n b b'))
    ?_ ls _ _ ⟨hc, .inr ⟨hn, h⟩⟩ hr).2
  rintro x l y ⟨hx, hd⟩ hs
  refine ⟨hx.step hs, ?_⟩
  rcases hd with ⟨code, he⟩ | ⟨hn0, h0⟩
  · exact .inl ⟨code, complete_step hs he⟩
  · have hlt : n < x.procs.length := (hx.transport n h0.transport).1
    have hlt1 : n < y.procs.length := by
      rcases step_procs hs with e | ⟨_, _, e⟩ | ⟨m, code, _, e⟩ <;> rw [e]
      · exact hlt
      · simp; omega
      · simpa using hlt
    have hv : y.procs[n]? = some (y.procs[n]) := List.getElem?_eq_getElem hlt1
    cases hw : y.procs[n] with
    | none => rw [hw] at hv; exact .inr ⟨hv, h0.step hx hn0 hs hv⟩
    | some code => rw [hw] at hv; exact .inl ⟨code, hv⟩

theorem Hunted.begin {a : ProcAct} {n : Nat} (b : Bool) (ht : a.task = .running n) (htr : a.transport = some n)
    (hp : a.comp = .pending) (hs : a.shut = .pending) : Hunted n b (a.shutdownProcess b) := by
  have e : a.shutdownProcess b = { a with shut := .done, sigterm := .scheduled, sigkill := .scheduled, shutAt := some a.now,
                                          queue := a.queue ++ (if b then [.signal .int true true] else []) } := by
    unfold shutdownProcess; simp [hs, hp, htr]
  rw [e]
  refine ⟨htr, ht, rfl, ?_, .inl rfl, .inl rfl⟩
  intro hb; subst hb
  exact .inl (List.mem_append_right _ (List.mem_singleton.mpr rfl))

theorem Hunted.weaken {n : Nat} {b : Bool} {a : ProcAct} (h : Hunted n b a) : Hunted n false a :=
  ⟨h.transport, h.task, h.shut, fun x => (by cases x), h.term, h.kill⟩

/-- Beginning the shutdown of a running process. -/
theorem hunted_of_begun {c : ProcCfg} {a a' : ProcAct} {l : ProcLabel} {n : Nat} (hc : Ctl c a) (ht : a.task = .running n)
    (hs : a.step c l = some a') (hp : a.shut ≠ .done) (hd : a'.shut = .done) : Hunted n false a' := by
  have htr := hc.running n ht
  have hpr := hc.present (by rw [ht]; simp)
  have hcp : a.comp = .pending := pending_of hc (by rw [ht]; simp) (by rw [ht]; simp)
  have hsp : a.shut = .pending := by
    cases h : a.shut with
    | unset => exact absurd h hpr.2.1
    | pending => rfl
    | done => exact absurd h hp
  have hno : ∀ x : ProcAct, x.shut = a.shut → a' = x → False := by
    rintro x hx rfl
    exact hp (hx ▸ hd)
  cases l with
  | execute =>
    simp only [ProcAct.step, Option.some.injEq] at hs; subst hs
    unfold execute at hd
    simp only [hpr.2.2] at hd
    exact absurd hd hp
  | begin ok => simp [ProcAct.step, ht] at hs
  | spawn => simp [ProcAct.step, ht] at hs
  | spawnFail => simp [ProcAct.step, ht] at hs
  | attach => simp [ProcAct.step, ht] at hs
  | delayOver => simp [ProcAct.step, ht] at hs
  | procExit m code =>
    simp only [ProcAct.step] at hs
    split at hs
    · simp only [Option.some.injEq] at hs; subst hs; exact absurd hd hp
    · cases hs
  | observe =>
    simp only [ProcAct.step] at hs
    split at hs
    · split at hs
      · simp only [Option.some.injEq] at hs; subst hs
        unfold observe at hd
        simp only at hd
        split at hd
        · exact absurd hd hp
        · exact absurd hd hp
      · cases hs
    · cases hs
  | timerBegin s =>
    simp only [ProcAct.step] at hs
    split at hs
    · simp only [Option.some.injEq] at hs; subst hs; rw [setTimer_eq] at hd; exact absurd hd hp
    · cases hs
  | timerFire s =>
    simp only [ProcAct.step] at hs
    split at hs
    · split at hs
      · simp only [Option.some.injEq] at hs; subst hs; rw [setTimer_eq] at hd; exact absurd hd hp
      · cases hs
    · cases hs
  | tick => simp only [ProcAct.step, Option.some.injEq] at hs; subst hs; exact absurd hd hp
  | setShut => simp only [ProcAct.step, Option.some.injEq] at hs; subst hs; exact absurd hd hp
  | emit e =>
    simp only [ProcAct.step] at hs
    split at hs
    · simp only [Option.some.injEq] at hs; subst hs; exact absurd hd hp
    · cases hs
  | ask b =>
    simp only [ProcAct.step, Option.some.injEq] at hs; subst hs
    exact (Hunted.begin b ht htr hcp hsp).weaken
  | process =>
    simp only [ProcAct.step] at hs
    unfold ProcAct.process at hs
    have hdef : ∀ x : ProcAct, x.task = .running n → x.transport = some n → x.comp = .pending → x.shut = .pending →
        ∀ bs : List Bool, (bs.foldl (fun a b => a.shutdownProcess b) x).shut = .done →
        Hunted n false (bs.foldl (fun a b => a.shutdownProcess b) x) := by
      intro x h1 h2 h3 h4 bs h5
      cases bs with
      | nil => rw [List.foldl_nil, h4] at h5; cases h5
      | cons b bs =>
        have hb := Hunted.begin b h1 h2 h3 h4
        rw [List.foldl_cons, deferred_shut _ _ hb.shut]
        exact hb.weaken
    split at hs
    · cases hs
    · rename_i e q hq
      simp only [Option.some.injEq] at hs
      subst hs
      cases e with
      | shutdownProcess mine =>
        simp only at hd ⊢
        split
        · exact (Hunted.begin (a := { a with queue := q }) true ht htr hcp hsp).weaken
        · rename_i hf; rw [if_neg hf] at hd; exact absurd hd hp
      | shutdown sig =>
        simp only at hd ⊢
        rw [if_pos (by rw [hcp]; simp)]
        exact (Hunted.begin (a := { a with queue := q, ctxShut := true }) _ ht htr hcp hsp).weaken
      | started m => exact hdef { a with queue := q } ht htr hcp hsp _ hd
      | otherStarted => exact hdef { a with queue := q } ht htr hcp hsp _ hd
      | exited m code => exact absurd hd hp
      | timer s => exact absurd hd hp
      | signal s mine own =>
        simp only at hd
        split at hd
        · unfold onSignal at hd
          rw [htr] at hd
          simp only at hd
          split at hd <;> exact absurd hd hp
        · exact absurd hd hp

theorem settled_esc {c : ProcCfg} {a : ProcAct} {n : Nat} {s : Sig} (h : Esc n s a) (hs : a.Settled c) : a.Sent n s ∨ a.Awaits s := by
  obtain ⟨hq, ht⟩ := hs
  rcases h with h | ⟨d, h⟩ | h | h | h
  · have := (ht s).1
    simp [ProcAct.step, h] at this
  · have := (ht s).2
    simp only [ProcAct.step, h] at this
    split at this
    · cases this
    · rename_i hlt
      exact .inr ⟨d, h, by omega⟩
  · rw [hq] at h; cases h
  · rw [hq] at h; cases h
  · exact .inl h

/-- **C35 A process that does not react is sent SIGTERM and SIGKILL.**  Process `n` runs and its shutdown begins, by whatever step.  As long as its end was not
noticed, in every later state in which everything that is due was done, it has been sent SIGTERM, or the timer for it is still to fire; the same for SIGKILL. -/
theorem C35_escalation_reaches (c : ProcCfg) (ls : List ProcLabel) (a a1 : ProcAct) (l : ProcLabel) (n : Nat) (h : ProcAct.Reaches c ls a)
    (hn : a.RunsProc n) (hp : a.shut ≠ .done) (hs : a.step c l = some a1) (hd : a1.shut = .done)
    (ls' : List ProcLabel) (a' : ProcAct) (hr : runSteps (ProcAct.step c) a1 ls' = some a') (hn' : a'.procs[n]? = some none)
    (hset : a'.Settled c) : (a'.Sent n .term ∨ a'.Awaits .term) ∧ (a'.Sent n .kill ∨ a'.Awaits .kill) := by
  have hc := Ctl.reach h
  have h1 := hunted_of_begun hc hn.1 hs hp hd
  have hlt1 : a1.procs[n]? = some none ∨ ∃ code, a1.procs[n]? = some (some code) := by
    have hlt : n < a1.procs.length := ((hc.step hs).transport n h1.transport).1
    have hv : a1.procs[n]? = some (a1.procs[n]) := List.getElem?_eq_getElem hlt
    cases hw : a1.procs[n] with
    | none => rw [hw] at hv; exact .inl hv
    | some code => rw [hw] at hv; exact .inr ⟨code, hv⟩
  rcases hlt1 with hn1 | ⟨code, hx⟩
  · rcases h1.run (hc.step hs) hn1 hr with ⟨code, hx⟩ | ⟨_, h2⟩
    · rw [hn'] at hx; cases hx
    · exact ⟨settled_esc h2.term hset, settled_esc h2.kill hset⟩
  · have := (ended_no_signal hx hr).1
    rw [hn'] at this; cases this

/-- **C35 … and SIGINT first.**  If the shutdown was asked for with SIGINT — by a ShutdownProcess event, by a Shutdown event that is not due to SIGINT or when nobody
is at the terminal, or by calling for it —, then SIGINT has been sent as soon as everything that is due was done. -/
theorem C35_interrupt_reaches (c : ProcCfg) (ls : List ProcLabel) (a a1 : ProcAct) (l : ProcLabel) (n : Nat) (h : ProcAct.Reaches c ls a)
    (hn : a.RunsProc n) (hp : a.shut ≠ .done) (hs : a.step c l = some a1)
    (hl : l = .ask true ∨ l = .process ∧ ∃ e q, a.queue = e :: q ∧
      (e = .shutdownProcess true ∨ ∃ sig, e = .shutdown sig ∧ (sig = false ∨ c.noninteractive = true)))
    (ls' : List ProcLabel) (a' : ProcAct) (hr : runSteps (ProcAct.step c) a1 ls' = some a') (hn' : a'.procs[n]? = some none)
    (hset : a'.Settled c) : a'.Sent n .int := by
  have hc := Ctl.reach h
  obtain ⟨ht, hn0⟩ := hn
  have htr := hc.running n ht
  have hpr := hc.present (by rw [ht]; simp)
  have hcp : a.comp = .pending := pending_of hc (by rw [ht]; simp) (by rw [ht]; simp)
  have hsp : a.shut = .pending := by
    cases h : a.shut with
    | unset => exact absurd h hpr.2.1
    | pending => rfl
    | done => exact absurd h hp
  have hq : ∀ (x : ProcAct) (b : Bool), (x.shutdownProcess b).procs = x.procs := fun x b => by rw [(shutdownProcess_frame b x).rest]
  have key : Hunted n true a1 ∧ a1.procs[n]? = some none := by
    rcases hl with e | ⟨e, ev, q, hqu, hev⟩
    · subst e
      simp only [ProcAct.step, Option.some.injEq] at hs; subst hs
      exact ⟨Hunted.begin true ht htr hcp hsp, by rw [hq]; exact hn0⟩
    · subst e
      simp only [ProcAct.step] at hs
      unfold ProcAct.process at hs
      rw [hqu] at hs
      simp only [Option.some.injEq] at hs
      subst hs
      rcases hev with e | ⟨sig, e, hsig⟩
      · subst e
        simp only
        rw [if_pos (by rw [hcp]; simp)]
        exact ⟨Hunted.begin (a := { a with queue := q }) true ht htr hcp hsp, by rw [hq]; exact hn0⟩
      · subst e
        simp only
        rw [if_pos (by rw [hcp]; simp)]
        have hb : (!sig || c.noninteractive) = true := by rcases hsig with e | e <;> simp [e]
        rw [hb]
        exact ⟨Hunted.begin (a := { a with queue := q, ctxShut := true }) true ht htr hcp hsp, by rw [hq]; exact hn0⟩
  rcases key.1.run (hc.step hs) key.2 hr with ⟨code, hx⟩ | ⟨_, h2⟩
  · rw [hn'] at hx; cases hx
  · rcases h2.int rfl with h3 | h3
    · rw [hset.1] at h3; cases h3
    · exact h3

/-- A process that ignores signals: everything is sent. -/
def ignoring : List ProcLabel := [.process, .timerBegin .term, .timerBegin .kill, .tick, .timerFire .term, .process, .process, .tick, .timerFire .kill, .process, .process]

example : ∃ a a1 a', ProcAct.Reaches { sigtermTimeout := 1, sigkillTimeout := 1 } [.execute, .begin true, .spawn, .attach, .process, .emit (.shutdownProcess true)] a ∧
    a.RunsProc 0 ∧ a.shut ≠ .done ∧ a.step { sigtermTimeout := 1, sigkillTimeout := 1 } .process = some a1 ∧ a1.shut = .done ∧
    runSteps (ProcAct.step { sigtermTimeout := 1, sigkillTimeout := 1 }) a1 ignoring = some a' ∧ a'.procs[0]? = some none ∧
    a'.queue = [] ∧ a'.sigterm = .fired ∧ a'.sigkill = .fired ∧
    a'.signals = [⟨.int, 0, 0, true⟩, ⟨.term, 0, 1, true⟩, ⟨.kill, 0, 2, true⟩] :=
  ⟨_, _, _, rfl, ⟨by decide +kernel, by decide +kernel⟩, by decide +kernel, rfl, by decide +kernel, rfl, by decide +kernel, by decide +kernel,
    by decide +kernel, by decide +kernel, by decide +kernel⟩

end Verif
