import Verif.Props.TestWait

/-! # C101: what the waiting calls of launch_testing wait for -/

namespace Verif

/-! ## Processes -/

theorem latest_isSome (es : List ProcReport) (p : Nat) : (latest es p).isSome ↔ ∃ e ∈ es, e.action = p := by
  simp [latest, List.find?_isSome]

theorem latest_action {es : List ProcReport} {p : Nat} {e : ProcReport} (h : latest es p = some e) : e.action = p := by
  have := List.find?_some h
  simpa using this

/-- The process has exited, according to the latest report about it. -/
def HasExited (es : List ProcReport) (p : Nat) : Prop := ∃ rc, latest es p = some (.exited p rc)

theorem lookup_exited (es : List ProcReport) (p : Nat) (s : Seen) (hs : s.info = ProcInfo.run [] es) : proxyTerminated p s = true ↔ HasExited es p := by
  unfold proxyTerminated HasExited
  rw [hs, (procInfo_spec es).2.1 p]
  cases hl : latest es p with
  | none => simp
  | some e =>
    have := latest_action hl
    cases e with
    | started a => simp
    | exited a rc => simp only [ProcReport.action] at this; subst this; simp

theorem lookup_started (es : List ProcReport) (p : Nat) (s : Seen) (hs : s.info = ProcInfo.run [] es) :
    proxyRunning p s = true ↔ latest es p = some (.started p) := by
  unfold proxyRunning
  rw [hs, (procInfo_spec es).2.1 p]
  cases hl : latest es p with
  | none => simp
  | some e =>
    have := latest_action hl
    cases e with
    | started a => simp only [ProcReport.action] at this; subst this; simp
    | exited a rc => simp

theorem processes_iff (es : List ProcReport) (p : Nat) : p ∈ (ProcInfo.run [] es).processes ↔ ∃ e ∈ es, e.action = p := by
  rw [(procInfo_spec es).2.2 p, latest_isSome]

/-- For one process the condition of `assertWaitForShutdown` is the one of `ProcessProxy.wait_for_shutdown`. -/
theorem shutdownPred_action (det : Nat → ProcDetails) (es : List ProcReport) (p : Nat) (args : ArgQuery) (s : Seen) (hs : s.info = ProcInfo.run [] es) :
    shutdownPred det (.action p) args s = .ok (proxyTerminated p s) := by
  unfold shutdownPred
  by_cases hp : p ∈ s.info.processes
  · have hr : resolveProcesses det s.info.processes (.action p) args true = .ok [p] := by simp [resolveProcesses, hp]
    rw [hr]
    simp only [reduceCtorEq, if_false, ProcInfo.byAction, proxyTerminated]
    rw [hs, processes_iff] at hp
    cases hl : s.info.lookup p with
    | none =>
      rw [hs, (procInfo_spec es).2.1 p] at hl
      have := (latest_isSome es p).2 hp
      rw [hl] at this; cases this
    | some e => cases e <;> rfl
  · have hr : resolveProcesses det s.info.processes (.action p) args true = .error .noMatchingProcess := by simp [resolveProcesses, hp]
    rw [hr]
    simp only [proxyTerminated]
    cases hl : s.info.lookup p with
    | none => rfl
    | some e =>
      exfalso
      apply hp
      rw [hs] at hl ⊢
      rw [(procInfo_spec es).2.1 p] at hl
      rw [(procInfo_spec es).2.2 p, hl]; rfl

/-- C101: `running`, `terminated` and `exit_code` of a proxy say what the latest report about the process says; there is an exit code exactly if it has exited. -/
theorem C101_proxy_state {C : Nat → WaitCall} {L : List CvLabel} {s : CvState} (h : CvReaches C L s) (p : Nat) :
    (proxyRunning p s.seen = true ↔ latest (reportsIn L) p = some (.started p)) ∧
    (proxyTerminated p s.seen = true ↔ HasExited (reportsIn L) p) ∧
    (∀ rc, proxyExitCode p s.seen = .ok rc ↔ latest (reportsIn L) p = some (.exited p rc)) := by
  have hs := (seen_of h).1
  refine ⟨lookup_started _ p _ hs, lookup_exited _ p _ hs, fun rc => ?_⟩
  unfold proxyExitCode ProcInfo.byAction
  rw [hs, (procInfo_spec (reportsIn L)).2.1 p]
  cases hl : latest (reportsIn L) p with
  | none => simp
  | some e =>
    have := latest_action hl
    cases e with
    | started a => simp
    | exited a rc' => simp only [ProcReport.action] at this; subst this; simp

/-- C101: when `assertWaitForShutdown` for an action, or `wait_for_shutdown` of its proxy, ends, it says whether the process has exited according to
what was reported up to this moment, and it does not say no before the timeout. -/
theorem C101_shutdown {C : Nat → WaitCall} {L : List CvLabel} {s : CvState} (h : CvReaches C L s) (i : Nat) (det : Nat → ProcDetails) (p : Nat)
    (args : ArgQuery) (timeout : Option Nat) (hC : C i = waitShutdown det (.action p) args timeout ∨ C i = proxyWaitShutdown p timeout)
    (r : Res Bool) (text : Option (List Char)) (t : Nat) (hc : s.call i = .ended r text t) :
    ∃ L1 s1 b, L1 <+: L ∧ CvReaches C L1 s1 ∧ s1.now = t ∧ r = .ok b ∧ (b = true ↔ HasExited (reportsIn L1) p) ∧
      (b = false → ∃ L0 s0 d, L0 ++ [.call i] <+: L1 ∧ CvReaches C L0 s0 ∧ timeout = some d ∧ s0.now + d ≤ t) := by
  obtain ⟨L1, s1, h1, h2, h3, h4, _, h5⟩ := C101_result h i r text t hc
  have hs := (seen_of h2).1
  have hp : (C i).pred s1.seen = .ok (proxyTerminated p s1.seen) := by
    rcases hC with e | e
    · rw [e]; exact shutdownPred_action det _ p args _ hs
    · rw [e]; rfl
  have hto : (C i).timeout = timeout := by rcases hC with e | e <;> rw [e] <;> rfl
  rw [h4] at hp
  refine ⟨L1, s1, _, ?_, h2, h3, hp, lookup_exited _ _ _ hs, ?_⟩
  · rcases h1 with h1 | h1 <;> exact (List.prefix_append _ _).trans h1
  · intro hf
    rw [hto] at h5
    exact h5 (by rw [hp, hf])

/-- C101: when `assertWaitForStartup` for an action ends, it says whether a start or exit of the process was reported up to this moment. -/
theorem C101_startup {C : Nat → WaitCall} {L : List CvLabel} {s : CvState} (h : CvReaches C L s) (i : Nat) (det : Nat → ProcDetails) (p : Nat)
    (args : ArgQuery) (timeout : Option Nat) (hC : C i = waitStartup det (.action p) args timeout)
    (r : Res Bool) (text : Option (List Char)) (t : Nat) (hc : s.call i = .ended r text t) :
    ∃ L1 s1 b, L1 <+: L ∧ CvReaches C L1 s1 ∧ s1.now = t ∧ r = .ok b ∧ (b = true ↔ ∃ e ∈ reportsIn L1, e.action = p) ∧
      (b = false → ∃ L0 s0 d, L0 ++ [.call i] <+: L1 ∧ CvReaches C L0 s0 ∧ timeout = some d ∧ s0.now + d ≤ t) := by
  obtain ⟨L1, s1, h1, h2, h3, h4, _, h5⟩ := C101_result h i r text t hc
  have hs := (seen_of h2).1
  have hpre : L1 <+: L := by rcases h1 with h1 | h1 <;> exact (List.prefix_append _ _).trans h1
  rw [hC] at h4 h5
  simp only [waitStartup, startupPred, resolveProcesses] at h4 h5
  by_cases hp : p ∈ s1.seen.info.processes
  · rw [if_pos hp] at h4
    refine ⟨L1, s1, true, hpre, h2, h3, h4.symm, ?_, by simp⟩
    rw [hs, processes_iff] at hp
    simpa using hp
  · rw [if_neg hp] at h4
    refine ⟨L1, s1, false, hpre, h2, h3, h4.symm, ?_, fun _ => h5 h4.symm⟩
    rw [hs, processes_iff] at hp
    simpa using hp

theorem processes_append (d : ProcInfo) (e : ProcReport) (p : Nat) (h : p ∈ d.processes) : p ∈ (d.append e).processes := by
  induction d with
  | nil => cases h
  | cons x d ih =>
    obtain ⟨a, e'⟩ := x
    simp only [ProcInfo.append]
    split
    · exact h
    · simp only [ProcInfo.processes, List.map_cons, List.mem_cons] at h ⊢
      rcases h with h | h
      · exact .inl h
      · exact .inr (ih h)

/-- C101: once `assertWaitForStartup` for an action could succeed, it goes on to be able to, so that it never fails although the start was reported in time. -/
theorem C101_startup_stable (det : Nat → ProcDetails) (p : Nat) (args : ArgQuery) (timeout : Option Nat) : (waitStartup det (.action p) args timeout).Stable := by
  intro s op h
  simp only [waitStartup, startupPred, resolveProcesses] at h ⊢
  by_cases hp : p ∈ s.info.processes
  · have : p ∈ (s.put op).info.processes := by
      cases op with
      | io op => exact hp
      | report e => exact processes_append _ _ _ hp
    rw [if_pos this]
  · rw [if_neg hp] at h
    cases h

/-- C101: a process asked for by its name is the only one reported that is meant by the name and the arguments.  While there is none the calls wait; if there
is more than one they raise an exception. -/
theorem C101_by_name (det : Nat → ProcDetails) (es : List ProcReport) (name : String) (args : ArgQuery) (s : Seen) (hs : s.info = ProcInfo.run [] es) :
    (∀ p, ((∃ e ∈ es, e.action = p) ∧ Asked det (.name name) args p ∧ ∀ p', (∃ e ∈ es, e.action = p') → Asked det (.name name) args p' → p' = p) →
      shutdownPred det (.name name) args s = shutdownPred det (.action p) args s ∧ startupPred det (.name name) args s = .ok true) ∧
    ((¬ ∃ p, (∃ e ∈ es, e.action = p) ∧ Asked det (.name name) args p) →
      shutdownPred det (.name name) args s = .ok false ∧ startupPred det (.name name) args s = .ok false) ∧
    ((∃ p p', p ≠ p' ∧ (∃ e ∈ es, e.action = p) ∧ Asked det (.name name) args p ∧ (∃ e ∈ es, e.action = p') ∧ Asked det (.name name) args p') →
      shutdownPred det (.name name) args s = .error multipleProcesses ∧ startupPred det (.name name) args s = .error multipleProcesses) := by
  have hnd : s.info.processes.Nodup := by rw [hs]; exact (procInfo_spec es).1
  have hpr : ∀ p, p ∈ s.info.processes ↔ ∃ e ∈ es, e.action = p := by intro p; rw [hs, processes_iff]
  obtain ⟨hr1, hr2, hr3⟩ := C50_raises det s.info.processes hnd (.name name) args true
  have hx := C50_exact det s.info.processes (.name name) args true
  refine ⟨?_, ?_, ?_⟩
  · rintro p ⟨hp, ha, hu⟩
    have hres2 : resolveProcesses det s.info.processes (.action p) args true = .ok [p] := by simp [resolveProcesses, (hpr p).2 hp]
    have hres1 : resolveProcesses det s.info.processes (.name name) args true = .ok [p] := by
      cases hres : resolveProcesses det s.info.processes (.name name) args true with
      | error e =>
        exfalso
        have : e = .noMatchingProcess ∨ e = multipleProcesses ∨ e = .typeError := by
          simp only [resolveProcesses] at hres
          split at hres
          · simp only [Except.error.injEq] at hres; exact .inl hres.symm
          · split at hres
            · simp only [Except.error.injEq] at hres; exact .inr (.inl hres.symm)
            · cases hres
        rcases this with rfl | rfl | rfl
        · exact (hr1.1 hres).2 p ((hpr p).2 hp) ha
        · obtain ⟨_, _, a, ham, b, hbm, hne, haa, hba⟩ := hr2.1 hres
          exact hne (by rw [hu a ((hpr a).1 ham) haa, hu b ((hpr b).1 hbm) hba])
        · have := hr3.1 hres; cases this
      | ok l =>
        obtain ⟨h1, _, hsub, hlen⟩ := hx l hres
        have hnl : l.Nodup := hsub.nodup hnd
        match l, h1, hnl, hlen with
        | [], h1, _, _ => exact absurd ((h1 p).2 ⟨(hpr p).2 hp, ha⟩) (by simp)
        | [x], h1, _, _ =>
          have := (h1 p).2 ⟨(hpr p).2 hp, ha⟩
          simp only [List.mem_singleton] at this
          rw [this]
        | x :: y :: l, _, _, hlen =>
          rcases hlen (by simp) with h | h <;> cases h
    constructor
    · simp only [shutdownPred, hres1, hres2, reduceCtorEq, if_false]
    · simp only [startupPred, hres1]
  · intro hno
    have : resolveProcesses det s.info.processes (.name name) args true = .error .noMatchingProcess :=
      hr1.2 ⟨by simp, fun p hp ha => hno ⟨p, (hpr p).1 hp, ha⟩⟩
    simp only [shutdownPred, startupPred, this, and_self]
  · rintro ⟨p, p', hne, hp, ha, hp', ha'⟩
    have : resolveProcesses det s.info.processes (.name name) args true = .error multipleProcesses :=
      hr2.2 ⟨rfl, ⟨name, rfl⟩, p, (hpr p).2 hp, p', (hpr p').2 hp', hne, ha, ha'⟩
    simp [shutdownPred, startupPred, this, multipleProcesses]

/-! ## Output -/

theorem outputIn_prefix {L1 L : List CvLabel} (h : L1 <+: L) {io : Io} (hio : io ∈ appended (outputIn L1)) : io ∈ appended (outputIn L) := by
  obtain ⟨m, rfl⟩ := h
  simp only [outputIn, appended, List.filterMap_append, List.mem_append]
  exact .inl hio

/-- C101, if no chunk ends inside a character: when `ActiveIoHandler.waitFor` ends its wait with a result, it says whether some process asked for has
written acceptable text to the stream, among those recorded up to this moment; the query can be resolved then if it says so. -/
theorem C101_output_partial {C : Nat → WaitCall} {L : List CvLabel} {s : CvState} (h : CvReaches C L s) (i : Nat) (det : Nat → ProcDetails)
    (accepts : List Char → Bool) (q : ProcQuery) (args : ArgQuery) (strict stdout : Bool) (timeout : Option Nat)
    (hn : NamesOfActions det (outputIn L)) (hw : ∀ io ∈ appended (outputIn L), WholeChars io.text)
    (hC : C i = waitOutput det accepts q args strict (if stdout then .stdout else .stderr) timeout)
    (b : Bool) (text : Option (List Char)) (t : Nat) (hc : s.call i = .ended (.ok b) text t) :
    ∃ L1 s1, L1 <+: L ∧ CvReaches C L1 s1 ∧ s1.now = t ∧
      (b = true → ∃ p x, (∃ io ∈ appended (outputIn L1), io.action = p) ∧ Asked det q args p ∧ wrote (outputIn L1) p stdout = encode x ∧ accepts x = true) ∧
      (b = false → (∀ p x, (∃ io ∈ appended (outputIn L1), io.action = p) → Asked det q args p → wrote (outputIn L1) p stdout = encode x → accepts x = false) ∧
        ∃ L0 s0 d, L0 ++ [.call i] <+: L1 ∧ CvReaches C L0 s0 ∧ timeout = some d ∧ s0.now + d ≤ t) := by
  obtain ⟨L1, s1, h1, h2, h3, h4, _, h5⟩ := C101_result h i _ text t hc
  have hio := (seen_of h2).2
  have hpre : L1 <+: L := by rcases h1 with h1 | h1 <;> exact (List.prefix_append _ _).trans h1
  have hn1 : NamesOfActions det (outputIn L1) := ⟨fun io hio => hn.1 io (outputIn_prefix hpre hio), hn.2⟩
  have hw1 : ∀ io ∈ appended (outputIn L1), WholeChars io.text := fun io hio => hw io (outputIn_prefix hpre hio)
  have key := C68_whole_stream_partial det (outputIn L1) hn1 hw1 accepts q args strict stdout
  rw [hC] at h4 h5
  simp only [waitOutput, msgFound, hio] at h4 h5
  refine ⟨L1, s1, hpre, h2, h3, ?_, ?_⟩
  · rintro rfl
    have hok : assertInStream det (({} : IoHandler).run (outputIn L1)) accepts q args strict (if stdout then .stdout else .stderr) = .ok () := by
      split at h4
      · assumption
      · cases h4
      · cases h4
      · cases h4
    obtain ⟨_, p, hp, ha, x, hx, hacc⟩ := key.1 hok
    exact ⟨p, x, hp, ha, hx, hacc⟩
  · rintro rfl
    refine ⟨?_, h5 rfl⟩
    intro p x hp ha hx
    cases hacc : accepts x with
    | false => rfl
    | true =>
      exfalso
      -- the query can be resolved, since otherwise there is no process or an exception
      have hres : ∃ l, resolveProcesses det (({} : IoHandler).run (outputIn L1)).processes q args strict = .ok l := by
        obtain ⟨g1, g2, _⟩ := C51_by_action det (outputIn L1) hn1
        cases hr : resolveProcesses det (({} : IoHandler).run (outputIn L1)).processes q args strict with
        | ok l => exact ⟨l, rfl⟩
        | error e =>
          exfalso
          by_cases he : e = .noMatchingProcess
          · subst he
            exact ((C50_raises det _ g2 q args strict).1.1 hr).2 p ((g1 p).2 hp) ha
          · have hne : e ≠ .assertionError := by
              rintro rfl
              cases q with
              | all => simp only [resolveProcesses] at hr; split at hr <;> cases hr
              | action p => simp only [resolveProcesses] at hr; split at hr <;> cases hr
              | name n =>
                simp only [resolveProcesses] at hr
                split at hr
                · cases hr
                · split at hr <;> cases hr
              | other => simp [resolveProcesses] at hr
            simp only [assertInStream, hr] at h4
            cases h4
      have := key.2 ⟨hres, p, hp, ha, x, hx, hacc⟩
      rw [this] at h4
      cases h4

/-- C101: if the wait of `waitFor` was in vain, `waitFor` returns False if there is output of a process asked for, and raises NoMatchingProcessException if there is
none.  (Its own, more helpful exception is never raised.) -/
theorem C101_no_process (det : Nat → ProcDetails) (ops : List IoOp) (hn : NamesOfActions det ops) (q : ProcQuery) (hq : q ≠ .other) (args : ArgQuery) :
    ((∃ p, (∃ io ∈ appended ops, io.action = p) ∧ Asked det q args p) → waitForResult det q args (({} : IoHandler).run ops) false = .ok false) ∧
    ((¬ ∃ p, (∃ io ∈ appended ops, io.action = p) ∧ Asked det q args p) →
      waitForResult det q args (({} : IoHandler).run ops) false = .error .noMatchingProcess) := by
  obtain ⟨g1, g2, _⟩ := C51_by_action det ops hn
  obtain ⟨r1, r2, r3⟩ := C50_raises det _ g2 q args false
  constructor
  · rintro ⟨p, hp, ha⟩
    simp only [waitForResult, Bool.false_eq_true, if_false]
    cases hr : resolveProcesses det (({} : IoHandler).run ops).processes q args false with
    | ok l =>
      have := (C50_exact det _ q args false l hr).2.1
      have hl : l.length ≠ 0 := by simpa using this
      simp [hl]
    | error e =>
      exfalso
      have he : e = .noMatchingProcess ∨ e = .typeError := by
        cases q with
        | all => simp only [resolveProcesses] at hr; split at hr <;> cases hr; exact .inl rfl
        | action p => simp only [resolveProcesses] at hr; split at hr <;> cases hr; exact .inl rfl
        | name n =>
          simp only [resolveProcesses] at hr
          split at hr
          · cases hr; exact .inl rfl
          · simp at hr
        | other => simp only [resolveProcesses] at hr; cases hr; exact .inr rfl
      rcases he with rfl | rfl
      · exact (r1.1 hr).2 p ((g1 p).2 hp) ha
      · exact hq (r3.1 hr)
  · intro hno
    have := r1.2 ⟨hq, fun p hp ha => hno ⟨p, (g1 p).1 hp, ha⟩⟩
    simp [waitForResult, this]

/-- C101: `waitFor` returns True exactly if its wait did. -/
theorem C101_result_of_wait (det : Nat → ProcDetails) (q : ProcQuery) (args : ArgQuery) (later : IoHandler) (b : Bool) :
    waitForResult det q args later b = .ok true ↔ b = true := by
  cases b with
  | true => simp [waitForResult]
  | false =>
    simp only [waitForResult, Bool.false_eq_true, if_false, iff_false]
    repeat' split
    all_goals simp

/-- C101, if no chunk ends inside a character: `stdout`, `stderr` and `output` of a proxy are what the process has written to the streams selected,
all of it, in order and nothing else (after the filter). -/
theorem C101_proxy_streams_partial (det : Nat → ProcDetails) (ops : List IoOp) (hn : NamesOfActions det ops) (p : Nat) (filt : List Char → List Char)
    (which : Io → Bool) (s : Seen) (hs : s.io = ({} : IoHandler).run ops) (hp : ∃ io ∈ appended ops, io.action = p)
    (hw : ∀ io ∈ appended ops, WholeChars io.text) :
    ∃ x, proxyText det p filt which s = .ok (filt x) ∧
      (((appended ops).filter (fun io => io.action == p && which io)).map (·.text)).flatten = encode x := by
  obtain ⟨g1, _, g3⟩ := C51_by_action det ops hn
  have hb := g3 p ((g1 p).2 hp)
  obtain ⟨x, hx1, hx2⟩ := joinDecoded_whole (((appended ops).filter (fun io => io.action == p)).filter which) (by
    intro io hio
    exact hw io (List.mem_filter.1 (List.mem_filter.1 hio).1).1)
  refine ⟨x, by simp only [proxyText, hs, hb, hx1], ?_⟩
  rw [List.filter_filter] at hx2
  rw [← hx2]
  congr 2
  apply List.filter_congr
  intro io _
  exact Bool.and_comm _ _

/-- C101, if no chunk ends inside a character: when `wait_for_output` of a proxy ends with True, the process is running, the condition holds of all
the text it has written to both streams up to this moment (after the filter), and the text that comes with the result is this one. -/
theorem C101_proxy_output_partial {C : Nat → WaitCall} {L : List CvLabel} {s : CvState} (h : CvReaches C L s) (i : Nat) (det : Nat → ProcDetails) (p : Nat)
    (filt : List Char → List Char) (cond : List Char → Res Bool) (timeout : Option Nat) (hC : C i = proxyWaitOutput det p filt cond timeout)
    (hn : NamesOfActions det (outputIn L)) (hw : ∀ io ∈ appended (outputIn L), WholeChars io.text)
    (text : Option (List Char)) (t : Nat) (hc : s.call i = .ended (.ok true) text t) :
    ∃ L1 s1 x, L1 <+: L ∧ CvReaches C L1 s1 ∧ s1.now = t ∧ latest (reportsIn L1) p = some (.started p) ∧
      (((appended (outputIn L1)).filter (fun io => io.action == p)).map (·.text)).flatten = encode x ∧
      cond (filt x) = .ok true ∧ text = some (filt x) := by
  obtain ⟨L1, s1, h1, h2, h3, h4, h6, _⟩ := C101_result h i _ text t hc
  have hpre : L1 <+: L := by rcases h1 with h1 | h1 <;> exact (List.prefix_append _ _).trans h1
  have hn1 : NamesOfActions det (outputIn L1) := ⟨fun io hio => hn.1 io (outputIn_prefix hpre hio), hn.2⟩
  have hw1 : ∀ io ∈ appended (outputIn L1), WholeChars io.text := fun io hio => hw io (outputIn_prefix hpre hio)
  obtain ⟨hinfo, hio⟩ := seen_of h2
  rw [hC] at h4 h6
  simp only [proxyWaitOutput, proxyOutputPred, proxyLook] at h4 h6
  cases hrun : proxyRunning p s1.seen with
  | false => rw [hrun] at h4; cases h4
  | true =>
    simp only [hrun, if_true] at h4 h6
    have hby : (∃ l, s1.seen.io.byAction det p = .ok l ∧ l = (appended (outputIn L1)).filter (fun io => io.action == p)) ∨
        ∃ e, s1.seen.io.byAction det p = .error e := by
      obtain ⟨g1, _, g3⟩ := C51_by_action det (outputIn L1) hn1
      rw [hio]
      by_cases hp : p ∈ (({} : IoHandler).run (outputIn L1)).processes
      · exact .inl ⟨_, g3 p hp, rfl⟩
      · cases hb : (({} : IoHandler).run (outputIn L1)).byAction det p with
        | error e => exact .inr ⟨e, rfl⟩
        | ok l =>
          left
          refine ⟨l, rfl, ?_⟩
          have hx := C51_partition (outputIn L1) (det p).name
          have hno : (appended (outputIn L1)).filter (fun io => io.action == p) = [] := by
            rw [List.filter_eq_nil_iff]
            intro io hio' hio2
            exact hp ((g1 p).2 ⟨io, hio', by simpa using hio2⟩)
          rw [hno]
          unfold IoHandler.byAction at hb
          have hl : l = (appended (outputIn L1)).filter (fun io => io.name == (det p).name) := by
            rw [hx.2] at hb
            split at hb
            · simp only [Except.ok.injEq] at hb; exact hb.symm
            · cases hb
          rw [hl, List.filter_eq_nil_iff]
          intro io hio' hio2
          have e1 := hn1.1 io hio'
          simp only [beq_iff_eq] at hio2
          exact hp ((g1 p).2 ⟨io, hio', hn1.2 _ _ (e1.symm.trans hio2)⟩)
    rcases hby with ⟨l, hl, hl2⟩ | ⟨e, he⟩
    · have hf : l.filter (fun _ => true) = l := by simp
      obtain ⟨x, hx1, hx2⟩ := joinDecoded_whole l (by
        intro io hio'
        rw [hl2] at hio'
        exact hw1 io (List.mem_filter.1 hio').1)
      have htext : proxyText det p filt (fun _ => true) s1.seen = .ok (filt x) := by
        simp only [proxyText, hl, hf, hx1]
      rw [htext] at h4 h6
      refine ⟨L1, s1, x, hpre, h2, h3, (lookup_started _ _ _ hinfo).1 hrun, ?_, h4, h6 _ rfl⟩
      rw [← hl2]; exact hx2
    · have htext : proxyText det p filt (fun _ => true) s1.seen = .error e := by simp only [proxyText, he]
      rw [htext] at h4
      cases h4

/-! ## Which conditions are about what -/

/-- C101: the conditions of the handlers and of `wait_for_shutdown` are about what the handler records whose notifications they wait for. -/
theorem C101_own (det : Nat → ProcDetails) (accepts : List Char → Bool) (q : ProcQuery) (args : ArgQuery) (strict : Bool) (stream : StreamArg) (p : Nat)
    (timeout : Option Nat) :
    (waitShutdown det q args timeout).Own ∧ (waitStartup det q args timeout).Own ∧ (waitOutput det accepts q args strict stream timeout).Own ∧
    (proxyWaitShutdown p timeout).Own := by
  refine ⟨?_, ?_, ?_, ?_⟩
  · intro a b (h : a.info = b.info)
    show shutdownPred _ _ _ _ = shutdownPred _ _ _ _
    simp only [shutdownPred, h]
  · intro a b (h : a.info = b.info)
    show startupPred _ _ _ _ = startupPred _ _ _ _
    simp only [startupPred, h]
  · intro a b (h : a.io = b.io)
    show msgFound _ _ _ _ _ _ _ = msgFound _ _ _ _ _ _ _
    simp only [msgFound, h]
  · intro a b (h : a.info = b.info)
    show Except.ok (proxyTerminated p a) = Except.ok (proxyTerminated p b)
    simp only [proxyTerminated, h]

/-- C101 for `wait_for_output` of a proxy, if no two calls wait for output at the same time and the process is running whenever the condition is evaluated, and
now: as soon as the condition holds of the output the call can end, and its next step ends it. -/
theorem C101_proxy_prompt_partial {C : Nat → WaitCall} {L : List CvLabel} {s : CvState} (h : CvReaches C L s) (h1 : OneAtATime C L) (i : Nat)
    (det : Nat → ProcDetails) (p : Nat) (filt : List Char → List Char) (cond : List Char → Res Bool) (timeout : Option Nat)
    (hC : C i = proxyWaitOutput det p filt cond timeout) (hw : s.Waits i)
    (hrun : ∀ L1 s1, (L1 = L ∨ L1 ++ [.call i] <+: L ∨ L1 ++ [.wake i] <+: L) → CvReaches C L1 s1 → latest (reportsIn L1) p = some (.started p))
    (x : List Char) (hx : proxyText det p filt (fun _ => true) s.seen = .ok x) (hcond : cond x = .ok true) :
    ∃ s' text, s.step C (.wake i) = some s' ∧ s'.call i = .ended (.ok true) text s.now := by
  have hnow : (C i).pred s.seen = .ok true := by
    rw [hC]
    show proxyOutputPred _ _ _ _ _ = _
    have := (lookup_started _ p _ (seen_of h).1).2 (hrun L s (.inl rfl) h)
    simp only [proxyOutputPred, this, if_true, hx, hcond]
  obtain ⟨d, w, t, hc⟩ := hw
  cases w with
  | false =>
    exfalso
    obtain ⟨L1, s1, g1, g2, g3, g4⟩ := unwoken_false h h1 i d t hc
    rw [hC] at g3 g4
    have hr1 := (lookup_started _ p _ (seen_of g2).1).2 (hrun L1 s1 (.inr g1) g2)
    have hio : s1.seen.io = s.seen.io := g3
    have : proxyText det p filt (fun _ => true) s1.seen = .ok x := by
      rw [← hx]; simp only [proxyText, hio]
    change proxyOutputPred _ _ _ _ _ = _ at g4
    simp only [proxyOutputPred, hr1, if_true, this, hcond] at g4
    cases g4
  | true =>
    simp only [CvState.step, hc, Bool.true_or, if_true]
    refine ⟨_, ((C i).look s.seen).or t, rfl, ?_⟩
    rcases evaluate_cases (C i) (s.setQueue (C i).cv ((s.queue (C i).cv).erase i)) i d true t with ⟨_, e⟩ | ⟨hf, _, _, _⟩ | ⟨hf, _⟩
    · rw [e]; simp [hnow]
    · simp only [setQueue_seen] at hf; rw [hnow] at hf; cases hf
    · simp only [setQueue_seen] at hf; rw [hnow] at hf; cases hf

/-! ## Violations -/

/-- A call that waits without a timeout and was not notified goes on to wait until something is recorded. -/
theorem stuck_step {C : Nat → WaitCall} {s s' : CvState} {l : CvLabel} {i : Nat} {t : Option (List Char)} (hl : ∀ op, l ≠ .put op)
    (hc : s.call i = .blocked none false t) (h : s.step C l = some s') : s'.call i = .blocked none false t := by
  cases l with
  | put op => exact absurd rfl (hl op)
  | tick => simp only [CvState.step, Option.some.injEq] at h; rw [← h]; exact hc
  | call j =>
    rcases step_call h i with e | ⟨d', w', t', e1, e2⟩ | ⟨_, e1, _⟩ | ⟨e, _⟩
    · rw [e]; exact hc
    · exfalso
      simp only [CvState.step] at h
      by_cases hij : i = j
      · subst hij; rw [hc] at h; cases h
      · cases hcj : s.call j with
        | idle =>
          rw [hcj] at h
          simp only [Option.some.injEq] at h
          rw [← h] at e2
          rcases evaluate_cases (C j) s j ((C j).timeout.map (s.now + ·)) false none with ⟨_, e⟩ | ⟨_, _, _, e⟩ | ⟨_, _, e⟩ <;>
            rw [e] at e2 <;> simp [hij, hc] at e2
        | blocked a b c => rw [hcj] at h; cases h
        | ended a b c => rw [hcj] at h; cases h
    · rw [hc] at e1; cases e1
    · cases e
  | wake j =>
    by_cases hij : i = j
    · subst hij
      simp [CvState.step, hc, lateAt] at h
    · simp only [CvState.step] at h
      cases hcj : s.call j with
      | idle => rw [hcj] at h; cases h
      | ended a b c => rw [hcj] at h; cases h
      | blocked a b c =>
        rw [hcj] at h
        simp only at h
        split at h
        · simp only [Option.some.injEq] at h
          rw [← h]
          rcases evaluate_cases (C j) (s.setQueue (C j).cv ((s.queue (C j).cv).erase j)) j a true c with ⟨_, e⟩ | ⟨_, _, _, e⟩ | ⟨_, _, e⟩ <;>
            rw [e] <;> simp [hij, hc]
        · cases h

/-- C101 is violated if two calls wait at the same time, since only one of them is notified: two threads wait for the exit of the same process, without a
timeout; the process exits, and one of the two waits for ever, unless something else is recorded. -/
theorem C101_lost_violated : ∃ (C : Nat → WaitCall) (L : List CvLabel) (s : CvState),
    (∀ i, C i = proxyWaitShutdown 0 none) ∧ CvReaches C L s ∧ HasExited (reportsIn L) 0 ∧ s.Waits 1 ∧
    ∀ L' s', (∀ l ∈ L', ∀ op, l ≠ .put op) → CvReaches C (L ++ L') s' → s'.Waits 1 := by
  refine ⟨fun _ => proxyWaitShutdown 0 none, [.put (.report (.started 0)), .call 0, .call 1, .put (.report (.exited 0 0))], _, fun _ => rfl, rfl,
    ⟨0, by decide⟩, ⟨none, false, none, rfl⟩, ?_⟩
  intro L' s' hl hr
  unfold CvReaches at hr
  rw [runSteps_append] at hr
  obtain ⟨s1, h1, h2⟩ := Option.bind_eq_some_iff.1 hr
  have hc : s1.call 1 = .blocked none false none := by
    simp only [runSteps, CvState.step] at h1
    cases h1
    rfl
  exact ⟨none, false, none, runSteps_induct' (step := CvState.step _) (R := fun s => s.call 1 = .blocked none false none)
    (C := fun l => ∀ op, l ≠ .put op) (fun s l s' hl hs hstep => stuck_step hl hs hstep) L' s1 s' hl hc h2⟩

/-- The details of the processes in the examples. -/
def waitDet : Nat → ProcDetails := fun n => ⟨String.ofList (List.replicate n 'x'), []⟩

/-- C101 is violated by `wait_for_output` without a condition: it is to wait for any output, and ends with True at once although the running process has written
nothing. -/
theorem C101_any_output_violated : ∃ (C : Nat → WaitCall) (L : List CvLabel) (s : CvState), C 0 = proxyWaitOutput waitDet 0 id (fun _ => .ok true) none ∧
    CvReaches C L s ∧ appended (outputIn L) = [] ∧ s.call 0 = .ended (.ok true) (some []) 0 :=
  ⟨fun _ => proxyWaitOutput waitDet 0 id (fun _ => .ok true) none, [.put (.io (.track "")), .put (.report (.started 0)), .call 0], _, rfl, rfl, rfl, rfl⟩

/-- The output waited for in the examples. -/
def isReady (t : List Char) : Res Bool := .ok (t == "ready".toList)

/-- C101 is violated by `wait_for_output` for a process that exits: it writes what is waited for, within the time, and exits before the waiting thread has looked,
and the result is False; the text that comes with it is not what was written. -/
theorem C101_exited_violated : ∃ (C : Nat → WaitCall) (L : List CvLabel) (s : CvState), C 0 = proxyWaitOutput waitDet 0 id isReady (some 10) ∧
    CvReaches C L s ∧ OneAtATime C L ∧
    (∃ L1 L2 s1, L = L1 ++ L2 ∧ CvReaches C L1 s1 ∧ s1.now < 10 ∧ proxyText waitDet 0 id (fun _ => true) s1.seen = .ok "ready".toList) ∧
    s.call 0 = .ended (.ok false) (some []) 10 := by
  refine ⟨fun _ => proxyWaitOutput waitDet 0 id isReady (some 10),
    ([.put (.io (.track "")), .put (.report (.started 0)), .call 0, .put (.io (.append ⟨0, "", true, encode "ready".toList⟩)),
      .put (.report (.exited 0 0)), .wake 0, .tick, .tick, .tick, .tick, .tick, .tick, .tick, .tick, .tick, .tick, .wake 0] : List CvLabel), _, rfl, by rfl, ?_, ?_,
    by rfl⟩
  · intro L1 i s1 hp hr j _ hw
    have : L1 = [.put (.io (.track "")), .put (.report (.started 0))] := by
      obtain ⟨m, hm⟩ := hp
      match L1, hm with
      | [], hm => cases hm
      | [_], hm => cases hm
      | [a, b], hm =>
        simp only [List.cons_append, List.nil_append, List.cons.injEq] at hm
        rw [hm.1, hm.2.1]
      | a :: b :: c :: L1, hm =>
        exfalso
        simp only [List.cons_append, List.cons.injEq] at hm
        have h1 : CvLabel.call i ∈ L1 ++ [.call i] ++ m := by simp
        rw [hm.2.2.2] at h1
        simp at h1
    subst this
    have e : s1.call j = .idle := by
      unfold CvReaches at hr
      simp only [runSteps, CvState.step] at hr
      cases hr
      rfl
    obtain ⟨_, _, _, h⟩ := hw
    rw [e] at h
    cases h
  · exact ⟨[.put (.io (.track "")), .put (.report (.started 0)), .call 0, .put (.io (.append ⟨0, "", true, encode "ready".toList⟩))], _, _, rfl, rfl, by decide, by rfl⟩

/-- C101 is violated by `wait_for_output` while the start of the process is reported: the condition looks at the reports, but the call waits for output only.  The
only call there is waits without a timeout, its condition holds, and it goes on to wait until something is recorded. -/
theorem C101_start_violated : ∃ (C : Nat → WaitCall) (L : List CvLabel) (s : CvState), C 0 = proxyWaitOutput waitDet 0 id isReady none ∧
    CvReaches C L s ∧ (∀ i ≠ 0, s.call i = .idle) ∧ s.call 0 = .blocked none false none ∧ (C 0).pred s.seen = .ok true := by
  refine ⟨fun _ => proxyWaitOutput waitDet 0 id isReady none,
    [.put (.io (.append ⟨0, "", true, encode "ready".toList⟩)), .call 0, .put (.report (.started 0))], _, rfl, rfl, ?_, by rfl, by rfl⟩
  intro i hi
  match i, hi with
  | i + 1, _ => rfl

/-! ## Examples -/

/-- A test waits for the exit of process 0 with a timeout of 5, while process 1 writes something and process 0 exits. -/
def sampleWaits : Nat → WaitCall := fun i => if i = 0 then waitShutdown sampleDet (.action 0) .any (some 5) else
  waitOutput sampleDet (fun t => t == "hello".toList) (.name "talker-1") .any true .stdout none

example : ∃ s, CvReaches sampleWaits [.put (.report (.started 0)), .call 0, .call 1, .tick, .put (.io (.append ⟨0, "talker-1", true, encode "hel".toList⟩)), .wake 1,
    .put (.io (.append ⟨0, "talker-1", true, encode "lo".toList⟩)), .tick, .put (.report (.exited 0 0)), .wake 1, .tick, .wake 0] s ∧
    s.call 0 = .ended (.ok true) none 3 ∧ s.call 1 = .ended (.ok true) none 2 := ⟨_, by rfl, by rfl, by rfl⟩

example : ∃ s, CvReaches sampleWaits [.put (.report (.started 0)), .call 0, .tick, .tick, .tick, .tick, .tick, .wake 0] s ∧
    s.call 0 = .ended (.ok false) none 5 := ⟨_, by rfl, by rfl⟩

/-- Standard error of the first process, while another one writes too. -/
example : proxyText waitDet 0 id (fun io => !io.fromStdout) { io := ({} : IoHandler).run [.append ⟨0, "", true, encode "out".toList⟩,
    .append ⟨0, "", false, encode "er".toList⟩, .append ⟨1, "x", false, encode "other".toList⟩, .append ⟨0, "", false, encode "ror".toList⟩] } =
    .ok "error".toList := by rfl

end Verif
