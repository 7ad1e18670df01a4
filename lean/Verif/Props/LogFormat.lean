import Verif.Lemmas.LogFormat
import Verif.Spec.LogFormat

/-!
# Property C99: what is written to the screen and to log files
-/

namespace Verif

/-! ## The places are those of C46 -/

theorem FmtSt.getScreen_base (s : FmtSt) : s.getScreen.1.base = s.base.getScreen.1 ∧ s.getScreen.2 = s.base.getScreen.2 := by
  unfold FmtSt.getScreen
  cases h : s.base.screen <;> simp [FmtSt.setFormatter, LogSt.getScreen, h]

theorem FmtSt.getFile_base (s : FmtSt) (f : String) : (s.getFile f).1.base = (s.base.getFile f).1 ∧ (s.getFile f).2 = (s.base.getFile f).2 := by
  unfold FmtSt.getFile
  cases h : s.base.files.get? f <;> simp [FmtSt.setFormatter, LogSt.getFile, h]

theorem FmtSt.addFor_base (s : FmtSt) (lg : String) (h : Handler) (f : Fmt) : (s.addFor lg h f).base = s.base.addHandler lg h := by
  unfold FmtSt.addFor LogSt.addHandler
  split <;> rfl

theorem FmtSt.outScreen_base (s : FmtSt) (lg : String) : (s.outScreen lg).base = s.base.addScreen lg := by
  simp only [FmtSt.outScreen, FmtSt.addFor_base, LogSt.addScreen, s.getScreen_base.1, s.getScreen_base.2]

theorem FmtSt.outLog_base (s : FmtSt) (lg : String) : (s.outLog lg).base = s.base.addFile lg "launch.log" := by
  simp only [FmtSt.outLog, FmtSt.addFor_base, LogSt.addFile, (s.getFile_base _).1, (s.getFile_base _).2]

theorem FmtSt.outFile_base (s : FmtSt) (lg file : String) (f : Fmt) : (s.outFile lg file f).base = s.base.addFile lg file := by
  simp only [FmtSt.outFile, FmtSt.add, FmtSt.setFormatter, LogSt.addFile, (s.getFile_base _).1, (s.getFile_base _).2]

theorem FmtSt.getLogger_base (s : FmtSt) (n : String) : (s.getLogger n).base = s.base.getLogger n := by
  simp only [FmtSt.getLogger, FmtSt.add, LogSt.getLogger, LogSt.addFile, LogSt.addScreen, (FmtSt.getFile_base _ _).1, (FmtSt.getFile_base _ _).2,
    s.getScreen_base.1, s.getScreen_base.2]

theorem FmtSt.outputSource_base (s : FmtSt) (process source : String) (both own : List String) :
    (s.outputSource process source both own).base = s.base.outputSource process source both own := by
  simp only [FmtSt.outputSource, LogSt.outputSource]
  split <;> split <;> split <;> split <;> simp only [FmtSt.outFile_base, FmtSt.outLog_base, FmtSt.outScreen_base]

theorem FmtSt.getOutput_base (s : FmtSt) (p : String) (v : OutVal) : (s.getOutput p v).1.base = (s.base.getOutput p v).1 ∧ (s.getOutput p v).2 = (s.base.getOutput p v).2 := by
  unfold FmtSt.getOutput LogSt.getOutput
  cases normalizeOutput v with
  | error e => exact ⟨rfl, rfl⟩
  | ok cfg => exact ⟨by simp only [FmtSt.outputSource_base], rfl⟩

theorem FmtSt.run_base (F : FmtOracle) (ops : List FmtOp) : ∀ s : FmtSt, (s.run F ops).base = s.base.run (ops.filterMap FmtOp.plain) := by
  induction ops with
  | nil => intro s; rfl
  | cons op ops ih =>
    intro s
    show ((s.step F op).run F ops).base = _
    rw [ih]
    cases op with
    | getLogger n =>
      rw [show (s.step F (.getLogger n)).base = s.base.getLogger n from s.getLogger_base n]
      rfl
    | getOutput p v =>
      rw [show (s.step F (.getOutput p v)).base = (s.base.getOutput p v).1 from (s.getOutput_base p v).1]
      rfl
    | setScreenFormat env f st =>
      rw [show (s.step F (.setScreenFormat env f st)).base = s.base from (FmtSt.same_setScreenFormat F env s f st).base]
      rfl
    | setLogFormat env f st =>
      rw [show (s.step F (.setLogFormat env f st)).base = s.base from (FmtSt.same_setLogFormat F env s f st).base]
      rfl
    | setLevel n => rfl
    | reset env =>
      rw [show (s.step F (.reset env)).base = s.base.reset from (FmtSt.reset_base F env s).1]
      rfl
    | log r =>
      rw [show (s.step F (.log r)).base = s.base from (FmtSt.same_log F s r).base]
      rfl

/-- C99.  Formats, levels and logging do not change where loggers write to: a logger reaches the places that it reaches by C46. -/
theorem C99_places (F : FmtOracle) (ops : List FmtOp) (logger : String) :
    (({} : FmtSt).run F ops).base.reaches logger = (({} : LogSt).run (ops.filterMap FmtOp.plain)).reaches logger := by
  rw [FmtSt.run_base]

/-! ## Invariants over histories -/

theorem FmtSt.run_inv (F : FmtOracle) (Q : FmtSt → Prop) : ∀ (ops : List FmtOp) (s : FmtSt), s.Good → Q s →
    (∀ op ∈ ops, ∀ s : FmtSt, s.Good → Q s → Q (s.step F op)) → Q (s.run F ops)
  | [], _, _, hq, _ => hq
  | op :: ops, s, g, hq, hs => FmtSt.run_inv F Q ops (s.step F op) (g.step F op) (hs op List.mem_cons_self s g hq) (fun o ho => hs o (List.mem_cons_of_mem _ ho))

theorem FmtSt.micros_inv {Q : FmtSt → Prop} {R : Micro → Prop} (hstep : ∀ s m, FmtSt.Good s → Q s → R m → Q (s.micro m)) :
    ∀ (ms : List Micro) (s : FmtSt), s.Good → Q s → (∀ m ∈ ms, R m) → Q (s.micros ms)
  | [], _, _, hq, _ => hq
  | m :: ms, s, g, hq, hr => FmtSt.micros_inv hstep ms (s.micro m) (g.micro m) (hstep s m g hq (hr m List.mem_cons_self)) (fun o ho => hr o (List.mem_cons_of_mem _ ho))

theorem process_source_inj {p q s t : String} (hs : s = "stdout" ∨ s = "stderr") (ht : t = "stdout" ∨ t = "stderr") (h : p ++ "-" ++ s = q ++ "-" ++ t) : p = q ∧ s = t := by
  have h1 := congrArg String.toList h
  simp only [String.toList_append] at h1
  have hl : s.toList.length = t.toList.length := by rcases hs with rfl | rfl <;> rcases ht with rfl | rfl <;> decide +kernel
  obtain ⟨h2, h3⟩ := List.append_inj' h1 hl
  obtain ⟨h4, _⟩ := List.append_inj' h2 rfl
  exact ⟨String.toList_injective h4, String.toList_injective h3⟩

theorem FmtSt.Marked.same {s s' : FmtSt} {n : String} (hk : s.Marked n) (h : s.Same s') : s'.Marked n := by
  intro x hx f hf
  rw [h.base] at hx
  rw [h.forLogger]
  exact hk x hx f hf

theorem FmtSt.reset_handlers (F : FmtOracle) (env : Dict String) (s : FmtSt) (n : String) : (s.reset F env).1.base.handlers n = [] := by
  rw [(FmtSt.reset_base F env s).1]

theorem FmtSt.reset_at (F : FmtOracle) (env : Dict String) (s : FmtSt) (d : Option String) : (s.reset F env).1.base.at d = none := by
  rw [(FmtSt.reset_base F env s).1]
  cases d <;> rfl

/-- A logger of a process stays marked, whatever is done except asking for it with get_logger. -/
theorem FmtSt.Marked.step {s : FmtSt} {process source : String} (hs : source = "stdout" ∨ source = "stderr") (hp : process ≠ "launch") (F : FmtOracle)
    (g : s.Good) (hk : s.Marked (process ++ "-" ++ source)) {op : FmtOp} (hop : op ≠ .getLogger (process ++ "-" ++ source)) : (s.step F op).Marked (process ++ "-" ++ source) := by
  cases op with
  | getLogger n =>
    simp only [FmtSt.step, FmtSt.getLogger_micros]
    refine FmtSt.micros_inv (Q := fun s => s.Marked (process ++ "-" ++ source)) (R := Micro.ForProcess (process ++ "-" ++ source)) (fun s m g hk hm => hk.micro g hm) _ s g hk ?_
    intro m hm heq
    simp only [List.mem_cons, List.not_mem_nil, or_false] at hm
    rcases hm with rfl | rfl <;> exact hop (congrArg FmtOp.getLogger heq)
  | getOutput p v =>
    simp only [FmtSt.step, FmtSt.getOutput_micros]
    refine FmtSt.micros_inv (Q := fun s => s.Marked (process ++ "-" ++ source)) (R := Micro.ForProcess (process ++ "-" ++ source)) (fun s m g hk hm => hk.micro g hm) _ s g hk ?_
    intro m hm heq
    obtain ⟨t, ht, h1⟩ := mem_outputMicros hm
    rcases h1 with rfl | rfl | rfl | rfl
    · trivial
    · trivial
    · exact own_ne_launch p t ht
    · have := (process_source_inj ht hs heq).1
      subst this
      exact combined_ne_launch hp
  | setScreenFormat env f st => exact hk.same (FmtSt.same_setScreenFormat F env s f st)
  | setLogFormat env f st => exact hk.same (FmtSt.same_setLogFormat F env s f st)
  | setLevel n => exact hk.same ⟨rfl, rfl⟩
  | reset env =>
    intro h hh
    simp only [FmtSt.step, FmtSt.reset_handlers] at hh
    cases hh
  | log r => exact hk.same (FmtSt.same_log F s r)

theorem FmtSt.setScreenFormat_formatter (F : FmtOracle) (env : Dict String) (s : FmtSt) (f st : Option String) (i : Nat) :
    (s.setScreenFormat F env f st).1.formatter i = s.formatter i ∨ ∃ h, s.base.at none = some h ∧ i = h.id := by
  unfold FmtSt.setScreenFormat
  split
  · exact .inl rfl
  · split
    · exact .inl rfl
    · exact .inl rfl
    · split
      · exact .inl rfl
      · rename_i h hh
        simp only [FmtSt.setFormatter]
        by_cases hi : i = h.id
        · exact .inr ⟨h, hh, hi⟩
        · exact .inl (if_neg hi)

theorem FmtSt.OwnOk.step {s : FmtSt} (F : FmtOracle) (g : s.Good) (ho : s.OwnOk) {op : FmtOp} (hop : ∀ env f st, op ≠ .setLogFormat env f st) : (s.step F op).OwnOk := by
  cases op with
  | getLogger n =>
    simp only [FmtSt.step, FmtSt.getLogger_micros]
    refine FmtSt.micros_inv (Q := FmtSt.OwnOk) (R := Micro.Lines) (fun s m g hk hm => hk.micro g hm) _ s g ho ?_
    intro m hm
    simp only [List.mem_cons, List.not_mem_nil, or_false] at hm
    rcases hm with rfl | rfl
    · exact .inl rfl
    · exact .inr rfl
  | getOutput p v =>
    simp only [FmtSt.step, FmtSt.getOutput_micros]
    refine FmtSt.micros_inv (Q := FmtSt.OwnOk) (R := Micro.Lines) (fun s m g hk hm => hk.micro g hm) _ s g ho ?_
    intro m hm
    obtain ⟨t, ht, h1⟩ := mem_outputMicros hm
    rcases h1 with rfl | rfl | rfl | rfl
    · trivial
    · trivial
    · exact .inr rfl
    · exact .inl rfl
  | setScreenFormat env f st =>
    intro q h ha hq
    simp only [FmtSt.step] at ha ⊢
    rw [(FmtSt.same_setScreenFormat F env s f st).base] at ha
    rcases FmtSt.setScreenFormat_formatter F env s f st h.id with h1 | ⟨h', h1, h2⟩
    · rw [h1]; exact ho q h ha hq
    · cases g.idinj _ _ _ _ ha h1 h2
  | setLogFormat env f st => exact absurd rfl (hop env f st)
  | setLevel n => exact ho
  | reset env =>
    intro q h ha
    simp only [FmtSt.step, FmtSt.reset_at] at ha
    cases ha
  | log r =>
    intro q h ha hq
    simp only [FmtSt.step] at ha ⊢
    rw [(FmtSt.same_log F s r).base] at ha
    have : (s.log F r).formatter = s.formatter := by unfold FmtSt.log; split <;> rfl
    rw [this]
    exact ho q h ha hq

/-- No file of a process is open. -/
def FmtSt.NoOwn (s : FmtSt) : Prop := ∀ f h, s.base.at (some f) = some h → f = "launch.log"

theorem FmtSt.NoOwn.ok {s : FmtSt} (h : s.NoOwn) : s.OwnOk := fun f x ha hf => absurd (h f x ha) hf

theorem FmtSt.NoOwn.step {s : FmtSt} (F : FmtOracle) (ho : s.NoOwn) {op : FmtOp} (hop : ∀ p v, op ≠ .getOutput p v) : (s.step F op).NoOwn := by
  have same : ∀ {s'}, s.Same s' → s'.NoOwn := by
    intro s' h f x ha
    rw [h.base] at ha
    exact ho f x ha
  cases op with
  | getLogger n =>
    intro f h ha
    simp only [FmtSt.step, FmtSt.getLogger_micros, FmtSt.micros, List.foldl_cons, List.foldl_nil, FmtSt.micro, FmtSt.add, LogSt.addHandler_at] at ha
    have key : ∀ (s s1 : FmtSt) (d : Option String) (h0 : Handler), s.Gets d s1 h0 → (d = none ∨ d = some "launch.log") → s.NoOwn → s1.NoOwn := by
      intro s s1 d h0 hg hd hn f h ha
      cases hg with
      | old _ he => subst he; exact hn f h ha
      | new _ _ _ hat _ _ _ _ _ _ _ _ =>
        rw [hat] at ha
        by_cases hfd : some f = d
        · rcases hd with rfl | rfl
          · cases hfd
          · injection hfd
        · rw [if_neg hfd] at ha; exact hn f h ha
    have h1 : ((s.get none).1.add n (s.get none).2).NoOwn := by
      intro f h ha
      simp only [FmtSt.add, LogSt.addHandler_at] at ha
      exact key _ _ _ _ (s.gets none) (.inl rfl) ho f h ha
    exact key _ _ _ _ (FmtSt.gets _ (some "launch.log")) (.inr rfl) h1 f h ha
  | getOutput p v => exact absurd rfl (hop p v)
  | setScreenFormat env f st => exact same (FmtSt.same_setScreenFormat F env s f st)
  | setLogFormat env f st => exact same (FmtSt.same_setLogFormat F env s f st)
  | setLevel n => exact same ⟨rfl, rfl⟩
  | reset env =>
    intro q h ha
    simp only [FmtSt.step, FmtSt.reset_at] at ha
    cases ha
  | log r => exact same (FmtSt.same_log F s r)

/-! ## Lines of processes -/

theorem render_lineOnly (F : FmtOracle) (r : LogRecord) : Fmt.lineOnly.render F r = r.msg := by
  simp [Fmt.render, Fmt.lineOnly, FmtPiece.render, String.join]

theorem render_timed (F : FmtOracle) (r : LogRecord) : Fmt.timed.render F r = r.created ++ " " ++ r.msg := by
  simp [Fmt.render, Fmt.timed, FmtPiece.render, String.join]

theorem render_plain (F : FmtOracle) (r : LogRecord) : Fmt.plain.render F r = r.message := by
  simp [Fmt.render, Fmt.plain, FmtPiece.render, String.join]

/-- The text written on the screen and in the launch log file. -/
theorem FmtSt.Marked.format {s : FmtSt} {F : FmtOracle} {r : LogRecord} (hk : s.Marked r.logger) {h : Handler} (hh : h ∈ s.base.handlers r.logger)
    (hd : h.file = none ∨ h.file = some "launch.log") : s.format F h r = processText r h.file := by
  rcases hd with hd | hd
  · have := hk h hh .lineOnly (by rw [hd]; rfl)
    simp only [FmtSt.format, this, render_lineOnly, processText, hd]
    rfl
  · have := hk h hh .timed (by rw [hd]; rfl)
    simp only [FmtSt.format, this, render_timed, processText, hd, if_true]

theorem FmtSt.format_own {s : FmtSt} (g : s.Good) (ho : s.OwnOk) {F : FmtOracle} {r : LogRecord} (hm : r.message = r.msg) {h : Handler} {f : String}
    (hh : h ∈ s.base.handlers r.logger) (hf : h.file = some f) (hne : f ≠ "launch.log") : s.format F h r = processText r h.file := by
  have hl := g.inv.live hh
  rw [hf] at hl
  have h1 := g.own f h r.logger hl hne
  have h2 : processText r h.file = r.msg := by
    rw [hf, processText, if_neg]
    intro h; injection h with h; exact hne h
  rw [h2]
  rcases ho f h hl hne with h3 | h3
  · simp only [FmtSt.format, h1, h3, Option.getD_some, render_lineOnly]
  · simp only [FmtSt.format, h1, h3, Option.getD_some, render_plain, hm]

/-- C99.  Whatever was done before (formats set, other loggers asked for, logging reset, the same process asked for again), a line of a process appears on the screen
as it is, and in the launch log file with its time before it, if its logger was only asked for as output logger. -/
theorem C99_process_line (F : FmtOracle) (ops : List FmtOp) (process source : String) (hs : source = "stdout" ∨ source = "stderr") (hp : process ≠ "launch")
    (hg : FmtOp.getLogger (process ++ "-" ++ source) ∉ ops) (r : LogRecord) (hr : r.logger = process ++ "-" ++ source) :
    let s := ({} : FmtSt).run F ops
    ∀ place text, (place, r.logger, text) ∈ (s.log F r).written.drop s.written.length → (place = none ∨ place = some "launch.log") → text = processText r place := by
  intro s place text hm hd
  have hk : s.Marked r.logger := by
    rw [hr]
    refine FmtSt.run_inv F (fun s => s.Marked (process ++ "-" ++ source)) ops {} FmtSt.good_init ?_ ?_
    · intro h hh; cases hh
    · intro op ho s g hk
      exact hk.step hs hp F g (fun he => hg (he ▸ ho))
  unfold FmtSt.log at hm
  split at hm
  · simp only [List.drop_left] at hm
    obtain ⟨h, hh, he⟩ := List.mem_map.1 hm
    simp only [Prod.mk.injEq, true_and] at he
    obtain ⟨h1, h2⟩ := he
    rw [← h2, ← h1]
    exact hk.format hh (by rw [h1]; exact hd)
  · simp at hm

theorem FmtSt.run_append (F : FmtOracle) (s : FmtSt) (a b : List FmtOp) : s.run F (a ++ b) = (s.run F a).run F b := by
  unfold FmtSt.run; rw [List.foldl_append]

/-- What logging a line of a process does, in a good state. -/
theorem FmtSt.log_line {s : FmtSt} {F : FmtOracle} (g : s.Good) (ho : s.OwnOk) {r : LogRecord} (hk : s.Marked r.logger) (hm : r.message = r.msg) (hl : s.level ≤ r.level) :
    (s.log F r).written = s.written ++ (s.base.reaches r.logger).map fun place => (place, r.logger, processText r place) := by
  unfold FmtSt.log
  rw [if_pos hl]
  simp only [LogSt.reaches, List.map_map, List.append_cancel_left_eq]
  apply List.map_congr_left
  intro h hh
  simp only [Function.comp_apply, Prod.mk.injEq, true_and]
  cases hf : h.file with
  | none => rw [hk.format hh (.inl hf), hf]
  | some f =>
    by_cases hne : f = "launch.log"
    · rw [hk.format hh (.inr (by rw [hf, hne])), hf]
    · rw [FmtSt.format_own g ho hm hh hf hne, hf]

/-- C99 (partial).  A line of a process that is logged with a sufficient level is written once to each place its logger reaches (C46): as it is to the screen and to the files of
the process, with its time before it to the launch log file.  Assumed: the format of log files is set before output loggers are asked for
(see `C99_own_files_violated`), and the logger is not asked for with get_logger (see `C99_get_logger_violated`). -/
theorem C99_line_everywhere_partial (F : FmtOracle) (setup ops : List FmtOp) (process source : String) (hs : source = "stdout" ∨ source = "stderr") (hp : process ≠ "launch")
    (hsetup : ∀ p v, FmtOp.getOutput p v ∉ setup) (hops : ∀ env f st, FmtOp.setLogFormat env f st ∉ ops)
    (hg : FmtOp.getLogger (process ++ "-" ++ source) ∉ setup ++ ops) (r : LogRecord) (hr : r.logger = process ++ "-" ++ source) (hm : r.message = r.msg) :
    let s := ({} : FmtSt).run F (setup ++ ops)
    s.level ≤ r.level → (s.log F r).written = s.written ++ (s.base.reaches r.logger).map fun place => (place, r.logger, processText r place) := by
  intro s hl
  have hk : s.Marked r.logger := by
    rw [hr]
    refine FmtSt.run_inv F (fun s => s.Marked (process ++ "-" ++ source)) (setup ++ ops) {} FmtSt.good_init ?_ ?_
    · intro h hh; cases hh
    · intro op ho s g hk
      exact hk.step hs hp F g (fun he => hg (he ▸ ho))
  have ho : s.OwnOk := by
    show FmtSt.OwnOk (({} : FmtSt).run F (setup ++ ops))
    rw [FmtSt.run_append]
    refine FmtSt.run_inv F FmtSt.OwnOk ops _ (FmtSt.good_init.run F setup) ?_ ?_
    · refine (FmtSt.run_inv F FmtSt.NoOwn setup {} FmtSt.good_init ?_ ?_).ok
      · intro f h ha; cases ha
      · intro op ho s _ hn
        exact hn.step F (fun p v he => hsetup p v (he ▸ ho))
    · intro op ho s g hn
      exact hn.step F g (fun env f st he => hops env f st (he ▸ ho))
  exact FmtSt.log_line (FmtSt.good_init.run F _) ho hk hm hl

/-! ## Lines of a process in order -/

theorem FmtSt.level_micro (s : FmtSt) (m : Micro) : (s.micro m).level = s.level ∧ (s.micro m).written = s.written := by
  have key : ∀ d, (s.get d).1.level = s.level ∧ (s.get d).1.written = s.written := by
    intro d
    generalize hq : s.get d = q
    have hg := s.gets d
    rw [hq] at hg
    cases hg with
    | old _ he => rw [he]; exact ⟨rfl, rfl⟩
    | new _ _ _ _ _ _ _ _ _ h1 h2 _ => exact ⟨h1, h2⟩
  cases m with
  | plain d lg => exact key d
  | line d lg =>
    simp only [FmtSt.micro]
    split
    · simp only [FmtSt.addFor]
      split <;> exact key d
    · exact ⟨rfl, rfl⟩
  | own file lg f => exact key (some file)

theorem FmtSt.level_micros (ms : List Micro) : ∀ s : FmtSt, (s.micros ms).level = s.level ∧ (s.micros ms).written = s.written := by
  induction ms with
  | nil => intro s; exact ⟨rfl, rfl⟩
  | cons m ms ih =>
    intro s
    obtain ⟨h1, h2⟩ := ih (s.micro m)
    obtain ⟨h3, h4⟩ := s.level_micro m
    exact ⟨h1.trans h3, h2.trans h4⟩

theorem FmtSt.quiet (F : FmtOracle) (s : FmtSt) (op : FmtOp) (hl : ∀ r, op ≠ .log r) (hv : ∀ n, op ≠ .setLevel n) (hr : ∀ env, op ≠ .reset env) :
    (s.step F op).level = s.level ∧ (s.step F op).written = s.written := by
  cases op with
  | getLogger n => simp only [FmtSt.step, FmtSt.getLogger_micros]; exact FmtSt.level_micros _ s
  | getOutput p v => simp only [FmtSt.step, FmtSt.getOutput_micros]; exact FmtSt.level_micros _ s
  | setScreenFormat env f st =>
    simp only [FmtSt.step, FmtSt.setScreenFormat]
    split
    · exact ⟨rfl, rfl⟩
    · split
      · exact ⟨rfl, rfl⟩
      · exact ⟨rfl, rfl⟩
      · split <;> exact ⟨rfl, rfl⟩
  | setLogFormat env f st =>
    simp only [FmtSt.step, FmtSt.setLogFormat]
    split
    · exact ⟨rfl, rfl⟩
    · split <;> exact ⟨rfl, rfl⟩
  | setLevel n => exact absurd rfl (hv n)
  | reset env => exact absurd rfl (hr env)
  | log r => exact absurd rfl (hl r)

theorem LogSt.addHandler_mono (s : LogSt) (lg l : String) (h : Handler) (x : Handler) (hx : x ∈ s.handlers l) : x ∈ (s.addHandler lg h).handlers l :=
  LogSt.mem_addHandler.2 (.inl hx)

theorem FmtSt.micro_mono (s : FmtSt) (m : Micro) (l : String) (x : Handler) (hx : x ∈ s.base.handlers l) : x ∈ (s.micro m).base.handlers l := by
  have key : ∀ d, x ∈ (s.get d).1.base.handlers l := fun d => by rw [(s.gets d).handlers]; exact hx
  cases m with
  | plain d lg => exact LogSt.addHandler_mono _ _ _ _ _ (key d)
  | line d lg =>
    simp only [FmtSt.micro]
    split
    · simp only [FmtSt.addFor]
      split
      · exact key d
      · exact LogSt.addHandler_mono _ _ _ _ _ (key d)
    · exact hx
  | own file lg f => exact LogSt.addHandler_mono _ _ _ _ _ (key (some file))

theorem FmtSt.micros_mono (ms : List Micro) (l : String) (x : Handler) : ∀ s : FmtSt, x ∈ s.base.handlers l → x ∈ (s.micros ms).base.handlers l := by
  induction ms with
  | nil => intro s h; exact h
  | cons m ms ih => intro s h; exact ih _ (s.micro_mono m l x h)

theorem FmtSt.step_mono (F : FmtOracle) (s : FmtSt) (op : FmtOp) (hr : ∀ env, op ≠ .reset env) (l : String) (x : Handler) (hx : x ∈ s.base.handlers l) :
    x ∈ (s.step F op).base.handlers l := by
  cases op with
  | getLogger n => simp only [FmtSt.step, FmtSt.getLogger_micros]; exact FmtSt.micros_mono _ l x s hx
  | getOutput p v => simp only [FmtSt.step, FmtSt.getOutput_micros]; exact FmtSt.micros_mono _ l x s hx
  | setScreenFormat env f st => rw [show (s.step F (.setScreenFormat env f st)).base = s.base from (FmtSt.same_setScreenFormat F env s f st).base]; exact hx
  | setLogFormat env f st => rw [show (s.step F (.setLogFormat env f st)).base = s.base from (FmtSt.same_setLogFormat F env s f st).base]; exact hx
  | setLevel n => exact hx
  | reset env => exact absurd rfl (hr env)
  | log r => rw [show (s.step F (.log r)).base = s.base from (FmtSt.same_log F s r).base]; exact hx

theorem reaches_nodup {s : LogSt} (hi : s.Inv) (l : String) : (s.reaches l).Nodup := by
  unfold LogSt.reaches
  refine (List.pairwise_map.2 ((hi.nodup l).imp_of_mem ?_))
  intro a b ha hb hne he
  have h1 := hi.live ha
  have h2 := hi.live hb
  rw [he, h2, Option.some.injEq] at h1
  exact hne h1.symm

theorem filter_map_place {l : List (Option String)} (hn : l.Nodup) {d : Option String} (hd : d ∈ l) (n : String) (t : Option String → String) :
    ((l.map fun p => (p, n, t p)).filter fun w => w.1 = d ∧ w.2.1 = n).map (fun w => w.2.2) = [t d] := by
  induction l with
  | nil => cases hd
  | cons a l ih =>
    rw [List.nodup_cons] at hn
    simp only [List.map_cons, List.filter_cons, and_true]
    by_cases ha : a = d
    · subst ha
      simp only [decide_true, if_true, List.map_cons, List.cons.injEq, true_and]
      rw [List.map_eq_nil_iff, List.filter_eq_nil_iff]
      intro w hw
      obtain ⟨p, hp, rfl⟩ := List.mem_map.1 hw
      simp only [and_true, decide_eq_true_eq]
      rintro rfl
      exact hn.1 hp
    · rcases List.mem_cons.1 hd with h | h
      · exact absurd h.symm ha
      · simp only [ha, decide_false, Bool.false_eq_true, if_false]
        simpa using ih hn.2 h

/-- C99 (partial).  Nothing is lost, doubled or reordered: once the logger of a process reaches a place, what it writes there is the lines logged with it, in order, whatever
other loggers do meanwhile.  Assumed as in `C99_line_everywhere_partial`, and that the level stays the same. -/
theorem C99_in_order_partial (F : FmtOracle) (setup before ops : List FmtOp) (process source : String) (hs : source = "stdout" ∨ source = "stderr") (hp : process ≠ "launch")
    (hsetup : ∀ p v, FmtOp.getOutput p v ∉ setup) (hbefore : ∀ env f st, FmtOp.setLogFormat env f st ∉ before)
    (hg : FmtOp.getLogger (process ++ "-" ++ source) ∉ setup ++ before) (hops : ∀ op ∈ ops, op.Harmless (process ++ "-" ++ source)) (place : Option String) :
    let s := ({} : FmtSt).run F (setup ++ before)
    place ∈ s.base.reaches (process ++ "-" ++ source) →
    linesAt (s.run F ops).written place (process ++ "-" ++ source) =
      linesAt s.written place (process ++ "-" ++ source) ++ (recordsOf (process ++ "-" ++ source) s.level ops).map fun r => processText r place := by
  intro s hreach
  have hk : s.Marked (process ++ "-" ++ source) := by
    refine FmtSt.run_inv F (fun s => s.Marked (process ++ "-" ++ source)) (setup ++ before) {} FmtSt.good_init ?_ ?_
    · intro h hh; cases hh
    · intro op ho s g hk
      exact hk.step hs hp F g (fun he => hg (he ▸ ho))
  have ho : s.OwnOk := by
    show FmtSt.OwnOk (({} : FmtSt).run F (setup ++ before))
    rw [FmtSt.run_append]
    refine FmtSt.run_inv F FmtSt.OwnOk before _ (FmtSt.good_init.run F setup) ?_ ?_
    · refine (FmtSt.run_inv F FmtSt.NoOwn setup {} FmtSt.good_init ?_ ?_).ok
      · intro f h ha; cases ha
      · intro op ho s _ hn
        exact hn.step F (fun p v he => hsetup p v (he ▸ ho))
    · intro op ho s g hn
      exact hn.step F g (fun env f st he => hbefore env f st (he ▸ ho))
  have g : s.Good := FmtSt.good_init.run F _
  clear_value s
  clear hg hsetup hbefore
  induction ops generalizing s with
  | nil => simp [FmtSt.run, recordsOf]
  | cons op ops ih =>
    have hop := hops op List.mem_cons_self
    have hops' : ∀ o ∈ ops, o.Harmless (process ++ "-" ++ source) := fun o h => hops o (List.mem_cons_of_mem _ h)
    have hnr : ∀ env, op ≠ .reset env := by rintro env rfl; exact hop
    have hk' : (s.step F op).Marked (process ++ "-" ++ source) := hk.step hs hp F g (by rintro rfl; exact hop rfl)
    have ho' : (s.step F op).OwnOk := ho.step F g (by rintro env f st rfl; exact hop)
    have hreach' : place ∈ (s.step F op).base.reaches (process ++ "-" ++ source) := by
      obtain ⟨h, hh, he⟩ := List.mem_map.1 hreach
      exact List.mem_map.2 ⟨h, FmtSt.step_mono F s op hnr _ h hh, he⟩
    have := ih hops' (s.step F op) hreach' hk' ho' (g.step F op)
    show linesAt ((s.step F op).run F ops).written place (process ++ "-" ++ source) = _
    rw [this]
    by_cases hlog : ∃ r, op = .log r
    · obtain ⟨r, rfl⟩ := hlog
      have hlev : (s.step F (.log r)).level = s.level := by simp only [FmtSt.step, FmtSt.log]; split <;> rfl
      rw [hlev]
      simp only [FmtSt.step]
      by_cases hc : r.logger = process ++ "-" ++ source ∧ s.level ≤ r.level
      · have hm := hop hc.1
        have e : recordsOf (process ++ "-" ++ source) s.level (.log r :: ops) = r :: recordsOf (process ++ "-" ++ source) s.level ops := by
          simp [recordsOf, hc]
        rw [e, FmtSt.log_line g ho (by rw [hc.1]; exact hk) hm hc.2, hc.1]
        simp only [linesAt, List.filter_append, List.map_append, List.map_cons]
        rw [filter_map_place (reaches_nodup g.inv _) hreach]
        simp
      · have e : recordsOf (process ++ "-" ++ source) s.level (.log r :: ops) = recordsOf (process ++ "-" ++ source) s.level ops := by
          simp [recordsOf, hc]
        rw [e]
        congr 1
        unfold FmtSt.log
        split
        · rename_i hl
          have hne : r.logger ≠ process ++ "-" ++ source := fun h => hc ⟨h, hl⟩
          simp only [linesAt, List.filter_append, List.map_append]
          rw [List.append_right_eq_self, List.map_eq_nil_iff, List.filter_eq_nil_iff]
          intro w hw
          obtain ⟨h, _, rfl⟩ := List.mem_map.1 hw
          simp [hne]
        · rfl
    · have hnl : ∀ r, op ≠ .log r := fun r h => hlog ⟨r, h⟩
      obtain ⟨h1, h2⟩ := FmtSt.quiet F s op hnl (by rintro n rfl; exact hop) hnr
      have e : recordsOf (process ++ "-" ++ source) s.level (op :: ops) = recordsOf (process ++ "-" ++ source) s.level ops := by
        cases op with
        | log r => exact absurd rfl (hnl r)
        | _ => rfl
      rw [h1, h2, e]

/-! ## Lines of launch -/

theorem overrideFormat_some {F : FmtOracle} {env : Option String} {f st f' st' : Option String} (hf : f ≠ none) (h : overrideFormat F env f st = .ok (f', st')) : f' ≠ none := by
  unfold overrideFormat at h
  split at h
  · cases h; exact hf
  · split at h
    · cases h; exact hf
    · split at h
      · cases h
      · cases h; simp

theorem makeFormatter_some {F : FmtOracle} {al : List (String × Fmt)} {f st : Option String} {a : Option Fmt} (hf : f ≠ none) (h : makeFormatter F al f st = .ok a) : a ≠ none := by
  cases f with
  | none => exact absurd rfl hf
  | some f =>
    simp only [makeFormatter] at h
    split at h
    · split at h
      · cases h
      · cases h; simp
    · split at h
      · cases h; simp
      · cases h

theorem FmtSt.Current.setScreenFormat {s : FmtSt} (hc : s.Current) (g : s.Good) {F : FmtOracle} {env : Dict String} {f st : Option String} (hf : f ≠ none) :
    (s.setScreenFormat F env f st).1.Current := by
  unfold FmtSt.setScreenFormat
  split
  · exact hc
  · rename_i f' st' ho
    split
    · exact hc
    · rename_i hm
      exact absurd rfl (makeFormatter_some (overrideFormat_some hf ho) hm)
    · rename_i a hm
      split
      · rename_i hs
        refine ⟨?_, hc.2⟩
        intro h ha
        rw [show (LogSt.at _ none) = s.base.screen from rfl, hs] at ha
        cases ha
      · rename_i h0 hs
        refine ⟨?_, ?_⟩
        · intro h ha
          have ha' : s.base.screen = some h := ha
          rw [hs, Option.some.injEq] at ha'
          subst ha'
          simp [FmtSt.setFormatter]
        · intro h ha
          have : h.id ≠ h0.id := fun hid => by cases g.idinj _ _ _ _ ha (show s.base.at none = some h0 from hs) hid
          simp only [FmtSt.setFormatter, if_neg this]
          exact hc.2 h ha

theorem fmt_get?_of_mem {V : Type} : ∀ {d : Dict V} {k : String} {v : V}, d.Wf → (k, v) ∈ d → d.get? k = some v
  | [], _, _, _, h => by cases h
  | (k', v') :: d, k, v, hw, h => by
    have hw' : k' ∉ Dict.keys d ∧ (Dict.keys d).Nodup := List.nodup_cons.1 hw
    rcases List.mem_cons.1 h with h | h
    · cases h; simp [Dict.get?]
    · have hk : k ∈ Dict.keys d := List.mem_map.2 ⟨_, h, rfl⟩
      have hne : k' ≠ k := fun he => hw'.1 (he ▸ hk)
      simp only [Dict.get?, hne, if_false]
      exact fmt_get?_of_mem hw'.2 h

theorem fmt_mem_of_get? {V : Type} : ∀ {d : Dict V} {k : String} {v : V}, d.get? k = some v → (k, v) ∈ d
  | [], _, _, h => by cases h
  | (k', v') :: d, k, v, h => by
    simp only [Dict.get?] at h
    split at h
    · rename_i he
      cases h
      subst he
      exact List.mem_cons_self
    · exact List.mem_cons_of_mem _ (fmt_mem_of_get? h)

theorem FmtSt.Current.setLogFormat {s : FmtSt} (hc : s.Current) (g : s.Good) {F : FmtOracle} {env : Dict String} {f st : Option String} (hf : f ≠ none) :
    (s.setLogFormat F env f st).1.Current := by
  unfold FmtSt.setLogFormat
  split
  · exact hc
  · rename_i f' st' ho
    split
    · exact hc
    · rename_i hm
      exact absurd rfl (makeFormatter_some (overrideFormat_some hf ho) hm)
    · rename_i a hm
      refine ⟨?_, ?_⟩
      · intro h ha
        have : s.base.files.any (fun kv => kv.2.id == h.id) = false := by
          rw [List.any_eq_false]
          intro kv hkv
          simp only [beq_iff_eq]
          intro hid
          have := fmt_get?_of_mem (k := kv.1) (v := kv.2) g.wf hkv
          cases g.idinj (some kv.1) none _ _ this ha hid
        simp only [this, Bool.false_eq_true, if_false]
        exact hc.1 h ha
      · intro h ha
        have : s.base.files.any (fun kv => kv.2.id == h.id) = true :=
          List.any_eq_true.2 ⟨("launch.log", h), fmt_mem_of_get? ha, by simp⟩
        simp only [this, if_true]

theorem FmtSt.Current.step {s : FmtSt} (hc : s.Current) (g : s.Good) (F : FmtOracle) {op : FmtOp} (ha : op.Sets) (hl : ∀ v, op ≠ .getOutput "launch" v) : (s.step F op).Current := by
  cases op with
  | getLogger n =>
    simp only [FmtSt.step, FmtSt.getLogger_micros]
    refine FmtSt.micros_inv (Q := FmtSt.Current) (R := Micro.NotLaunch) (fun s m g hk hm => (hk.micro g hm).1) _ s g hc ?_
    intro m hm
    simp only [List.mem_cons, List.not_mem_nil, or_false] at hm
    rcases hm with rfl | rfl <;> trivial
  | getOutput p v =>
    simp only [FmtSt.step, FmtSt.getOutput_micros]
    refine FmtSt.micros_inv (Q := FmtSt.Current) (R := Micro.NotLaunch) (fun s m g hk hm => (hk.micro g hm).1) _ s g hc ?_
    intro m hm
    obtain ⟨t, ht, h1⟩ := mem_outputMicros hm
    rcases h1 with rfl | rfl | rfl | rfl
    · trivial
    · trivial
    · exact own_ne_launch p t ht
    · exact combined_ne_launch (fun he => hl v (by rw [he]))
  | setScreenFormat env f st => exact hc.setScreenFormat g ha
  | setLogFormat env f st => exact hc.setLogFormat g ha
  | setLevel n => exact hc
  | reset env =>
    constructor
    · intro h hh
      simp only [FmtSt.step, FmtSt.reset_at] at hh
      cases hh
    · intro h hh
      simp only [FmtSt.step, FmtSt.reset_at] at hh
      cases hh
  | log r =>
    simp only [FmtSt.step, FmtSt.log]
    split <;> exact hc

theorem FmtSt.Unmarked.same {s s' : FmtSt} {n : String} (hk : s.Unmarked n) (h : s.Same s') : s'.Unmarked n := by
  refine ⟨fun i => by rw [h.forLogger]; exact hk.1 i, fun x hx => ?_⟩
  rw [h.base] at hx
  exact hk.2 x hx

theorem FmtSt.Unmarked.step {s : FmtSt} {n : String} (hk : s.Unmarked n) (g : s.Good) (F : FmtOracle) {op : FmtOp}
    (hn : ∀ p v, op = .getOutput p v → n ≠ p ++ "-" ++ "stdout" ∧ n ≠ p ++ "-" ++ "stderr") : (s.step F op).Unmarked n := by
  cases op with
  | getLogger m =>
    simp only [FmtSt.step, FmtSt.getLogger_micros]
    refine FmtSt.micros_inv (Q := fun s => s.Unmarked n) (R := Micro.ForLaunch n) (fun s m g hk hm => hk.micro g hm) _ s g hk ?_
    intro x hx he
    simp only [List.mem_cons, List.not_mem_nil, or_false] at hx
    rcases hx with rfl | rfl
    · exact ⟨none, by rw [show m = n from he], .inl rfl⟩
    · exact ⟨some "launch.log", by rw [show m = n from he], .inr rfl⟩
  | getOutput p v =>
    simp only [FmtSt.step, FmtSt.getOutput_micros]
    refine FmtSt.micros_inv (Q := fun s => s.Unmarked n) (R := Micro.ForLaunch n) (fun s m g hk hm => hk.micro g hm) _ s g hk ?_
    intro x hx he
    exfalso
    obtain ⟨h1, h2⟩ := hn p v rfl
    obtain ⟨t, ht, h3⟩ := mem_outputMicros hx
    have : n = p ++ "-" ++ t := by
      rcases h3 with rfl | rfl | rfl | rfl <;> exact he.symm
    rcases ht with rfl | rfl
    · exact h1 this
    · exact h2 this
  | setScreenFormat env f st => exact hk.same (FmtSt.same_setScreenFormat F env s f st)
  | setLogFormat env f st => exact hk.same (FmtSt.same_setLogFormat F env s f st)
  | setLevel m => exact hk.same ⟨rfl, rfl⟩
  | reset env =>
    refine ⟨fun i => ?_, fun h hh => ?_⟩
    · rw [show (s.step F (.reset env)).forLogger = s.forLogger from (FmtSt.reset_base F env s).2]
      exact hk.1 i
    · simp only [FmtSt.step, FmtSt.reset_handlers] at hh
      cases hh
  | log r => exact hk.same (FmtSt.same_log F s r)

/-- C99 (partial).  A message of launch itself, or of any logger that belongs to no process, is written once to each place its logger reaches, in the current format of the
screen and of log files, however many processes share these places with it and whatever formats were set before.  Assumed: formats are not set to None, and
no process is called `launch` (see `C99_process_called_launch_violated`). -/
theorem C99_launch_line_partial (F : FmtOracle) (ops : List FmtOp) (logger : String)
    (hn : ∀ p v, FmtOp.getOutput p v ∈ ops → logger ≠ p ++ "-" ++ "stdout" ∧ logger ≠ p ++ "-" ++ "stderr") (hl : ∀ v, FmtOp.getOutput "launch" v ∉ ops)
    (ha : ∀ op ∈ ops, op.Sets) (r : LogRecord) (hr : r.logger = logger) :
    let s := ({} : FmtSt).run F ops
    s.level ≤ r.level → (s.log F r).written = s.written ++ (s.base.reaches logger).map fun place =>
      (place, logger, ((if place = none then s.screenFmt else s.fileFmt).getD .plain).render F r) := by
  intro s hlev
  have g : s.Good := FmtSt.good_init.run F ops
  have hc : s.Current := by
    refine FmtSt.run_inv F FmtSt.Current ops {} FmtSt.good_init ⟨fun h hh => ?_, fun h hh => ?_⟩ ?_
    · cases hh
    · cases hh
    · intro op ho s g hc
      exact hc.step g F (ha op ho) (fun v he => hl v (he ▸ ho))
  have hu : s.Unmarked logger := by
    refine FmtSt.run_inv F (fun s => s.Unmarked logger) ops {} FmtSt.good_init ⟨fun i => rfl, fun h hh => ?_⟩ ?_
    · cases hh
    · intro op ho s g hc
      exact hc.step g F (fun p v he => hn p v (he ▸ ho))
  unfold FmtSt.log
  rw [if_pos hlev, hr]
  simp only [LogSt.reaches, List.map_map, List.append_cancel_left_eq]
  apply List.map_congr_left
  intro h hh
  have hlive := g.inv.live hh
  have hnone := hu.1 h.id
  rw [← hr] at hnone
  simp only [Function.comp_apply, Prod.mk.injEq, true_and, FmtSt.format, hnone]
  rcases hu.2 h hh with hf | hf
  · rw [hf] at hlive
    rw [hf, if_pos rfl, hc.1 h hlive]
  · rw [hf] at hlive
    rw [hf, if_neg (by simp), hc.2 h hlive]

/-! ## Formats -/

/-- C99.  What the documented formats look like: without the environment variable, `default` and `default_with_timestamp` give these texts on the screen, any other format is
used as it is (in the given style, `{` by default), and a style with an alias is an error that changes nothing. -/
theorem C99_screen_formats (F : FmtOracle) (env : Dict String) (he : env.get? "OVERRIDE_LAUNCH_SCREEN_FORMAT" = none) (s : FmtSt) (r : LogRecord) :
    (s.setScreenFormat F env (some "default") none).1.screenFmt.map (Fmt.render F r) = some ("[" ++ r.levelname ++ "] [" ++ r.logger ++ "]: " ++ r.msg) ∧
    (s.setScreenFormat F env (some "default_with_timestamp") none).1.screenFmt.map (Fmt.render F r) =
      some (r.created ++ " [" ++ r.levelname ++ "] [" ++ r.logger ++ "]: " ++ r.msg) ∧
    (∀ f st, f ≠ "default" → f ≠ "default_with_timestamp" → F.valid f (st.getD "{") = true →
      (s.setScreenFormat F env (some f) st).1.screenFmt.map (Fmt.render F r) = some (F.custom f (st.getD "{") r)) ∧
    (∀ f st, f = "default" ∨ f = "default_with_timestamp" → s.setScreenFormat F env (some f) (some st) = (s, .error .valueError)) := by
  refine ⟨?_, ?_, ?_, ?_⟩
  · simp only [FmtSt.setScreenFormat, overrideFormat, he, makeFormatter, List.lookup]
    cases s.base.screen <;> simp [FmtSt.setFormatter, Fmt.screenDefault, Fmt.render, FmtPiece.render, String.join, String.append_assoc]
  · simp only [FmtSt.setScreenFormat, overrideFormat, he, makeFormatter, List.lookup]
    cases s.base.screen <;> simp [FmtSt.setFormatter, Fmt.withTimestamp, Fmt.render, FmtPiece.render, String.join, String.append_assoc]
  · intro f st h1 h2 hv
    have e1 : (f == "default") = false := by simpa using h1
    have e2 : (f == "default_with_timestamp") = false := by simpa using h2
    simp only [FmtSt.setScreenFormat, overrideFormat, he, makeFormatter, List.lookup, e1, e2, hv, if_true]
    cases s.base.screen <;> simp [FmtSt.setFormatter, Fmt.render]
  · rintro f st (rfl | rfl) <;> simp [FmtSt.setScreenFormat, overrideFormat, he, makeFormatter, List.lookup]

/-- C99.  The same for log files, where the only alias is `default`. -/
theorem C99_log_formats (F : FmtOracle) (env : Dict String) (he : env.get? "OVERRIDE_LAUNCH_LOG_FORMAT" = none) (s : FmtSt) (r : LogRecord) :
    (s.setLogFormat F env (some "default") none).1.fileFmt.map (Fmt.render F r) = some (r.created ++ " [" ++ r.levelname ++ "] [" ++ r.logger ++ "]: " ++ r.msg) ∧
    (∀ f st, f ≠ "default" → F.valid f (st.getD "{") = true →
      (s.setLogFormat F env (some f) st).1.fileFmt.map (Fmt.render F r) = some (F.custom f (st.getD "{") r)) ∧
    (∀ st, s.setLogFormat F env (some "default") (some st) = (s, .error .valueError)) := by
  refine ⟨?_, ?_, ?_⟩
  · simp [FmtSt.setLogFormat, overrideFormat, he, makeFormatter, List.lookup, Fmt.withTimestamp, Fmt.render, FmtPiece.render, String.join, String.append_assoc]
  · intro f st h1 hv
    have e1 : (f == "default") = false := by simpa using h1
    simp only [FmtSt.setLogFormat, overrideFormat, he, makeFormatter, List.lookup, e1, hv, if_true]
    simp [Fmt.render]
  · intro st
    simp [FmtSt.setLogFormat, overrideFormat, he, makeFormatter, List.lookup]

/-- C99 (partial).  The environment variables win over any format and style that is asked for, unless their value is an alias (see `C99_override_alias_violated`). -/
theorem C99_override_partial (F : FmtOracle) (env : Dict String) (s : FmtSt) (f st : Option String) (r : LogRecord) (t u : String) (ht : t ≠ "") (hu : F.unescape t = .ok u)
    (hv : F.valid u "{" = true) (h1 : u ≠ "default") (h2 : u ≠ "default_with_timestamp") :
    (env.get? "OVERRIDE_LAUNCH_SCREEN_FORMAT" = some t →
      (s.setScreenFormat F env f st).2 = .ok () ∧ (s.setScreenFormat F env f st).1.screenFmt.map (Fmt.render F r) = some (F.custom u "{" r)) ∧
    (env.get? "OVERRIDE_LAUNCH_LOG_FORMAT" = some t →
      (s.setLogFormat F env f st).2 = .ok () ∧ (s.setLogFormat F env f st).1.fileFmt.map (Fmt.render F r) = some (F.custom u "{" r)) := by
  have e1 : (u == "default") = false := by simpa using h1
  have e2 : (u == "default_with_timestamp") = false := by simpa using h2
  constructor
  · intro he
    simp only [FmtSt.setScreenFormat, overrideFormat, he, if_neg ht, hu, makeFormatter, List.lookup, e1, e2, Option.getD_some, hv, if_true]
    cases s.base.screen <;> simp [FmtSt.setFormatter, Fmt.render]
  · intro he
    simp only [FmtSt.setLogFormat, overrideFormat, he, if_neg ht, hu, makeFormatter, List.lookup, e1, Option.getD_some, hv, if_true]
    simp [Fmt.render]

/-- C99 (negation).  With the environment variable OVERRIDE_LAUNCH_SCREEN_FORMAT set to the alias `default`, setting the format of the screen always fails, and so does the
reset that is done when launch is imported. -/
theorem C99_override_alias_violated (F : FmtOracle) (hu : F.unescape "default" = .ok "default") (env : Dict String)
    (he : env.get? "OVERRIDE_LAUNCH_SCREEN_FORMAT" = some "default") (s : FmtSt) :
    (∀ f st, (s.setScreenFormat F env f st).2 = .error .valueError) ∧ (s.reset F env).2 = .error .valueError := by
  have key : ∀ (s : FmtSt) f st, s.setScreenFormat F env f st = (s, .error .valueError) := by
    intro s f st
    simp [FmtSt.setScreenFormat, overrideFormat, he, hu, makeFormatter, List.lookup]
  refine ⟨fun f st => by rw [key], ?_⟩
  simp only [FmtSt.reset, key]

/-- C99.  A message is written if and only if its level suffices (and its logger reaches a place); nothing that was written ever changes. -/
theorem C99_level (F : FmtOracle) (s : FmtSt) (r : LogRecord) :
    (r.level < s.level → (s.log F r).written = s.written) ∧
    (s.level ≤ r.level → ((s.log F r).written.drop s.written.length).map (fun w => w.1) = s.base.reaches r.logger) ∧
    ∀ op, s.written <+: (s.step F op).written := by
  refine ⟨?_, ?_, ?_⟩
  · intro h
    unfold FmtSt.log
    rw [if_neg (by omega)]
  · intro h
    unfold FmtSt.log
    rw [if_pos h]
    simp [LogSt.reaches]
  · intro op
    have : ∀ (s : FmtSt) env, (s.step F (.reset env)).written = s.written := by
      intro s env
      simp only [FmtSt.step, FmtSt.reset]
      have h1 := (FmtSt.quiet F { s with base := s.base.reset, screenFmt := none, fileFmt := none, level := 20 } (.setScreenFormat env (some "default") none)
        (by simp) (by simp) (by simp)).2
      simp only [FmtSt.step] at h1
      split
      · rename_i s1 e he
        rw [he] at h1
        exact h1
      · rename_i s1 he
        rw [he] at h1
        exact ((FmtSt.quiet F s1 (.setLogFormat env (some "default") none) (by simp) (by simp) (by simp)).2).trans h1
    cases op with
    | log r =>
      simp only [FmtSt.step, FmtSt.log]
      split
      · exact List.prefix_append _ _
      · exact List.prefix_refl _
    | reset env => rw [this]; exact List.prefix_refl _
    | setLevel n => exact List.prefix_refl _
    | getLogger n => rw [(FmtSt.quiet F s (.getLogger n) (by simp) (by simp) (by simp)).2]; exact List.prefix_refl _
    | getOutput p v => rw [(FmtSt.quiet F s (.getOutput p v) (by simp) (by simp) (by simp)).2]; exact List.prefix_refl _
    | setScreenFormat env f st => rw [(FmtSt.quiet F s (.setScreenFormat env f st) (by simp) (by simp) (by simp)).2]; exact List.prefix_refl _
    | setLogFormat env f st => rw [(FmtSt.quiet F s (.setLogFormat env f st) (by simp) (by simp) (by simp)).2]; exact List.prefix_refl _

/-! ## Examples and negations -/

def sampleFmt : FmtOracle := { custom := fun f _ r => f ++ r.msg, valid := fun _ _ => true, unescape := .ok }

def sampleLine : LogRecord := { logger := "talker-1-stdout", level := 20, levelname := "INFO", created := "0.1", msg := "hello", message := "hello" }

/-- A history: own files, the launch log file, another format for the screen, another process, and a line. -/
def sampleHistory : List FmtOp :=
  [.setLogFormat [] (some "f") none, .getLogger "launch", .getOutput "talker-1" (.text "full"), .setScreenFormat [] (some "g") none, .getOutput "listener-2" (.text "own_log")]

example : (((({} : FmtSt).run sampleFmt sampleHistory).log sampleFmt sampleLine).written =
    [(none, "talker-1-stdout", "hello"), (some "launch.log", "talker-1-stdout", "0.1 hello"), (some "talker-1-stdout.log", "talker-1-stdout", "hello"),
     (some "talker-1.log", "talker-1-stdout", "hello")]) := by decide +kernel

example : (((({} : FmtSt).run sampleFmt sampleHistory).log sampleFmt { sampleLine with logger := "launch" }).written =
    [(none, "launch", "ghello"), (some "launch.log", "launch", "fhello")]) := by decide +kernel

/-- The hypotheses of `C99_line_everywhere_partial` and `C99_launch_line_partial` are met by the sample history, whose first two operations are the setup. -/
example : let s := ({} : FmtSt).run sampleFmt sampleHistory
    (s.log sampleFmt sampleLine).written = s.written ++ (s.base.reaches "talker-1-stdout").map fun place => (place, "talker-1-stdout", processText sampleLine place) :=
  C99_line_everywhere_partial sampleFmt (sampleHistory.take 2) (sampleHistory.drop 2) "talker-1" "stdout" (.inl rfl) (by decide) (by simp [sampleHistory])
    (by simp [sampleHistory]) (by simp [sampleHistory]) sampleLine rfl rfl (by decide +kernel)

example : let s := ({} : FmtSt).run sampleFmt sampleHistory
    (s.log sampleFmt { sampleLine with logger := "launch" }).written = s.written ++ (s.base.reaches "launch").map fun place =>
      (place, "launch", ((if place = none then s.screenFmt else s.fileFmt).getD .plain).render sampleFmt { sampleLine with logger := "launch" }) :=
  C99_launch_line_partial sampleFmt sampleHistory "launch"
    (by
      intro p v h
      simp only [sampleHistory, List.mem_cons, FmtOp.getOutput.injEq, List.not_mem_nil, or_false, reduceCtorEq, false_or] at h
      rcases h with ⟨rfl, _⟩ | ⟨rfl, _⟩ <;> decide)
    (by simp [sampleHistory]) (by simp [sampleHistory, FmtOp.Sets]) { sampleLine with logger := "launch" } rfl (by decide +kernel)

/-- And those of `C99_in_order_partial`: two lines, while another process starts and writes a line. -/
example : let s := ({} : FmtSt).run sampleFmt sampleHistory
    linesAt (s.run sampleFmt [.log sampleLine, .getOutput "other-3" (.text "both"), .log { sampleLine with logger := "other-3-stderr" },
      .log { sampleLine with msg := "bye", message := "bye", created := "0.2" }]).written (some "launch.log") "talker-1-stdout" = ["0.1 hello", "0.2 bye"] := by decide +kernel

example : ∀ op ∈ [FmtOp.log sampleLine, .getOutput "other-3" (.text "both"), .log { sampleLine with logger := "other-3-stderr" },
      .log { sampleLine with msg := "bye", message := "bye", created := "0.2" }], FmtOp.Harmless "talker-1-stdout" op := by
  simp [FmtOp.Harmless, sampleLine]

/-- C99 (negation).  Setting the format of log files after a process was started changes its own files, too: the lines there are no longer just the lines. -/
theorem C99_own_files_violated (F : FmtOracle) :
    ∃ ops r, FmtOp.getLogger "p-1-stdout" ∉ ops ∧ r.logger = "p-1-stdout" ∧ r.message = r.msg ∧
      ((({} : FmtSt).run F ops).log F r).written = [(some "p-1-stdout.log", "p-1-stdout", "0.1 [INFO] [p-1-stdout]: hello")] ∧ processText r (some "p-1-stdout.log") = "hello" := by
  refine ⟨[.getOutput "p-1" (.dict [("stdout", .one "own_log")]), .setLogFormat [] (some "default") none], { sampleLine with logger := "p-1-stdout" }, by simp, rfl, rfl, rfl, rfl⟩

/-- C99 (negation).  If the logger of a process was asked for with get_logger before, its lines look like messages of launch. -/
theorem C99_get_logger_violated (F : FmtOracle) :
    ∃ ops r, r.logger = "p-1-stdout" ∧ r.message = r.msg ∧ FmtOp.getOutput "p-1" (.text "screen") ∈ ops ∧
      (none, "p-1-stdout", "[INFO] [p-1-stdout]: hello") ∈ ((({} : FmtSt).run F ops).log F r).written := by
  refine ⟨[.getLogger "p-1-stdout", .getOutput "p-1" (.text "screen")], { sampleLine with logger := "p-1-stdout" }, rfl, rfl, by simp, ?_⟩
  exact List.mem_of_getElem? (i := 0) rfl

/-- C99 (negation).  The combined log file of a process called `launch` is the launch log file: the messages of launch lose their format in it. -/
theorem C99_process_called_launch_violated (F : FmtOracle) :
    ∃ ops r, r.logger = "a" ∧ (∀ p v, FmtOp.getOutput p v ∈ ops → p = "launch") ∧ (({} : FmtSt).run F ops).fileFmt = some .withTimestamp ∧
      (some "launch.log", "a", "hello") ∈ ((({} : FmtSt).run F ops).log F r).written := by
  refine ⟨[.getLogger "a", .getOutput "launch" (.text "own_log")], { sampleLine with logger := "a" }, rfl, ?_, rfl, ?_⟩
  · intro p v h
    simp only [List.mem_cons, FmtOp.getOutput.injEq, List.not_mem_nil, or_false, reduceCtorEq, false_or] at h
    exact h.1
  · exact List.mem_of_getElem? (i := 1) rfl

end Verif
