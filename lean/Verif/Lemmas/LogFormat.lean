import Verif.Model.LogFormat
import Verif.Props.Logging

/-! Helper lemmas for C99. -/

namespace Verif

/-- The handler for the screen (`none`) or a file. -/
def LogSt.at (s : LogSt) : Option String → Option Handler
  | none => s.screen
  | some f => s.files.get? f

/-- Get the handler for the screen or a file. -/
def FmtSt.get (s : FmtSt) : Option String → FmtSt × Handler
  | none => s.getScreen
  | some f => s.getFile f

/-- The format that a new handler gets. -/
def FmtSt.fresh (s : FmtSt) : Option String → Option Fmt
  | none => s.screenFmt
  | some _ => s.fileFmt

structure FmtSt.Good (s : FmtSt) : Prop where
  inv : s.base.Inv
  wf : s.base.files.Wf
  idlt : ∀ d h, s.base.at d = some h → h.id < s.base.next
  idinj : ∀ d d' h h', s.base.at d = some h → s.base.at d' = some h' → h.id = h'.id → d = d'
  fresh : ∀ i l, s.base.next ≤ i → s.forLogger i l = none
  screen : ∀ h l f, s.base.at none = some h → s.forLogger h.id l = some f → f = .lineOnly
  log : ∀ h l f, s.base.at (some "launch.log") = some h → s.forLogger h.id l = some f → f = .timed
  own : ∀ g h l, s.base.at (some g) = some h → g ≠ "launch.log" → s.forLogger h.id l = none

theorem LogSt.Inv.live {s : LogSt} (hi : s.Inv) {l : String} {h : Handler} (hm : h ∈ s.handlers l) : s.at h.file = some h := by
  cases hf : h.file with
  | none => exact hi.screenOnly l h hm hf
  | some f => exact hi.fileOnly l h f hm hf

theorem LogSt.Inv.at_file {s : LogSt} (hi : s.Inv) {d : Option String} {h : Handler} (ha : s.at d = some h) : h.file = d := by
  cases d with
  | none => exact hi.screenFile h ha
  | some f => exact hi.fileFile f h ha

/-- What getting a handler does: nothing if there is one, otherwise there is a new one with the current format. -/
inductive FmtSt.Gets (s : FmtSt) (d : Option String) (s1 : FmtSt) (h : Handler) : Prop
  | old : s.base.at d = some h → s1 = s → FmtSt.Gets s d s1 h
  | new : s.base.at d = none → h = ⟨s.base.next, d⟩ → s1.base.next = s.base.next + 1 → (∀ d', s1.base.at d' = if d' = d then some h else s.base.at d') →
      s1.base.handlers = s.base.handlers → (∀ i, s1.formatter i = if i = h.id then s.fresh d else s.formatter i) → s1.forLogger = s.forLogger →
      s1.screenFmt = s.screenFmt → s1.fileFmt = s.fileFmt → s1.level = s.level → s1.written = s.written → (s.base.files.Wf → s1.base.files.Wf) → FmtSt.Gets s d s1 h

theorem FmtSt.gets (s : FmtSt) (d : Option String) : s.Gets d (s.get d).1 (s.get d).2 := by
  cases d with
  | none =>
    simp only [FmtSt.get, FmtSt.getScreen, LogSt.getScreen]
    cases hs : s.base.screen with
    | some h => exact .old hs rfl
    | none =>
      refine .new hs rfl rfl ?_ rfl (fun i => rfl) rfl rfl rfl rfl rfl (fun h => h)
      intro d'
      cases d' with
      | none => rfl
      | some f => rfl
  | some f =>
    simp only [FmtSt.get, FmtSt.getFile, LogSt.getFile]
    cases hs : s.base.files.get? f with
    | some h => exact .old hs rfl
    | none =>
      refine .new hs rfl rfl ?_ rfl (fun i => rfl) rfl rfl rfl rfl rfl (fun h => h.set _ _)
      intro d'
      cases d' with
      | none => rfl
      | some g =>
        simp only [LogSt.at, FmtSt.setFormatter, Dict.get?_set, Option.some.injEq, eq_comm]

theorem FmtSt.Gets.at {s s1 : FmtSt} {d : Option String} {h : Handler} (hg : s.Gets d s1 h) : s1.base.at d = some h := by
  cases hg with
  | old ha he => rw [he]; exact ha
  | new _ _ _ ha _ _ _ _ _ _ _ _ => rw [ha, if_pos rfl]

theorem FmtSt.Gets.handlers {s s1 : FmtSt} {d : Option String} {h : Handler} (hg : s.Gets d s1 h) : s1.base.handlers = s.base.handlers := by
  cases hg with
  | old _ he => rw [he]
  | new _ _ _ _ hh _ _ _ _ _ _ _ => exact hh

theorem FmtSt.Gets.forLogger {s s1 : FmtSt} {d : Option String} {h : Handler} (hg : s.Gets d s1 h) : s1.forLogger = s.forLogger := by
  cases hg with
  | old _ he => rw [he]
  | new _ _ _ _ _ _ hf _ _ _ _ _ => exact hf

theorem FmtSt.Gets.good {s s1 : FmtSt} {d : Option String} {h : Handler} (hg : s.Gets d s1 h) (g : s.Good) : s1.Good := by
  cases hg with
  | old _ he => rw [he]; exact g
  | new hn hh hx ha hhs hfm hfl _ _ _ _ hwf =>
    subst hh
    have hat : ∀ d' h', s1.base.at d' = some h' → (d' = d ∧ h' = ⟨s.base.next, d⟩) ∨ (d' ≠ d ∧ s.base.at d' = some h') := by
      intro d' h' h1
      rw [ha] at h1
      by_cases hd : d' = d
      · rw [if_pos hd, Option.some.injEq] at h1
        exact .inl ⟨hd, h1.symm⟩
      · rw [if_neg hd] at h1
        exact .inr ⟨hd, h1⟩
    have none_next : ∀ l, s.forLogger s.base.next l = none := fun l => g.fresh _ l (Nat.le_refl _)
    refine ⟨⟨?_, ?_, ?_, ?_, ?_⟩, hwf g.wf, ?_, ?_, ?_, ?_, ?_, ?_⟩
    · intro h' h1
      rcases hat none h' h1 with ⟨hd, rfl⟩ | ⟨_, h2⟩
      · exact hd.symm
      · exact g.inv.screenFile h' h2
    · intro f h' h1
      rcases hat (some f) h' h1 with ⟨hd, rfl⟩ | ⟨_, h2⟩
      · exact hd.symm
      · exact g.inv.fileFile f h' h2
    · intro l h' hm hf
      rw [hhs] at hm
      have h2 := g.inv.live hm
      rw [hf] at h2
      have : s1.base.at none = some h' := by
        rw [ha]
        by_cases hd : none = d
        · subst hd; rw [hn] at h2; cases h2
        · rw [if_neg hd]; exact h2
      exact this
    · intro l h' f hm hf
      rw [hhs] at hm
      have h2 := g.inv.live hm
      rw [hf] at h2
      have : s1.base.at (some f) = some h' := by
        rw [ha]
        by_cases hd : some f = d
        · subst hd; rw [hn] at h2; cases h2
        · rw [if_neg hd]; exact h2
      exact this
    · intro l
      rw [hhs]
      exact g.inv.nodup l
    · intro d' h' h1
      rcases hat d' h' h1 with ⟨_, rfl⟩ | ⟨_, h2⟩
      · rw [hx]; exact Nat.lt_succ_self _
      · have := g.idlt d' h' h2
        omega
    · intro d1 d2 h1 h2 a1 a2 hid
      rcases hat d1 h1 a1 with ⟨e1, rfl⟩ | ⟨_, b1⟩ <;> rcases hat d2 h2 a2 with ⟨e2, rfl⟩ | ⟨_, b2⟩
      · rw [e1, e2]
      · have := g.idlt _ _ b2
        simp only at hid
        omega
      · have := g.idlt _ _ b1
        simp only at hid
        omega
      · exact g.idinj _ _ _ _ b1 b2 hid
    · intro i l hi
      rw [hfl]
      exact g.fresh i l (by omega)
    · intro h' l f a1 hf
      rw [hfl] at hf
      rcases hat none h' a1 with ⟨_, rfl⟩ | ⟨_, b⟩
      · rw [none_next] at hf; cases hf
      · exact g.screen h' l f b hf
    · intro h' l f a1 hf
      rw [hfl] at hf
      rcases hat _ h' a1 with ⟨_, rfl⟩ | ⟨_, b⟩
      · rw [none_next] at hf; cases hf
      · exact g.log h' l f b hf
    · intro q h' l a1 hq
      rw [hfl]
      rcases hat _ h' a1 with ⟨_, rfl⟩ | ⟨_, b⟩
      · exact none_next l
      · exact g.own q h' l b hq

theorem LogSt.addHandler_at (s : LogSt) (lg : String) (h : Handler) (d : Option String) : (s.addHandler lg h).at d = s.at d := by
  cases d with
  | none => exact s.addHandler_screen lg h
  | some f => simp only [LogSt.at, LogSt.addHandler_files]

theorem LogSt.addHandler_next (s : LogSt) (lg : String) (h : Handler) : (s.addHandler lg h).next = s.next := by
  unfold LogSt.addHandler; split <;> rfl

theorem LogSt.Inv.addLive {s : LogSt} (hi : s.Inv) {lg : String} {h : Handler} (ha : s.at h.file = some h) : (s.addHandler lg h).Inv := by
  refine ⟨?_, ?_, ?_, ?_, ?_⟩
  · intro h' h1
    rw [LogSt.addHandler_screen] at h1
    exact hi.screenFile h' h1
  · intro f h' h1
    rw [LogSt.addHandler_files] at h1
    exact hi.fileFile f h' h1
  · intro l h' hm hf
    rw [LogSt.addHandler_screen]
    rcases LogSt.mem_addHandler.1 hm with h1 | ⟨_, rfl⟩
    · exact hi.screenOnly l h' h1 hf
    · rw [hf] at ha; exact ha
  · intro l h' f hm hf
    rw [LogSt.addHandler_files]
    rcases LogSt.mem_addHandler.1 hm with h1 | ⟨_, rfl⟩
    · exact hi.fileOnly l h' f h1 hf
    · rw [hf] at ha; exact ha
  · exact LogSt.nodup_addHandler hi.nodup

theorem FmtSt.Good.add {s : FmtSt} (g : s.Good) {lg : String} {h : Handler} (ha : s.base.at h.file = some h) : (s.add lg h).Good := by
  refine ⟨g.inv.addLive ha, by simp only [FmtSt.add, LogSt.addHandler_files]; exact g.wf, ?_, ?_, ?_, ?_, ?_, ?_⟩ <;> simp only [FmtSt.add, LogSt.addHandler_at, LogSt.addHandler_next]
  · exact g.idlt
  · exact g.idinj
  · exact g.fresh
  · exact g.screen
  · exact g.log
  · exact g.own

theorem FmtSt.Good.setFormatter {s : FmtSt} (g : s.Good) (h : Handler) (f : Option Fmt) : (s.setFormatter h f).Good :=
  ⟨g.inv, g.wf, g.idlt, g.idinj, g.fresh, g.screen, g.log, g.own⟩

/-- The format that a logger of a process gets on a handler of launch. -/
def lineFmt : Option String → Option Fmt
  | none => some .lineOnly
  | some f => if f = "launch.log" then some .timed else none

theorem FmtSt.Good.addFor {s : FmtSt} (g : s.Good) {lg : String} {h : Handler} {f : Fmt} (ha : s.base.at h.file = some h) (hf : lineFmt h.file = some f) :
    (s.addFor lg h f).Good := by
  unfold FmtSt.addFor
  split
  · exact g
  · have key : ∀ d h', s.base.at d = some h' → h'.id = h.id → d = h.file := fun d h' a1 a2 => g.idinj _ _ _ _ a1 ha a2
    refine ⟨g.inv.addLive ha, by simp only [LogSt.addHandler_files]; exact g.wf, ?_, ?_, ?_, ?_, ?_, ?_⟩ <;> simp only [LogSt.addHandler_at, LogSt.addHandler_next]
    · exact g.idlt
    · exact g.idinj
    · intro i l hi
      have := g.idlt _ _ ha
      rw [if_neg (by omega)]
      exact g.fresh i l hi
    · intro h' l f' a1 h1
      split at h1
      · rename_i hc
        have hd := key _ _ a1 hc.1
        rw [← hd] at hf
        simp only [lineFmt, Option.some.injEq] at hf
        simp only [Option.some.injEq] at h1
        rw [← h1, hf]
      · exact g.screen h' l f' a1 h1
    · intro h' l f' a1 h1
      split at h1
      · rename_i hc
        have hd := key _ _ a1 hc.1
        rw [← hd] at hf
        simp only [lineFmt, if_true, Option.some.injEq] at hf
        simp only [Option.some.injEq] at h1
        rw [← h1, hf]
      · exact g.log h' l f' a1 h1
    · intro q h' l a1 hq
      split
      · rename_i hc
        have hd := key _ _ a1 hc.1
        rw [← hd] at hf
        simp [lineFmt, hq] at hf
      · exact g.own q h' l a1 hq

/-! ## Getting loggers as sequences of small steps -/

/-- A small step: get a handler and add it to a logger. -/
inductive Micro where
  /-- for `get_logger` -/
  | plain (d : Option String) (lg : String)
  /-- with a format for the logger -/
  | line (d : Option String) (lg : String)
  /-- with a format for all -/
  | own (file : String) (lg : String) (f : Fmt)

/-- The logger concerned. -/
def Micro.logger : Micro → String
  | .plain _ lg => lg
  | .line _ lg => lg
  | .own _ lg _ => lg

/-- The place concerned. -/
def Micro.place : Micro → Option String
  | .plain d _ => d
  | .line d _ => d
  | .own f _ _ => some f

/-- The effect of a small step. -/
def FmtSt.micro (s : FmtSt) : Micro → FmtSt
  | .plain d lg => (s.get d).1.add lg (s.get d).2
  | .line d lg =>
    match lineFmt d with
    | some f => (s.get d).1.addFor lg (s.get d).2 f
    | none => s
  | .own file lg f => ((s.get (some file)).1.setFormatter (s.get (some file)).2 (some f)).add lg (s.get (some file)).2

/-- Several. -/
def FmtSt.micros (s : FmtSt) (ms : List Micro) : FmtSt := ms.foldl FmtSt.micro s

/-- The small steps for one source of a process. -/
def sourceMicros (process source : String) (both own : List String) : List Micro :=
  (if "screen" ∈ both ∨ "screen" ∈ own then [.line none (process ++ "-" ++ source)] else []) ++
  (if "log" ∈ both ∨ "log" ∈ own then [.line (some "launch.log") (process ++ "-" ++ source)] else []) ++
  (if "own_log" ∈ own then [.own (process ++ "-" ++ source ++ ".log") (process ++ "-" ++ source) .plain] else []) ++
  (if "own_log" ∈ both then [.own (process ++ ".log") (process ++ "-" ++ source) .lineOnly] else [])

/-- The small steps for a process. -/
def outputMicros (process : String) (v : OutVal) : List Micro :=
  match normalizeOutput v with
  | .error _ => []
  | .ok cfg => sourceMicros process "stdout" cfg.both cfg.stdout ++ sourceMicros process "stderr" cfg.both cfg.stderr

theorem FmtSt.getLogger_micros (s : FmtSt) (n : String) : s.getLogger n = s.micros [.plain none n, .plain (some "launch.log") n] := rfl

theorem FmtSt.micros_if (s : FmtSt) (P : Prop) [Decidable P] (m : Micro) : List.foldl FmtSt.micro s (if P then [m] else []) = if P then s.micro m else s := by
  split <;> rfl

theorem FmtSt.outScreen_micro (s : FmtSt) (lg : String) : s.outScreen lg = s.micro (.line none lg) := rfl

theorem FmtSt.outLog_micro (s : FmtSt) (lg : String) : s.outLog lg = s.micro (.line (some "launch.log") lg) := rfl

theorem FmtSt.outFile_micro (s : FmtSt) (lg file : String) (f : Fmt) : s.outFile lg file f = s.micro (.own file lg f) := rfl

theorem FmtSt.outputSource_micros (s : FmtSt) (process source : String) (both own : List String) :
    s.outputSource process source both own = s.micros (sourceMicros process source both own) := by
  unfold FmtSt.outputSource sourceMicros FmtSt.micros
  simp only [List.foldl_append, FmtSt.micros_if, FmtSt.outScreen_micro, FmtSt.outLog_micro, FmtSt.outFile_micro]

theorem FmtSt.getOutput_micros (s : FmtSt) (process : String) (v : OutVal) : (s.getOutput process v).1 = s.micros (outputMicros process v) := by
  unfold FmtSt.getOutput outputMicros
  cases normalizeOutput v with
  | error e => rfl
  | ok cfg =>
    simp only [FmtSt.outputSource_micros]
    unfold FmtSt.micros
    rw [List.foldl_append]

theorem FmtSt.Good.get {s : FmtSt} (g : s.Good) (d : Option String) :
    (s.get d).1.Good ∧ (s.get d).1.base.at (s.get d).2.file = some (s.get d).2 ∧ (s.get d).2.file = d := by
  have hg := s.gets d
  have g1 := hg.good g
  have hf := g1.inv.at_file hg.at
  exact ⟨g1, by rw [hf]; exact hg.at, hf⟩

theorem FmtSt.Good.micro {s : FmtSt} (g : s.Good) (m : Micro) : (s.micro m).Good := by
  cases m with
  | plain d lg =>
    obtain ⟨g1, ha, _⟩ := g.get d
    exact g1.add ha
  | line d lg =>
    simp only [FmtSt.micro]
    cases hl : lineFmt d with
    | none => exact g
    | some f =>
      obtain ⟨g1, ha, hf⟩ := g.get d
      exact g1.addFor ha (by rw [hf]; exact hl)
  | own file lg f =>
    obtain ⟨g1, ha, _⟩ := g.get (some file)
    exact (g1.setFormatter _ _).add ha

theorem FmtSt.Good.micros {s : FmtSt} (g : s.Good) : ∀ (ms : List Micro), (s.micros ms).Good := by
  intro ms
  induction ms generalizing s with
  | nil => exact g
  | cons m ms ih => exact ih (g.micro m)

theorem FmtSt.good_empty (s : FmtSt) (hb : s.base = { next := s.base.next }) (hf : ∀ i l, s.base.next ≤ i → s.forLogger i l = none) : s.Good := by
  have hat : ∀ d, s.base.at d = none := by
    intro d
    rw [hb]
    cases d <;> rfl
  refine ⟨by rw [hb]; exact LogSt.inv_init _, by rw [hb]; exact Dict.wf_nil, ?_, ?_, hf, ?_, ?_, ?_⟩
  · intro d h h1; rw [hat] at h1; cases h1
  · intro d _ h _ h1; rw [hat] at h1; cases h1
  · intro h _ _ h1; rw [hat] at h1; cases h1
  · intro h _ _ h1; rw [hat] at h1; cases h1
  · intro _ h _ h1; rw [hat] at h1; cases h1

/-- Steps that change only formats of handlers, the formats to come, the level and what was written. -/
structure FmtSt.Same (s s' : FmtSt) : Prop where
  base : s'.base = s.base
  forLogger : s'.forLogger = s.forLogger

theorem FmtSt.Good.same {s s' : FmtSt} (g : s.Good) (h : s.Same s') : s'.Good := by
  refine ⟨?_, ?_, ?_, ?_, ?_, ?_, ?_, ?_⟩ <;> simp only [h.base, h.forLogger]
  · exact g.inv
  · exact g.wf
  · exact g.idlt
  · exact g.idinj
  · exact g.fresh
  · exact g.screen
  · exact g.log
  · exact g.own

theorem FmtSt.same_setScreenFormat (F : FmtOracle) (env : Dict String) (s : FmtSt) (f st : Option String) : s.Same (s.setScreenFormat F env f st).1 := by
  unfold FmtSt.setScreenFormat
  split
  · exact ⟨rfl, rfl⟩
  · split
    · exact ⟨rfl, rfl⟩
    · exact ⟨rfl, rfl⟩
    · split <;> exact ⟨rfl, rfl⟩

theorem FmtSt.same_setLogFormat (F : FmtOracle) (env : Dict String) (s : FmtSt) (f st : Option String) : s.Same (s.setLogFormat F env f st).1 := by
  unfold FmtSt.setLogFormat
  split
  · exact ⟨rfl, rfl⟩
  · split <;> exact ⟨rfl, rfl⟩

theorem FmtSt.same_log (F : FmtOracle) (s : FmtSt) (r : LogRecord) : s.Same (s.log F r) := by
  unfold FmtSt.log
  split <;> exact ⟨rfl, rfl⟩

theorem FmtSt.reset_base (F : FmtOracle) (env : Dict String) (s : FmtSt) : (s.reset F env).1.base = { next := s.base.next } ∧ (s.reset F env).1.forLogger = s.forLogger := by
  unfold FmtSt.reset
  dsimp only
  have h1 := FmtSt.same_setScreenFormat F env { s with base := s.base.reset, screenFmt := none, fileFmt := none, level := 20 } (some "default") none
  revert h1
  generalize FmtSt.setScreenFormat F env { s with base := s.base.reset, screenFmt := none, fileFmt := none, level := 20 } (some "default") none = p
  obtain ⟨s1, r⟩ := p
  intro h1
  cases r with
  | error e => exact ⟨h1.base, h1.forLogger⟩
  | ok u =>
    have h2 := FmtSt.same_setLogFormat F env s1 (some "default") none
    exact ⟨h2.base.trans h1.base, h2.forLogger.trans h1.forLogger⟩

theorem FmtSt.Good.reset {s : FmtSt} (g : s.Good) (F : FmtOracle) (env : Dict String) : (s.reset F env).1.Good := by
  obtain ⟨h1, h2⟩ := FmtSt.reset_base F env s
  have hn : (s.reset F env).1.base.next = s.base.next := by rw [h1]
  refine FmtSt.good_empty _ (by rw [hn]; exact h1) ?_
  intro i l hi
  rw [h2]
  rw [hn] at hi
  exact g.fresh i l hi

theorem FmtSt.Good.step {s : FmtSt} (g : s.Good) (F : FmtOracle) (op : FmtOp) : (s.step F op).Good := by
  cases op with
  | getLogger n => simp only [FmtSt.step, FmtSt.getLogger_micros]; exact g.micros _
  | getOutput p v => simp only [FmtSt.step, FmtSt.getOutput_micros]; exact g.micros _
  | setScreenFormat env f st => exact g.same (FmtSt.same_setScreenFormat F env s f st)
  | setLogFormat env f st => exact g.same (FmtSt.same_setLogFormat F env s f st)
  | setLevel n => exact g.same ⟨rfl, rfl⟩
  | reset env => exact g.reset F env
  | log r => exact g.same (FmtSt.same_log F s r)

theorem FmtSt.Good.run (F : FmtOracle) : ∀ (ops : List FmtOp) {s : FmtSt}, s.Good → (s.run F ops).Good
  | [], _, g => g
  | op :: ops, _, g => FmtSt.Good.run F ops (g.step F op)

theorem FmtSt.good_init : ({} : FmtSt).Good := FmtSt.good_empty _ rfl (fun _ _ _ => rfl)

/-! ## The format of lines -/

/-- The lines of the logger are formatted as lines of a process on the screen and in the launch log file. -/
def FmtSt.Marked (s : FmtSt) (n : String) : Prop := ∀ h ∈ s.base.handlers n, ∀ f, lineFmt h.file = some f → s.forLogger h.id n = some f

/-- The logger has no format of its own. -/
def FmtSt.Unmarked (s : FmtSt) (n : String) : Prop := (∀ i, s.forLogger i n = none) ∧ ∀ h ∈ s.base.handlers n, h.file = none ∨ h.file = some "launch.log"

/-- The files of processes contain just the lines. -/
def FmtSt.OwnOk (s : FmtSt) : Prop :=
  ∀ f h, s.base.at (some f) = some h → f ≠ "launch.log" → s.formatter h.id = some .lineOnly ∨ s.formatter h.id = some .plain

/-- The screen and the launch log file have the current formats. -/
def FmtSt.Current (s : FmtSt) : Prop :=
  (∀ h, s.base.at none = some h → s.formatter h.id = s.screenFmt) ∧ ∀ h, s.base.at (some "launch.log") = some h → s.formatter h.id = s.fileFmt

/-- What a small step adds. -/
theorem FmtSt.micro_handlers (s : FmtSt) (m : Micro) (n : String) (h : Handler) (hm : h ∈ (s.micro m).base.handlers n) :
    h ∈ s.base.handlers n ∨ (n = m.logger ∧ h = (s.get m.place).2) := by
  cases m with
  | plain d lg =>
    rcases LogSt.mem_addHandler.1 hm with h1 | h1
    · rw [(s.gets d).handlers] at h1; exact .inl h1
    · exact .inr h1
  | line d lg =>
    simp only [FmtSt.micro] at hm
    cases hl : lineFmt d with
    | none => rw [hl] at hm; exact .inl hm
    | some f =>
      rw [hl] at hm
      simp only [FmtSt.addFor] at hm
      split at hm
      · rw [(s.gets d).handlers] at hm; exact .inl hm
      · rcases LogSt.mem_addHandler.1 hm with h1 | h1
        · rw [(s.gets d).handlers] at h1; exact .inl h1
        · exact .inr h1
  | own file lg f =>
    rcases LogSt.mem_addHandler.1 hm with h1 | h1
    · simp only [FmtSt.setFormatter] at h1
      rw [(s.gets (some file)).handlers] at h1; exact .inl h1
    · exact .inr h1

/-- Formats of a logger change only by steps for it. -/
theorem FmtSt.micro_forLogger (s : FmtSt) (m : Micro) (i : Nat) (n : String) :
    (s.micro m).forLogger i n = s.forLogger i n ∨
      ∃ d f, m = .line d n ∧ lineFmt d = some f ∧ (s.get d).2 ∉ s.base.handlers n ∧ i = (s.get d).2.id ∧ (s.micro m).forLogger i n = some f := by
  cases m with
  | plain d lg => exact .inl (congrFun (congrFun (s.gets d).forLogger i) n)
  | line d lg =>
    simp only [FmtSt.micro]
    cases hl : lineFmt d with
    | none => exact .inl rfl
    | some f =>
      simp only [FmtSt.addFor, (s.gets d).handlers]
      split
      · exact .inl (congrFun (congrFun (s.gets d).forLogger i) n)
      · rename_i hnot
        simp only
        split
        · rename_i hc
          obtain ⟨h1, rfl⟩ := hc
          exact .inr ⟨d, f, rfl, hl, hnot, h1, rfl⟩
        · exact .inl (congrFun (congrFun (s.gets d).forLogger i) n)
  | own file lg f => exact .inl (congrFun (congrFun (s.gets (some file)).forLogger i) n)

/-- Steps that are allowed for loggers of processes. -/
def Micro.ForProcess (n : String) (m : Micro) : Prop :=
  m.logger = n → match m with
    | .plain _ _ => False
    | .line _ _ => True
    | .own f _ _ => f ≠ "launch.log"

theorem FmtSt.Marked.micro {s : FmtSt} {n : String} (hk : s.Marked n) (g : s.Good) {m : Micro} (hm : m.ForProcess n) : (s.micro m).Marked n := by
  by_cases hn : m.logger = n
  · have hm' := hm hn
    cases m with
    | plain d lg => exact hm'.elim
    | line d lg =>
      have hl : lg = n := hn
      subst hl
      simp only [FmtSt.micro]
      cases hf0 : lineFmt d with
      | none => exact hk
      | some f0 =>
        have hg := s.gets d
        have g1 := hg.good g
        have hfile := (g.get d).2.2
        simp only [FmtSt.addFor]
        split
        · intro h hh f hf
          rw [hg.handlers] at hh
          rw [hg.forLogger]
          exact hk h hh f hf
        · intro h hh f hf
          simp only
          split
          · rename_i hc
            have hlive : (s.get d).1.base.at h.file = some h := by
              rcases LogSt.mem_addHandler.1 hh with h1 | ⟨_, rfl⟩
              · exact g1.inv.live h1
              · exact (g.get d).2.1
            have := g1.idinj _ _ _ _ hlive hg.at hc.1
            rw [this, hf0] at hf
            exact hf
          · rename_i hc
            rw [hg.forLogger]
            rcases LogSt.mem_addHandler.1 hh with h1 | ⟨_, rfl⟩
            · rw [hg.handlers] at h1
              exact hk h h1 f hf
            · exact absurd ⟨rfl, trivial⟩ hc
    | own file lg q =>
      intro h hh f hf
      have hg := s.gets (some file)
      have hfile := (g.get (some file)).2.2
      have e : (s.micro (.own file lg q)).forLogger h.id n = s.forLogger h.id n := congrFun (congrFun hg.forLogger _) _
      rw [e]
      rcases s.micro_handlers _ n h hh with h1 | ⟨_, rfl⟩
      · exact hk h h1 f hf
      · simp only [Micro.place] at hf
        rw [hfile] at hf
        simp only [lineFmt] at hf
        rw [if_neg hm'] at hf
        cases hf
  · intro h hh f hf
    have h1 : h ∈ s.base.handlers n := by
      rcases s.micro_handlers m n h hh with h1 | ⟨h1, _⟩
      · exact h1
      · exact absurd h1.symm hn
    rcases s.micro_forLogger m h.id n with he | ⟨d, f', rfl, _⟩
    · rw [he]; exact hk h h1 f hf
    · exact absurd rfl hn

/-- Steps that are allowed for loggers of launch. -/
def Micro.ForLaunch (n : String) (m : Micro) : Prop := m.logger = n → ∃ d, m = .plain d n ∧ (d = none ∨ d = some "launch.log")

theorem FmtSt.Unmarked.micro {s : FmtSt} {n : String} (hk : s.Unmarked n) (g : s.Good) {m : Micro} (hm : m.ForLaunch n) : (s.micro m).Unmarked n := by
  constructor
  · intro i
    rcases s.micro_forLogger m i n with he | ⟨d, f', rfl, _⟩
    · rw [he]; exact hk.1 i
    · obtain ⟨d', h1, _⟩ := hm rfl
      cases h1
  · intro h hh
    rcases s.micro_handlers m n h hh with h1 | ⟨h1, rfl⟩
    · exact hk.2 h h1
    · obtain ⟨d, rfl, hd⟩ := hm h1.symm
      simp only [Micro.place]
      rw [(g.get d).2.2]
      exact hd

theorem FmtSt.Gets.formatter {s s1 : FmtSt} {d d' : Option String} {h h' : Handler} (hg : s.Gets d s1 h) (g : s.Good) (ha : s1.base.at d' = some h') :
    s.base.at d' = some h' ∧ s1.formatter h'.id = s.formatter h'.id ∨ d' = d ∧ h' = h ∧ s.base.at d = none ∧ s1.formatter h'.id = s.fresh d := by
  cases hg with
  | old _ he => subst he; exact .inl ⟨ha, rfl⟩
  | new hn hh _ hat _ hfm _ _ _ _ _ _ =>
    rw [hat] at ha
    by_cases hd : d' = d
    · rw [if_pos hd, Option.some.injEq] at ha
      subst ha
      exact .inr ⟨hd, rfl, hn, by rw [hfm, if_pos rfl]⟩
    · rw [if_neg hd] at ha
      have := g.idlt _ _ ha
      refine .inl ⟨ha, ?_⟩
      rw [hfm, if_neg (by rw [hh]; simp only; omega)]

/-- Steps that make the files of processes contain lines only. -/
def Micro.Lines : Micro → Prop
  | .plain d _ => d = none ∨ d = some "launch.log"
  | .line _ _ => True
  | .own _ _ f => f = .lineOnly ∨ f = .plain

theorem FmtSt.OwnOk.get {s : FmtSt} (ho : s.OwnOk) (g : s.Good) {d : Option String} (hd : d = none ∨ d = some "launch.log") : (s.get d).1.OwnOk := by
  intro f h ha hf
  rcases (s.gets d).formatter g ha with ⟨h1, h2⟩ | ⟨h1, _⟩
  · rw [h2]; exact ho f h h1 hf
  · rcases hd with rfl | rfl
    · cases h1
    · injection h1 with h1; exact absurd h1 hf

theorem lineFmt_place {d : Option String} {f : Fmt} (h : lineFmt d = some f) : d = none ∨ d = some "launch.log" := by
  cases d with
  | none => exact .inl rfl
  | some q =>
    simp only [lineFmt] at h
    split at h
    · rename_i hq; rw [hq]; exact .inr rfl
    · cases h

theorem FmtSt.OwnOk.micro {s : FmtSt} (ho : s.OwnOk) (g : s.Good) {m : Micro} (hm : m.Lines) : (s.micro m).OwnOk := by
  cases m with
  | plain d lg =>
    intro f h ha hf
    simp only [FmtSt.micro, FmtSt.add, LogSt.addHandler_at] at ha
    exact ho.get g hm f h ha hf
  | line d lg =>
    simp only [FmtSt.micro]
    cases hl : lineFmt d with
    | none => exact ho
    | some q =>
      have h0 := ho.get g (lineFmt_place hl)
      simp only [FmtSt.addFor]
      split
      · exact h0
      · intro f h ha hf
        simp only [LogSt.addHandler_at] at ha
        exact h0 f h ha hf
  | own file lg q =>
    intro f h ha hf
    simp only [FmtSt.micro, FmtSt.add, LogSt.addHandler_at, FmtSt.setFormatter] at ha ⊢
    split
    · rcases hm with rfl | rfl <;> simp
    · rename_i hne
      rcases (s.gets (some file)).formatter g ha with ⟨h1, h2⟩ | ⟨h1, h2, _⟩
      · rw [h2]; exact ho f h h1 hf
      · rw [h2] at hne; exact absurd rfl hne

/-- Steps that leave the format of the launch log file alone. -/
def Micro.NotLaunch : Micro → Prop
  | .own f _ _ => f ≠ "launch.log"
  | _ => True

theorem FmtSt.Current.get {s : FmtSt} (hc : s.Current) (g : s.Good) (d : Option String) :
    (s.get d).1.Current ∧ (s.get d).1.screenFmt = s.screenFmt ∧ (s.get d).1.fileFmt = s.fileFmt := by
  have hfm : (s.get d).1.screenFmt = s.screenFmt ∧ (s.get d).1.fileFmt = s.fileFmt := by
    generalize hq : s.get d = q
    have hg := s.gets d
    rw [hq] at hg
    cases hg with
    | old _ he => rw [he]; exact ⟨rfl, rfl⟩
    | new _ _ _ _ _ _ _ h1 h2 _ _ _ => exact ⟨h1, h2⟩
  refine ⟨⟨?_, ?_⟩, hfm⟩
  · intro h ha
    rw [hfm.1]
    rcases (s.gets d).formatter g ha with ⟨h1, h2⟩ | ⟨rfl, _, _, h2⟩
    · rw [h2]; exact hc.1 h h1
    · exact h2
  · intro h ha
    rw [hfm.2]
    rcases (s.gets d).formatter g ha with ⟨h1, h2⟩ | ⟨rfl, _, _, h2⟩
    · rw [h2]; exact hc.2 h h1
    · exact h2

theorem FmtSt.Current.micro {s : FmtSt} (hc : s.Current) (g : s.Good) {m : Micro} (hm : m.NotLaunch) :
    (s.micro m).Current ∧ (s.micro m).screenFmt = s.screenFmt ∧ (s.micro m).fileFmt = s.fileFmt := by
  cases m with
  | plain d lg =>
    obtain ⟨h1, h2⟩ := hc.get g d
    refine ⟨⟨?_, ?_⟩, h2⟩
    · intro h ha
      simp only [FmtSt.micro, FmtSt.add, LogSt.addHandler_at] at ha
      exact h1.1 h ha
    · intro h ha
      simp only [FmtSt.micro, FmtSt.add, LogSt.addHandler_at] at ha
      exact h1.2 h ha
  | line d lg =>
    simp only [FmtSt.micro]
    cases hl : lineFmt d with
    | none => exact ⟨hc, rfl, rfl⟩
    | some q =>
      obtain ⟨h1, h2⟩ := hc.get g d
      simp only [FmtSt.addFor]
      split
      · exact ⟨h1, h2⟩
      · refine ⟨⟨?_, ?_⟩, h2⟩
        · intro h ha
          simp only [LogSt.addHandler_at] at ha
          exact h1.1 h ha
        · intro h ha
          simp only [LogSt.addHandler_at] at ha
          exact h1.2 h ha
  | own file lg q =>
    obtain ⟨h1, h2⟩ := hc.get g (some file)
    have hg := s.gets (some file)
    have g1 := hg.good g
    refine ⟨⟨?_, ?_⟩, h2⟩
    · intro h ha
      simp only [FmtSt.micro, FmtSt.add, LogSt.addHandler_at, FmtSt.setFormatter] at ha ⊢
      rw [if_neg (fun hid => by cases g1.idinj _ _ _ _ ha hg.at hid)]
      exact h1.1 h ha
    · intro h ha
      simp only [FmtSt.micro, FmtSt.add, LogSt.addHandler_at, FmtSt.setFormatter] at ha ⊢
      rw [if_neg (fun hid => by
        have := g1.idinj _ _ _ _ ha hg.at hid
        injection this with this
        exact hm this.symm)]
      exact h1.2 h ha

/-! ## Which steps operations consist of -/

theorem mem_outputMicros {process : String} {v : OutVal} {m : Micro} (h : m ∈ outputMicros process v) :
    ∃ source, (source = "stdout" ∨ source = "stderr") ∧
      (m = .line none (process ++ "-" ++ source) ∨ m = .line (some "launch.log") (process ++ "-" ++ source) ∨
        m = .own (process ++ "-" ++ source ++ ".log") (process ++ "-" ++ source) .plain ∨ m = .own (process ++ ".log") (process ++ "-" ++ source) .lineOnly) := by
  have key : ∀ source both own, m ∈ sourceMicros process source both own →
      (m = .line none (process ++ "-" ++ source) ∨ m = .line (some "launch.log") (process ++ "-" ++ source) ∨
        m = .own (process ++ "-" ++ source ++ ".log") (process ++ "-" ++ source) .plain ∨ m = .own (process ++ ".log") (process ++ "-" ++ source) .lineOnly) := by
    intro source both own hm
    simp only [sourceMicros, List.mem_append] at hm
    rcases hm with ((hm | hm) | hm) | hm <;> split at hm <;> simp only [List.mem_singleton, List.not_mem_nil] at hm
    · exact .inl hm
    · exact .inr (.inl hm)
    · exact .inr (.inr (.inl hm))
    · exact .inr (.inr (.inr hm))
  unfold outputMicros at h
  split at h
  · cases h
  · rcases List.mem_append.1 h with h | h
    · exact ⟨_, .inl rfl, key _ _ _ h⟩
    · exact ⟨_, .inr rfl, key _ _ _ h⟩

theorem append_right_cancel {a b c : String} (h : a ++ c = b ++ c) : a = b := by
  have := congrArg String.toList h
  simp only [String.toList_append] at this
  have := List.append_cancel_right this
  exact String.toList_injective this

theorem own_ne_launch (process source : String) (hs : source = "stdout" ∨ source = "stderr") : process ++ "-" ++ source ++ ".log" ≠ "launch.log" := by
  intro h
  have := congrArg (fun s => s.toList.length) h
  simp only [String.toList_append, List.length_append] at this
  have e1 : ".log".toList.length = 4 := by decide +kernel
  have e2 : "-".toList.length = 1 := by decide +kernel
  have e3 : source.toList.length = 6 := by rcases hs with rfl | rfl <;> decide +kernel
  have e4 : "launch.log".toList.length = 10 := by decide +kernel
  omega

theorem combined_ne_launch {process : String} (hp : process ≠ "launch") : process ++ ".log" ≠ "launch.log" := by
  intro h
  exact hp (append_right_cancel (c := ".log") h)

end Verif
