import Verif.Spec.Logging
import Verif.Lemmas.Subst

/-!
# C46: the output argument is interpreted consistently
-/

namespace Verif

/-- Handler objects are shared: one for the screen, one for each file. -/
structure LogSt.Inv (s : LogSt) : Prop where
  screenFile : ∀ h, s.screen = some h → h.file = none
  fileFile : ∀ f h, s.files.get? f = some h → h.file = some f
  screenOnly : ∀ l h, h ∈ s.handlers l → h.file = none → s.screen = some h
  fileOnly : ∀ l h f, h ∈ s.handlers l → h.file = some f → s.files.get? f = some h
  nodup : ∀ l, (s.handlers l).Nodup

theorem LogSt.mem_addHandler {s : LogSt} {lg l : String} {h h' : Handler} :
    h' ∈ (s.addHandler lg h).handlers l ↔ h' ∈ s.handlers l ∨ (l = lg ∧ h' = h) := by
  unfold LogSt.addHandler
  by_cases hm : h ∈ s.handlers lg
  · simp only [hm, if_true]
    constructor
    · exact Or.inl
    · rintro (h1 | ⟨rfl, rfl⟩)
      · exact h1
      · exact hm
  · simp only [hm, if_false]
    by_cases hl : l = lg
    · subst hl; simp
    · simp [hl]

theorem LogSt.nodup_addHandler {s : LogSt} {lg : String} {h : Handler} (hn : ∀ l, (s.handlers l).Nodup) (l : String) :
    ((s.addHandler lg h).handlers l).Nodup := by
  unfold LogSt.addHandler
  by_cases hm : h ∈ s.handlers lg
  · simp only [hm, if_true]; exact hn l
  · simp only [hm, if_false]
    by_cases hl : l = lg
    · subst hl
      simp only [if_true]
      rw [List.nodup_append]
      refine ⟨hn l, by simp, ?_⟩
      intro a ha b hb hab
      simp only [List.mem_singleton] at hb
      subst hb; subst hab
      exact hm ha
    · simp only [hl, if_false]; exact hn l

theorem LogSt.addHandler_screen (s : LogSt) (lg : String) (h : Handler) : (s.addHandler lg h).screen = s.screen := by
  unfold LogSt.addHandler; split <;> rfl

theorem LogSt.addHandler_files (s : LogSt) (lg : String) (h : Handler) : (s.addHandler lg h).files = s.files := by
  unfold LogSt.addHandler; split <;> rfl

theorem LogSt.Inv.addScreen {s : LogSt} (hi : s.Inv) (lg : String) : (s.addScreen lg).Inv ∧
    ∀ l d, d ∈ (s.addScreen lg).reaches l ↔ d ∈ s.reaches l ∨ (l = lg ∧ d = none) := by
  have key : ∃ s1 h, s.getScreen = (s1, h) ∧ s1.screen = some h ∧ h.file = none ∧ s1.files = s.files ∧
      s1.handlers = s.handlers ∧ (∀ h', s.screen = some h' → h' = h) := by
    unfold LogSt.getScreen
    cases hs : s.screen with
    | some h => exact ⟨s, h, rfl, hs, hi.screenFile h hs, rfl, rfl, fun h' h1 => by simpa using h1.symm⟩
    | none => exact ⟨_, _, rfl, rfl, rfl, rfl, rfl, fun h' h1 => by simp at h1⟩
  obtain ⟨s1, h, he, hsc, hf, hfs, hh, hold⟩ := key
  have hadd : s.addScreen lg = s1.addHandler lg h := by simp [LogSt.addScreen, he]
  refine ⟨⟨?_, ?_, ?_, ?_, ?_⟩, ?_⟩
  · intro h' h1
    rw [hadd, LogSt.addHandler_screen, hsc] at h1
    cases h1; exact hf
  · intro f h' h1
    rw [hadd, LogSt.addHandler_files, hfs] at h1
    exact hi.fileFile f h' h1
  · intro l h' hm h0
    rw [hadd] at hm ⊢
    rw [LogSt.addHandler_screen, hsc]
    rcases LogSt.mem_addHandler.1 hm with h1 | ⟨_, h1⟩
    · rw [hh] at h1
      rw [hold h' (hi.screenOnly l h' h1 h0)]
    · rw [h1]
  · intro l h' f hm h0
    rw [hadd] at hm ⊢
    rw [LogSt.addHandler_files, hfs]
    rcases LogSt.mem_addHandler.1 hm with h1 | ⟨_, h1⟩
    · rw [hh] at h1
      exact hi.fileOnly l h' f h1 h0
    · rw [h1, hf] at h0; cases h0
  · intro l
    rw [hadd]
    exact LogSt.nodup_addHandler (by rw [hh]; exact hi.nodup) l
  · intro l d
    rw [hadd]
    simp only [LogSt.reaches, List.mem_map, LogSt.mem_addHandler, hh]
    constructor
    · rintro ⟨h', h1 | ⟨hl, rfl⟩, rfl⟩
      · exact Or.inl ⟨h', h1, rfl⟩
      · exact Or.inr ⟨hl, hf⟩
    · rintro (⟨h', h1, rfl⟩ | ⟨hl, rfl⟩)
      · exact ⟨h', Or.inl h1, rfl⟩
      · exact ⟨h, Or.inr ⟨hl, rfl⟩, hf⟩

theorem LogSt.Inv.addFile {s : LogSt} (hi : s.Inv) (lg file : String) : (s.addFile lg file).Inv ∧
    ∀ l d, d ∈ (s.addFile lg file).reaches l ↔ d ∈ s.reaches l ∨ (l = lg ∧ d = some file) := by
  have key : ∃ s1 h, s.getFile file = (s1, h) ∧ s1.screen = s.screen ∧ h.file = some file ∧
      (∀ f, s1.files.get? f = if f = file then some h else s.files.get? f) ∧
      s1.handlers = s.handlers ∧ (∀ h', s.files.get? file = some h' → h' = h) := by
    unfold LogSt.getFile
    cases hs : s.files.get? file with
    | some h =>
      refine ⟨s, h, rfl, rfl, hi.fileFile _ h hs, ?_, rfl, fun h' h1 => by simpa using h1.symm⟩
      intro f
      by_cases hf : f = file <;> simp [hf, hs]
    | none =>
      refine ⟨_, _, rfl, rfl, rfl, ?_, rfl, fun h' h1 => by simp at h1⟩
      intro f
      by_cases hf : f = file
      · subst hf; simp
      · simp only [hf, if_false]
        exact Dict.get?_set_ne _ _ (fun h => hf h.symm)
  obtain ⟨s1, h, he, hsc, hf, hfs, hh, hold⟩ := key
  have hadd : s.addFile lg file = s1.addHandler lg h := by simp [LogSt.addFile, he]
  refine ⟨⟨?_, ?_, ?_, ?_, ?_⟩, ?_⟩
  · intro h' h1
    rw [hadd, LogSt.addHandler_screen, hsc] at h1
    exact hi.screenFile _ h1
  · intro f h' h1
    rw [hadd, LogSt.addHandler_files, hfs] at h1
    by_cases hff : f = file
    · subst hff
      simp only [if_true] at h1
      cases h1; exact hf
    · simp only [hff, if_false] at h1
      exact hi.fileFile f h' h1
  · intro l h' hm h0
    rw [hadd] at hm ⊢
    rw [LogSt.addHandler_screen, hsc]
    rcases LogSt.mem_addHandler.1 hm with h1 | ⟨_, h1⟩
    · rw [hh] at h1
      exact hi.screenOnly l h' h1 h0
    · rw [h1, hf] at h0; cases h0
  · intro l h' f hm h0
    rw [hadd] at hm ⊢
    rw [LogSt.addHandler_files, hfs]
    rcases LogSt.mem_addHandler.1 hm with h1 | ⟨_, h1⟩
    · rw [hh] at h1
      have h2 := hi.fileOnly l h' f h1 h0
      by_cases hff : f = file
      · subst hff
        simp [hold h' h2]
      · simp [hff, h2]
    · rw [h1, hf] at h0; cases h0; simp [h1]
  · intro l
    rw [hadd]
    exact LogSt.nodup_addHandler (by rw [hh]; exact hi.nodup) l
  · intro l d
    rw [hadd]
    simp only [LogSt.reaches, List.mem_map, LogSt.mem_addHandler, hh]
    constructor
    · rintro ⟨h', h1 | ⟨hl, rfl⟩, rfl⟩
      · exact Or.inl ⟨h', h1, rfl⟩
      · exact Or.inr ⟨hl, hf⟩
    · rintro (⟨h', h1, rfl⟩ | ⟨hl, rfl⟩)
      · exact ⟨h', Or.inl h1, rfl⟩
      · exact ⟨h, Or.inr ⟨hl, rfl⟩, hf⟩

/-- What the configuration of one source sends where. -/
def cfgSends (both own : List String) : Place → Prop
  | .screen => "screen" ∈ both ∨ "screen" ∈ own
  | .launchLog => "log" ∈ both ∨ "log" ∈ own
  | .own => "own_log" ∈ own
  | .combined => "own_log" ∈ both

theorem LogSt.Inv.opt {s : LogSt} (hi : s.Inv) {P : Prop} [Decidable P] {f : LogSt → LogSt} {lg : String} {e : Option String}
    (hf : (f s).Inv ∧ ∀ l d, d ∈ (f s).reaches l ↔ d ∈ s.reaches l ∨ (l = lg ∧ d = e)) :
    (if P then f s else s).Inv ∧
    ∀ l d, d ∈ (if P then f s else s).reaches l ↔ d ∈ s.reaches l ∨ (l = lg ∧ P ∧ d = e) := by
  by_cases hP : P
  · simpa [hP] using hf
  · simpa [hP] using hi

theorem LogSt.Inv.outputSource {s : LogSt} (hi : s.Inv) (process source : String) (both own : List String) :
    (s.outputSource process source both own).Inv ∧
    ∀ l d, d ∈ (s.outputSource process source both own).reaches l ↔
      d ∈ s.reaches l ∨ (l = process ++ "-" ++ source ∧ ∃ p, cfgSends both own p ∧ d = p.file process source) := by
  unfold LogSt.outputSource
  dsimp only
  have h1 := hi.opt (P := "screen" ∈ both ∨ "screen" ∈ own) (f := fun s => s.addScreen (process ++ "-" ++ source))
    (hi.addScreen _)
  generalize (if "screen" ∈ both ∨ "screen" ∈ own then s.addScreen (process ++ "-" ++ source) else s) = s1 at h1 ⊢
  have h2 := h1.1.opt (P := "log" ∈ both ∨ "log" ∈ own)
    (f := fun s => s.addFile (process ++ "-" ++ source) "launch.log") (h1.1.addFile _ _)
  generalize (if "log" ∈ both ∨ "log" ∈ own then s1.addFile (process ++ "-" ++ source) "launch.log" else s1) = s2 at h2 ⊢
  have h3 := h2.1.opt (P := "own_log" ∈ own)
    (f := fun s => s.addFile (process ++ "-" ++ source) (process ++ "-" ++ source ++ ".log")) (h2.1.addFile _ _)
  generalize (if "own_log" ∈ own then s2.addFile (process ++ "-" ++ source) (process ++ "-" ++ source ++ ".log") else s2)
    = s3 at h3 ⊢
  have h4 := h3.1.opt (P := "own_log" ∈ both)
    (f := fun s => s.addFile (process ++ "-" ++ source) (process ++ ".log")) (h3.1.addFile _ _)
  refine ⟨h4.1, ?_⟩
  intro l d
  rw [h4.2, h3.2, h2.2, h1.2]
  constructor
  · rintro ((((h | ⟨hl, hp, rfl⟩) | ⟨hl, hp, rfl⟩) | ⟨hl, hp, rfl⟩) | ⟨hl, hp, rfl⟩)
    · exact Or.inl h
    · exact Or.inr ⟨hl, .screen, hp, rfl⟩
    · exact Or.inr ⟨hl, .launchLog, hp, rfl⟩
    · exact Or.inr ⟨hl, .own, hp, rfl⟩
    · exact Or.inr ⟨hl, .combined, hp, rfl⟩
  · rintro (h | ⟨hl, p, hp, rfl⟩)
    · exact Or.inl (Or.inl (Or.inl (Or.inl h)))
    · cases p with
      | screen => exact Or.inl (Or.inl (Or.inl (Or.inr ⟨hl, hp, rfl⟩)))
      | launchLog => exact Or.inl (Or.inl (Or.inr ⟨hl, hp, rfl⟩))
      | own => exact Or.inl (Or.inr ⟨hl, hp, rfl⟩)
      | combined => exact Or.inr ⟨hl, hp, rfl⟩

/-! ## Normalization -/

theorem normalizeDests_ok {v : DestVal} {l : List String} (h : normalizeDests v = .ok l) :
    (match v with | .one s => [s] | .many l => l | .notIterable => []) = l := by
  cases v with
  | one s => simp only [normalizeDests] at h; split at h <;> simp_all
  | many m => simp only [normalizeDests] at h; split at h <;> simp_all
  | notIterable => simp [normalizeDests] at h

theorem normalizeItems_ok : ∀ {d : Dict DestVal} {cfg cfg' : OutCfg}, d.Wf → normalizeItems d cfg = .ok cfg' →
    cfg'.both = (if d.has "both" then named d "both" else cfg.both) ∧
    cfg'.stdout = (if d.has "stdout" then named d "stdout" else cfg.stdout) ∧
    cfg'.stderr = (if d.has "stderr" then named d "stderr" else cfg.stderr)
  | [], cfg, cfg', _, h => by
    simp only [normalizeItems, Except.ok.injEq] at h
    subst h
    simp [Dict.has]
  | (k, v) :: d, cfg, cfg', hw, h => by
    have hw' : k ∉ Dict.keys d ∧ Dict.Wf d := by simpa [Dict.Wf, Dict.keys] using hw
    have hnot : Dict.get? d k = none := by
      have h1 := hw'.1
      clear h hw hw'
      induction d with
      | nil => rfl
      | cons p d ih =>
        obtain ⟨k', v'⟩ := p
        simp only [Dict.keys, List.map_cons, List.mem_cons, not_or] at h1
        simp only [Dict.get?]
        rw [if_neg (fun hh => h1.1 hh.symm)]
        exact ih h1.2
    simp only [normalizeItems] at h
    by_cases hk : k = "stdout" ∨ k = "stderr" ∨ k = "both"
    · rw [if_pos hk] at h
      cases hd : normalizeDests v with
      | error e => rw [hd] at h; simp at h
      | ok l =>
        rw [hd] at h
        simp only at h
        have ih := normalizeItems_ok hw'.2 h
        have hv := normalizeDests_ok hd
        have hnamed : named ((k, v) :: d) k = l := by
          simp only [named, Dict.get?, if_true]
          rw [← hv]
          cases v <;> rfl
        have hne : ∀ k', k ≠ k' → named ((k, v) :: d) k' = named d k' ∧ Dict.has ((k, v) :: d) k' = Dict.has d k' := by
          intro k' hkk
          simp [named, Dict.has, Dict.get?, hkk]
        have hhas : Dict.has ((k, v) :: d) k = true := by simp [Dict.has, Dict.get?]
        have hhas' : Dict.has d k = false := by simp [Dict.has, hnot]
        rcases hk with rfl | rfl | rfl
        · have h1 := hne "both" (by decide)
          have h2 := hne "stderr" (by decide)
          rw [h1.1, h1.2, h2.1, h2.2, hnamed, hhas]
          simpa [hhas'] using ih
        · have h1 := hne "both" (by decide)
          have h2 := hne "stdout" (by decide)
          rw [h1.1, h1.2, h2.1, h2.2, hnamed, hhas]
          simpa [hhas'] using ih
        · have h1 := hne "stdout" (by decide)
          have h2 := hne "stderr" (by decide)
          rw [h1.1, h1.2, h2.1, h2.2, hnamed, hhas]
          simpa [hhas'] using ih
    · rw [if_neg hk] at h
      cases h

theorem named_not_has {d : Dict DestVal} {k : String} (h : d.has k = false) : named d k = [] := by
  have : d.get? k = none := by simpa [Dict.has] using h
  simp [named, this]

theorem normalizeItems_named {d : Dict DestVal} {cfg' : OutCfg} (hw : d.Wf) (h : normalizeItems d {} = .ok cfg') :
    cfg' = ⟨named d "both", named d "stdout", named d "stderr"⟩ := by
  have h1 := normalizeItems_ok hw h
  have key : ∀ k, (if d.has k then named d k else []) = named d k := by
    intro k
    cases hk : d.has k with
    | true => simp
    | false => simp [named_not_has hk]
  obtain ⟨b, o, e⟩ := cfg'
  simpa [key] using h1

/-- A well-formed value: the keys of a dictionary are distinct, as Python guarantees. -/
def OutVal.Wf : OutVal → Prop
  | .dict d => Dict.Wf d
  | _ => True

theorem normalize_sends {v : OutVal} (hw : v.Wf) {cfg : OutCfg} (h : normalizeOutput v = .ok cfg) (p : Place) :
    (cfgSends cfg.both cfg.stdout p ↔ sends v "stdout" p) ∧ (cfgSends cfg.both cfg.stderr p ↔ sends v "stderr" p) := by
  cases v with
  | other => simp [normalizeOutput] at h
  | dict d =>
    have := normalizeItems_named hw h
    subst this
    cases p <;> simp [cfgSends, sends, dictSends, or_comm]
  | text s =>
    simp only [normalizeOutput, normalizeText] at h
    by_cases h1 : s = "screen"
    · subst h1; simp at h; subst h
      cases p <;> simp [cfgSends, sends, aliasPlaces]
    by_cases h2 : s = "log"
    · subst h2; simp at h; subst h
      cases p <;> simp [cfgSends, sends, aliasPlaces]
    by_cases h3 : s = "both"
    · subst h3; simp at h; subst h
      cases p <;> simp [cfgSends, sends, aliasPlaces]
    by_cases h4 : s = "own_log"
    · subst h4; simp at h; subst h
      cases p <;> simp [cfgSends, sends, aliasPlaces]
    by_cases h5 : s = "full"
    · subst h5; simp at h; subst h
      cases p <;> simp [cfgSends, sends, aliasPlaces]
    simp [h1, h2, h3, h4, h5] at h

theorem normalizeDests_doc (v : DestVal) : (∃ l, normalizeDests v = .ok l) ↔
    (match v with
      | .one s => s = "screen" ∨ s = "log" ∨ s = "own_log"
      | .many l => ∀ s ∈ l, s = "screen" ∨ s = "log" ∨ s = "own_log"
      | .notIterable => False) := by
  cases v with
  | one s => by_cases h : s = "screen" ∨ s = "log" ∨ s = "own_log" <;> simp [normalizeDests, h]
  | many l =>
    simp only [normalizeDests]
    by_cases h : l.all (fun s => s = "screen" ∨ s = "log" ∨ s = "own_log") = true
    · simp only [h, if_true]
      simpa using h
    · simp only [h]
      simpa using h
  | notIterable => simp [normalizeDests]

theorem normalizeItems_doc : ∀ (d : Dict DestVal) (cfg : OutCfg),
    (∃ cfg', normalizeItems d cfg = .ok cfg') ↔ OutputDocumented (.dict d)
  | [], cfg => by simp [normalizeItems, OutputDocumented]
  | (k, v) :: d, cfg => by
    have ih := fun cfg => normalizeItems_doc d cfg
    have hv := normalizeDests_doc v
    simp only [OutputDocumented] at ih
    simp only [normalizeItems, OutputDocumented, List.mem_cons, forall_eq_or_imp]
    by_cases hk : k = "stdout" ∨ k = "stderr" ∨ k = "both"
    · rw [if_pos hk]
      cases hd : normalizeDests v with
      | error e =>
        rw [hd] at hv
        simp only at hv ⊢
        constructor
        · rintro ⟨_, h⟩; cases h
        · rintro ⟨⟨_, h⟩, _⟩
          obtain ⟨l, hl⟩ := hv.2 h
          cases hl
      | ok l =>
        rw [hd] at hv
        simp only
        rw [ih]
        exact ⟨fun h => ⟨⟨hk, hv.1 ⟨l, rfl⟩⟩, h⟩, fun h => h.2⟩
    · rw [if_neg hk]
      constructor
      · rintro ⟨_, h⟩; cases h
      · rintro ⟨⟨h, _⟩, _⟩; exact absurd h hk

theorem normalizeOutput_doc (v : OutVal) : (∃ cfg, normalizeOutput v = .ok cfg) ↔ OutputDocumented v := by
  cases v with
  | other => simp [normalizeOutput, OutputDocumented]
  | dict d => exact normalizeItems_doc d {}
  | text s =>
    simp only [normalizeOutput, normalizeText, OutputDocumented]
    by_cases h1 : s = "screen"; · simp [h1]
    by_cases h2 : s = "log"; · simp [h2]
    by_cases h3 : s = "both"; · simp [h3]
    by_cases h4 : s = "own_log"; · simp [h4]
    by_cases h5 : s = "full"; · simp [h5]
    simp [h1, h2, h3, h4, h5]

/-! ## Histories -/

theorem LogSt.inv_init (n : Nat) : ({ next := n } : LogSt).Inv :=
  ⟨by intro h h1; simp at h1, by intro f h h1; simp at h1, by intro l h h1; simp at h1,
   by intro l h f h1; simp at h1, by intro l; simp⟩

theorem source_ne (process : String) : process ++ "-" ++ "stdout" ≠ process ++ "-" ++ "stderr" := by
  intro h
  have h1 := congrArg String.toList h
  simp at h1

theorem LogSt.Inv.getOutput {s : LogSt} (hi : s.Inv) (process : String) (v : OutVal) : (s.getOutput process v).1.Inv ∧
    ∀ cfg, normalizeOutput v = .ok cfg →
    ∀ l d, d ∈ (s.getOutput process v).1.reaches l ↔
      d ∈ s.reaches l ∨
      (l = process ++ "-" ++ "stdout" ∧ ∃ p, cfgSends cfg.both cfg.stdout p ∧ d = p.file process "stdout") ∨
      (l = process ++ "-" ++ "stderr" ∧ ∃ p, cfgSends cfg.both cfg.stderr p ∧ d = p.file process "stderr") := by
  unfold LogSt.getOutput
  cases hn : normalizeOutput v with
  | error e => exact ⟨hi, fun cfg h => by cases h⟩
  | ok cfg =>
    have h1 := hi.outputSource process "stdout" cfg.both cfg.stdout
    have h2 := h1.1.outputSource process "stderr" cfg.both cfg.stderr
    refine ⟨h2.1, ?_⟩
    intro cfg' hc l d
    cases hc
    simp only
    rw [h2.2, h1.2, or_assoc]

theorem LogSt.Inv.step {s : LogSt} (hi : s.Inv) (op : LogOp) : (s.step op).Inv := by
  cases op with
  | getLogger n => exact ((hi.addScreen n).1.addFile n _).1
  | getOutput p v => exact (hi.getOutput p v).1
  | reset => exact LogSt.inv_init s.next

theorem LogSt.Inv.run : ∀ (ops : List LogOp) {s : LogSt}, s.Inv → (s.run ops).Inv
  | [], _, hi => hi
  | op :: ops, _, hi => LogSt.Inv.run ops (hi.step op)

/-- C46: after any history, asking for the output loggers of a process with a documented value makes each of its two loggers
reach exactly the documented places, in addition to what it reached already, and does not change any other logger. -/
theorem C46_documented_places (ops : List LogOp) (process : String) (v : OutVal) (hw : v.Wf) (hd : OutputDocumented v) :
    let s := ({} : LogSt).run ops
    let s' := (s.getOutput process v).1
    (s.getOutput process v).2 = .ok () ∧
    (∀ source, source = "stdout" ∨ source = "stderr" → ∀ d,
      (d ∈ s'.reaches (process ++ "-" ++ source) ↔
        d ∈ s.reaches (process ++ "-" ++ source) ∨ ∃ p, sends v source p ∧ d = p.file process source)) ∧
    (∀ l, l ≠ process ++ "-" ++ "stdout" → l ≠ process ++ "-" ++ "stderr" → ∀ d, (d ∈ s'.reaches l ↔ d ∈ s.reaches l)) := by
  intro s s'
  have hi : s.Inv := LogSt.Inv.run ops (LogSt.inv_init 0)
  obtain ⟨cfg, hc⟩ := (normalizeOutput_doc v).2 hd
  have h := (hi.getOutput process v).2 cfg hc
  have hs := normalize_sends hw hc
  refine ⟨by simp [LogSt.getOutput, hc], ?_, ?_⟩
  · rintro source (rfl | rfl) d
    · rw [h]
      simp only [source_ne process, false_and, or_false, true_and, (hs _).1]
    · rw [h]
      simp only [(source_ne process).symm, false_and, false_or, true_and, (hs _).2]
  · intro l h1 h2 d
    rw [h]
    simp only [h1, h2, false_and, or_false]

/-- C46: a value is accepted exactly if it is documented; any other one is rejected with ValueError, or TypeError if the
destinations of a source are not iterable, and then nothing changes. -/
theorem C46_rejects (s : LogSt) (process : String) (v : OutVal) :
    ((s.getOutput process v).2 = .ok () ↔ OutputDocumented v) ∧
    (¬ OutputDocumented v → (s.getOutput process v).1 = s ∧
      ((s.getOutput process v).2 = .error .valueError ∨
        (s.getOutput process v).2 = .error .typeError ∧ ∃ d k, v = .dict d ∧ (k, DestVal.notIterable) ∈ d)) := by
  have hdoc := normalizeOutput_doc v
  constructor
  · rw [← hdoc]
    unfold LogSt.getOutput
    cases normalizeOutput v <;> simp
  · intro hn
    unfold LogSt.getOutput
    cases hv : normalizeOutput v with
    | ok cfg => exact absurd (hdoc.1 ⟨cfg, hv⟩) hn
    | error e =>
      refine ⟨rfl, ?_⟩
      simp only [Except.error.injEq]
      cases v with
      | other => left; simpa [normalizeOutput] using hv.symm
      | text s =>
        left
        simp only [normalizeOutput, normalizeText] at hv
        by_cases h1 : s = "screen"; · simp [h1] at hv
        by_cases h2 : s = "log"; · simp [h2] at hv
        by_cases h3 : s = "both"; · simp [h3] at hv
        by_cases h4 : s = "own_log"; · simp [h4] at hv
        by_cases h5 : s = "full"; · simp [h5] at hv
        simpa [h1, h2, h3, h4, h5] using hv.symm
      | dict d =>
        have key : ∀ (d : Dict DestVal) (cfg : OutCfg), normalizeItems d cfg = .error e →
            e = .valueError ∨ (e = .typeError ∧ ∃ k, (k, DestVal.notIterable) ∈ d) := by
          intro d
          induction d with
          | nil => intro cfg h; simp [normalizeItems] at h
          | cons kv d ih =>
            obtain ⟨k, w⟩ := kv
            intro cfg h
            simp only [normalizeItems] at h
            by_cases hk : k = "stdout" ∨ k = "stderr" ∨ k = "both"
            · rw [if_pos hk] at h
              cases hw : normalizeDests w with
              | ok l =>
                rw [hw] at h
                rcases ih _ h with h1 | ⟨h1, k', h2⟩
                · exact Or.inl h1
                · exact Or.inr ⟨h1, k', List.mem_cons_of_mem _ h2⟩
              | error e' =>
                rw [hw] at h
                simp only [Except.error.injEq] at h
                subst h
                cases w with
                | one s => left; simp only [normalizeDests] at hw; split at hw <;> simp_all
                | many m => left; simp only [normalizeDests] at hw; split at hw <;> simp_all
                | notIterable =>
                  right
                  simp only [normalizeDests, Except.error.injEq] at hw
                  exact ⟨hw.symm, k, List.mem_cons_self⟩
            · rw [if_neg hk] at h
              left; cases h; rfl
        rcases key d {} hv with h1 | ⟨h1, k, h2⟩
        · exact Or.inl h1
        · exact Or.inr ⟨h1, d, k, rfl, h2⟩

/-- C46: whatever was done before, a line logged with any logger appears at most once on the screen and at most once in each
file, and a file is never opened by two handlers. -/
theorem C46_once (ops : List LogOp) :
    let s := ({} : LogSt).run ops
    (∀ l, (s.reaches l).Nodup) ∧
    ∀ l l' h h', h ∈ s.handlers l → h' ∈ s.handlers l' → h.file = h'.file → h = h' := by
  intro s
  have hi : s.Inv := LogSt.Inv.run ops (LogSt.inv_init 0)
  have inj : ∀ l l' h h', h ∈ s.handlers l → h' ∈ s.handlers l' → h.file = h'.file → h = h' := by
    intro l l' h h' hm hm' hf
    cases hh : h.file with
    | none =>
      have h1 := hi.screenOnly l h hm hh
      have h2 := hi.screenOnly l' h' hm' (hf ▸ hh)
      rw [h1] at h2; cases h2; rfl
    | some f =>
      have h1 := hi.fileOnly l h f hm hh
      have h2 := hi.fileOnly l' h' f hm' (hf ▸ hh)
      rw [h1] at h2; cases h2; rfl
  refine ⟨?_, inj⟩
  intro l
  have hn := hi.nodup l
  have hinj : ∀ a ∈ s.handlers l, ∀ b ∈ s.handlers l, a.file = b.file → a = b :=
    fun a ha b hb => inj l l a b ha hb
  unfold LogSt.reaches
  revert hn hinj
  generalize s.handlers l = hs
  intro hn hinj
  induction hs with
  | nil => simp
  | cons a hs ih =>
    rw [List.nodup_cons] at hn
    rw [List.map_cons, List.nodup_cons]
    refine ⟨?_, ih hn.2 (fun a ha b hb => hinj a (List.mem_cons_of_mem _ ha) b (List.mem_cons_of_mem _ hb))⟩
    intro hm
    obtain ⟨b, hb, hbf⟩ := List.mem_map.1 hm
    have := hinj a List.mem_cons_self b (List.mem_cons_of_mem _ hb) hbf.symm
    subst this
    exact hn.1 hb

/-- C46: asking again with the same value changes nothing a logger reaches. -/
theorem C46_idempotent (ops : List LogOp) (process : String) (v : OutVal) (l : String) (d : Option String) :
    let s := ({} : LogSt).run ops
    let s1 := (s.getOutput process v).1
    d ∈ (s1.getOutput process v).1.reaches l ↔ d ∈ s1.reaches l := by
  intro s s1
  have hi : s.Inv := LogSt.Inv.run ops (LogSt.inv_init 0)
  have h0 := hi.getOutput process v
  have h1 := h0.1.getOutput process v
  cases hn : normalizeOutput v with
  | error e =>
    have : ∀ t : LogSt, (t.getOutput process v).1 = t := fun t => by simp [LogSt.getOutput, hn]
    rw [this]
  | ok cfg =>
    rw [h1.2 cfg hn, h0.2 cfg hn]
    constructor
    · rintro (h | h)
      · exact h
      · exact Or.inr h
    · exact Or.inl

/-- C46: with OVERRIDE_LAUNCH_PROCESS_OUTPUT set when the action is created, the output of every process is configured by its
value, whatever the `output` argument, the context and the variable are when the process is started; without it by the argument. -/
theorem C46_override (O : Oracle) (env : Dict String) (output : OutArg) (name : String) (s : LogSt) (c : Ctx) :
    (∀ t, env.get? "OVERRIDE_LAUNCH_PROCESS_OUTPUT" = some t →
      processLoggers O name (outputArg env output) s c =
        (((s.getLogger name).getOutput name (.text t)).1, c, ((s.getLogger name).getOutput name (.text t)).2)) ∧
    (env.get? "OVERRIDE_LAUNCH_PROCESS_OUTPUT" = none → outputArg env output = output) := by
  constructor
  · intro t ht
    have : performSubs O [.text t] c = (c, .ok t) := by
      simp [performSubs, performAll, perform, M.bind, M.pure, joinStrs]
    simp [outputArg, ht, processLoggers, this]
  · intro h
    simp [outputArg, h]

/-! ## Examples -/

/-- A history: the launch logger, one process logging to the screen, and another one of which only stderr is shown. -/
def sampleLog : List LogOp :=
  [.getLogger "launch", .getOutput "a-1" (.text "screen"), .getOutput "b-2" (.text "log"), .getLogger "b-2",
   .getOutput "b-2" (.dict [("both", .many ["log", "own_log"]), ("stderr", .one "own_log")])]

example : (({} : LogSt).run sampleLog).reaches "b-2-stderr" =
    [none, some "launch.log", some "b-2-stderr.log", some "b-2.log"] := by decide +kernel
example : (({} : LogSt).run sampleLog).reaches "b-2-stdout" = [some "launch.log", some "b-2.log"] := by decide +kernel
example : (({} : LogSt).run sampleLog).reaches "a-1-stdout" = [none] := by decide +kernel
example : OutputDocumented (.dict [("both", .many ["log", "own_log"]), ("stderr", .one "own_log")]) := by
  simp [OutputDocumented]
example : ¬ OutputDocumented (.text "Screen") := by simp [OutputDocumented]
example : (({} : LogSt).getOutput "a-1" (.dict [("stdin", .one "log")])).2 = .error .valueError := rfl

end Verif
