import Verif.Model.Legacy

/-! # Steps of the legacy test service -/

namespace Verif

variable {O P T : Type}

namespace LgState

/-- Is this test marked as failed? -/
def isFailed (s : LgState O P) (k : LgKey) : Bool := s.tests.any fun p => p.1 = k && p.2 = .failed

/-- The names of the tests. -/
def names (s : LgState O P) : List LgKey := s.tests.map (·.1)

theorem known_iff {s : LgState O P} {k : LgKey} : s.known k = true ↔ k ∈ s.names := by
  unfold known names
  simp only [List.any_eq_true, decide_eq_true_eq, List.mem_map]

@[simp] theorem names_mark (s : LgState O P) (k : LgKey) (x : LgStatus) : (s.mark k x).names = s.names := by
  unfold mark names
  simp only [List.map_map]
  apply List.map_congr_left
  intro p _
  simp only [Function.comp_apply]
  split
  · next h => exact h.symm
  · rfl

@[simp] theorem names_emit (s : LgState O P) : s.emit.names = s.names := rfl

theorem isFailed_mark_self {s : LgState O P} {k : LgKey} (h : s.known k = true) (x : LgStatus) : (s.mark k x).isFailed k = decide (x = .failed) := by
  unfold mark isFailed
  simp only [List.any_map]
  rw [Bool.eq_iff_iff]
  simp only [List.any_eq_true, Function.comp_apply, decide_eq_true_eq, Bool.and_eq_true]
  constructor
  · rintro ⟨p, hp, h1, h2⟩
    by_cases hk : p.1 = k
    · rw [if_pos hk] at h2
      exact h2
    · rw [if_neg hk] at h1
      exact absurd h1 hk
  · intro hx
    unfold known at h
    simp only [List.any_eq_true, decide_eq_true_eq] at h
    obtain ⟨p, hp, hk⟩ := h
    exact ⟨p, hp, by rw [if_pos hk], by rw [if_pos hk]; exact hx⟩

theorem isFailed_mark_ne {s : LgState O P} {k l : LgKey} (h : l ≠ k) (x : LgStatus) : (s.mark k x).isFailed l = s.isFailed l := by
  unfold mark isFailed
  simp only [List.any_map]
  congr 1
  funext p
  simp only [Function.comp_apply]
  by_cases hk : p.1 = k
  · rw [if_pos hk]
    have e1 : decide (k = l) = false := by simp [Ne.symm h]
    have e2 : decide (p.1 = l) = false := by simp [hk, Ne.symm h]
    rw [e1, e2]
    rfl
  · rw [if_neg hk]

@[simp] theorem isFailed_emit (s : LgState O P) (l : LgKey) : s.emit.isFailed l = s.isFailed l := rfl

theorem isFailed_failTest {s s' : LgState O P} {k : LgKey} (h : s.failTest k = .ok s') (l : LgKey) :
    s'.isFailed l = (decide (l = k) || s.isFailed l) := by
  unfold failTest at h
  by_cases hk : s.known k = true
  · rw [if_pos hk] at h
    simp only [Except.ok.injEq] at h
    subst h
    have : ∀ (t : LgState O P), ({ t with tests := t.tests.map fun p => if p.2 = .armed then (p.1, .dropped) else p } : LgState O P).isFailed l
        = t.isFailed l := by
      intro t
      unfold isFailed
      simp only [List.any_map]
      congr 1
      funext p
      simp only [Function.comp_apply]
      by_cases ha : p.2 = .armed
      · rw [if_pos ha, ha]
        simp
      · rw [if_neg ha]
    rw [this]
    by_cases e : l = k
    · subst e
      rw [isFailed_mark_self hk]
      simp
    · rw [isFailed_mark_ne e]
      simp [e]
  · rw [if_neg hk] at h
    cases h

theorem names_failTest {s s' : LgState O P} {k : LgKey} (h : s.failTest k = .ok s') : s'.names = s.names := by
  unfold failTest at h
  by_cases hk : s.known k = true
  · rw [if_pos hk] at h
    simp only [Except.ok.injEq] at h
    subst h
    rw [← names_mark s k .failed]
    unfold names
    simp only [List.map_map]
    apply List.map_congr_left
    intro p _
    simp only [Function.comp_apply]
    split <;> rfl
  · rw [if_neg hk] at h
    cases h

theorem rcs_failTest {s s' : LgState O P} {k : LgKey} (h : s.failTest k = .ok s') : s'.rcs = s.rcs := by
  unfold failTest at h
  by_cases hk : s.known k = true
  · rw [if_pos hk] at h
    simp only [Except.ok.injEq] at h
    subst h
    rfl
  · rw [if_neg hk] at h
    cases h

theorem failTest_ok {s : LgState O P} {k : LgKey} (h : k ∈ s.names) : ∃ s', s.failTest k = .ok s' := by
  unfold failTest
  rw [if_pos (known_iff.2 h)]
  exact ⟨_, rfl⟩

end LgState

/-- The test a handler is for. -/
def LgHandler.key : LgHandler O P T → Option LgKey
  | .fixtureExit _ _ => none
  | .testExit a => some ⟨a, none⟩
  | .testCompletion a => some ⟨a, none⟩
  | .outputExit t => some t.key
  | .outputShutdown t => some t.key
  | .outputStdout t => some t.key

/-- What a handler adds to the return codes. -/
def LgHandler.code : LgHandler O P T → LgEvent T → Option (String × Int)
  | .fixtureExit a allowed, .exit b name rc isShutdown =>
    if a = b ∧ isShutdown = false ∧ allowed.allows rc = false then some (name, if rc = 0 then 1 else rc) else none
  | .testExit a, .exit b name rc _ => if a = b ∧ rc ≠ 0 then some (name, rc) else none
  | _, _ => none

/-- What a handler decides about whether the test is marked as failed. -/
def LgHandler.verdict : LgHandler O P T → LgEvent T → Option Bool
  | .testExit a, .exit b _ rc _ => if a = b then some (decide (rc ≠ 0)) else none
  | .testCompletion a, .complete b fut => if a = b then some (decide (fut = .raised)) else none
  | _, _ => none

/-- Handlers of output tests. -/
def LgHandler.isOutput : LgHandler O P T → Bool
  | .outputExit _ => true
  | .outputShutdown _ => true
  | .outputStdout _ => true
  | _ => false

/-- All actions with output tests have been executed. -/
def LgEvent.Prepared (hs : List (LgHandler O P T)) : LgEvent T → Prop
  | .shutdown p => ∀ t, LgHandler.outputShutdown t ∈ hs → p t.action = true
  | _ => True

namespace LgState

/-- What one handler does. -/
structure Reacts (s s' : LgState O P) (h : LgHandler O P T) (e : LgEvent T) : Prop where
  names : s'.names = s.names
  rcs : s'.rcs = match h.code e with | some p => s.rcs.set p.1 p.2 | none => s.rcs
  other : ∀ l, h.key ≠ some l → s'.isFailed l = s.isFailed l
  same : ∀ l b, h.key = some l → h.verdict e = some b → s'.isFailed l = b
  rest : ∀ l, h.key = some l → h.verdict e = none → s'.isFailed l = true → s.isFailed l = true
  rest' : ∀ l, h.key = some l → h.verdict e = none → h.isOutput = false → s'.isFailed l = s.isFailed l

theorem Reacts.refl {s : LgState O P} {h : LgHandler O P T} {e : LgEvent T} (hc : h.code e = none) (hv : h.verdict e = none) : Reacts s s h e where
  names := rfl
  rcs := by rw [hc]
  other := fun _ _ => rfl
  same := fun l b _ hb => by rw [hv] at hb; cases hb
  rest := fun _ _ _ h => h
  rest' := fun _ _ _ _ => rfl

theorem names_succeed {s s' : LgState O P} {k : LgKey} {a v : Bool} (h : s.succeed k a v = .ok s') : s'.names = s.names := by
  unfold succeed at h
  by_cases hk : s.known k = true
  · rw [if_pos hk] at h
    simp only [Except.ok.injEq] at h
    subst h
    split <;> simp
  · rw [if_neg hk] at h
    cases h

theorem rcs_succeed {s s' : LgState O P} {k : LgKey} {a v : Bool} (h : s.succeed k a v = .ok s') : s'.rcs = s.rcs := by
  unfold succeed at h
  by_cases hk : s.known k = true
  · rw [if_pos hk] at h
    simp only [Except.ok.injEq] at h
    subst h
    split <;> rfl
  · rw [if_neg hk] at h
    cases h

theorem isFailed_succeed {s s' : LgState O P} {k : LgKey} {a v : Bool} (h : s.succeed k a v = .ok s') (l : LgKey) :
    s'.isFailed l = (!decide (l = k) && s.isFailed l) := by
  unfold succeed at h
  by_cases hk : s.known k = true
  · rw [if_pos hk] at h
    simp only [Except.ok.injEq] at h
    have : s'.isFailed l = (s.mark k .succeeded).isFailed l := by
      subst h
      split <;> rfl
    rw [this]
    by_cases e : l = k
    · subst e
      rw [isFailed_mark_self hk]
      simp
    · rw [isFailed_mark_ne e]
      simp [e]
  · rw [if_neg hk] at h
    cases h

theorem succeed_ok {s : LgState O P} {k : LgKey} (h : k ∈ s.names) (a v : Bool) : ∃ s', s.succeed k a v = .ok s' := by
  unfold succeed
  rw [if_pos (known_iff.2 h)]
  exact ⟨_, rfl⟩

theorem finish_ok {s : LgState O P} {k : LgKey} (h : k ∈ s.names) :
    ∃ s', s.finish k = .ok s' ∧ s'.names = s.names ∧ s'.rcs = s.rcs ∧ ∀ l, s'.isFailed l = (!decide (l = k) && s.isFailed l) := by
  unfold finish
  rw [if_pos (known_iff.2 h)]
  refine ⟨_, rfl, ?_, ?_, ?_⟩
  · split <;> simp
  · split <;> rfl
  · intro l
    have : (if (s.mark k .finished).noneArmed = true then (s.mark k .finished).emit else s.mark k .finished).isFailed l
        = (s.mark k .finished).isFailed l := by split <;> rfl
    rw [this]
    by_cases e : l = k
    · subst e
      rw [isFailed_mark_self (known_iff.2 h)]
      simp
    · rw [isFailed_mark_ne e]
      simp [e]

theorem collate_names (s : LgState O P) (t : LgOutput O P T) (x : T) : (s.collate t x).names = s.names := rfl
theorem collate_rcs (s : LgState O P) (t : LgOutput O P T) (x : T) : (s.collate t x).rcs = s.rcs := rfl
theorem collate_isFailed (s : LgState O P) (t : LgOutput O P T) (x : T) (l : LgKey) : (s.collate t x).isFailed l = s.isFailed l := rfl

/-- The step of a handler that only removes a failure of its own test. -/
theorem Reacts.clears {s s' : LgState O P} {h : LgHandler O P T} {e : LgEvent T} {k : LgKey} (hk : h.key = some k) (hc : h.code e = none)
    (hv : h.verdict e = none ∨ h.verdict e = some false) (ho : h.verdict e = none → h.isOutput = true) (hn : s'.names = s.names) (hr : s'.rcs = s.rcs)
    (hf : ∀ l, s'.isFailed l = (!decide (l = k) && s.isFailed l)) : Reacts s s' h e where
  names := hn
  rcs := by rw [hc]; exact hr
  other := fun l hl => by
    rw [hf]
    have : l ≠ k := fun e => hl (by rw [hk, e])
    simp [this]
  same := fun l b hl hb => by
    rw [hk] at hl
    simp only [Option.some.injEq] at hl
    subst hl
    rw [hf]
    rcases hv with hv | hv
    · rw [hv] at hb; cases hb
    · rw [hv] at hb
      simp only [Option.some.injEq] at hb
      simp [← hb]
  rest := fun l _ _ hl => by
    rw [hf] at hl
    simp only [Bool.and_eq_true] at hl
    exact hl.2
  rest' := fun l _ hn ho' => by
    rw [ho hn] at ho'
    cases ho'

/-- The step of a handler that marks its own test as failed. -/
theorem Reacts.fails {s s' : LgState O P} {h : LgHandler O P T} {e : LgEvent T} {k : LgKey} (hk : h.key = some k)
    (hv : h.verdict e = some true) (hn : s'.names = s.names)
    (hr : s'.rcs = match h.code e with | some p => s.rcs.set p.1 p.2 | none => s.rcs)
    (hf : ∀ l, s'.isFailed l = (decide (l = k) || s.isFailed l)) : Reacts s s' h e where
  names := hn
  rcs := hr
  other := fun l hl => by
    rw [hf]
    have : l ≠ k := fun e => hl (by rw [hk, e])
    simp [this]
  same := fun l b hl hb => by
    rw [hk] at hl
    simp only [Option.some.injEq] at hl
    subst hl
    rw [hv] at hb
    simp only [Option.some.injEq] at hb
    rw [hf, ← hb]
    simp
  rest := fun l _ hn => by rw [hv] at hn; cases hn
  rest' := fun l _ hn => by rw [hv] at hn; cases hn

/-- A handler that does not match leaves everything; one that does succeeds, as long as its test is known and the process was executed. -/
theorem react_cases (s : LgState O P) (h : LgHandler O P T) (e : LgEvent T) (hk : ∀ k, h.key = some k → k ∈ s.names)
    (hp : ∀ p t, e = .shutdown p → h = .outputShutdown t → p t.action = true) :
    (s.react h e = none ∧ Reacts s s h e) ∨ ∃ s', s.react h e = some (.ok s') ∧ Reacts s s' h e := by
  cases h with
  | fixtureExit a allowed =>
    cases e with
    | exit b name rc sd =>
      by_cases hab : a = b
      · subst hab
        refine .inr ⟨_, (by simp only [react, if_true]; rfl), ?_⟩
        by_cases hc : (!sd && !allowed.allows rc) = true
        · rw [if_pos hc]
          simp only [Bool.and_eq_true, Bool.not_eq_true'] at hc
          have hcode : (LgHandler.fixtureExit a allowed : LgHandler O P T).code (.exit a name rc sd) = some (name, if rc = 0 then 1 else rc) := by
            simp only [LgHandler.code, hc.1, hc.2, and_self, if_true]
          exact ⟨rfl, by rw [hcode]; rfl, fun _ _ => rfl, fun _ _ hl => (nomatch hl), fun _ hl => (nomatch hl), fun _ hl => (nomatch hl)⟩
        · rw [if_neg hc]
          refine Reacts.refl ?_ rfl
          simp only [LgHandler.code, true_and]
          rw [if_neg]
          rintro ⟨h1, h2⟩
          exact hc (by rw [h1, h2]; rfl)
      · refine .inl ⟨by simp only [react, if_neg hab], Reacts.refl ?_ rfl⟩
        simp only [LgHandler.code]
        rw [if_neg (fun h => hab h.1)]
    | complete b f => exact .inl ⟨rfl, Reacts.refl rfl rfl⟩
    | stdout b x => exact .inl ⟨rfl, Reacts.refl rfl rfl⟩
    | shutdown p => exact .inl ⟨rfl, Reacts.refl rfl rfl⟩
  | testExit a =>
    have hk' : (⟨a, none⟩ : LgKey) ∈ s.names := hk _ rfl
    cases e with
    | exit b name rc sd =>
      by_cases hab : a = b
      · subst hab
        right
        by_cases hrc : rc ≠ 0
        · obtain ⟨s', hs'⟩ := failTest_ok (s := { s with rcs := s.rcs.set name rc }) (k := ⟨a, none⟩) hk'
          refine ⟨s'.emit, by simp only [react, if_true, if_pos hrc, hs']; rfl, ?_⟩
          refine Reacts.fails (k := ⟨a, none⟩) rfl (by simp [LgHandler.verdict, hrc]) ?_ ?_ ?_
          · rw [names_emit, names_failTest hs']; rfl
          · have : (LgHandler.testExit a : LgHandler O P T).code (.exit a name rc sd) = some (name, rc) := by
              simp only [LgHandler.code, true_and, if_pos hrc]
            rw [this]
            exact rcs_failTest hs'
          · intro l
            rw [isFailed_emit, isFailed_failTest hs']; rfl
        · obtain ⟨s', hs'⟩ := succeed_ok hk' false true
          refine ⟨s', by simp only [react, if_true, if_neg hrc, hs'], ?_⟩
          refine Reacts.clears (k := ⟨a, none⟩) rfl ?_ (.inr ?_) ?_ (names_succeed hs') (rcs_succeed hs') (isFailed_succeed hs')
          · simp only [LgHandler.code, true_and, if_neg hrc]
          · simp only [LgHandler.verdict, if_true]
            simp at hrc
            simp [hrc]
          · intro hn
            simp [LgHandler.verdict] at hn
      · refine .inl ⟨by simp only [react, if_neg hab], Reacts.refl ?_ ?_⟩
        · simp only [LgHandler.code]
          rw [if_neg (fun h => hab h.1)]
        · simp only [LgHandler.verdict, if_neg hab]
    | complete b f => exact .inl ⟨rfl, Reacts.refl rfl rfl⟩
    | stdout b x => exact .inl ⟨rfl, Reacts.refl rfl rfl⟩
    | shutdown p => exact .inl ⟨rfl, Reacts.refl rfl rfl⟩
  | testCompletion a =>
    have hk' : (⟨a, none⟩ : LgKey) ∈ s.names := hk _ rfl
    cases e with
    | complete b fut =>
      by_cases hab : a = b
      · subst hab
        right
        have good : ∀ fut', (fut' = .noFuture ∨ fut' = .result) → ∃ s', s.react (.testCompletion a : LgHandler O P T) (.complete a fut') = some (.ok s') ∧
            Reacts s s' (.testCompletion a : LgHandler O P T) (.complete a fut') := by
          intro fut' hf
          obtain ⟨s', hs'⟩ := succeed_ok hk' false true
          refine ⟨s', ?_, ?_⟩
          · rcases hf with rfl | rfl <;> simp only [react, if_true, hs']
          · refine Reacts.clears (k := ⟨a, none⟩) rfl rfl (.inr ?_) ?_ (names_succeed hs') (rcs_succeed hs') (isFailed_succeed hs')
            · rcases hf with rfl | rfl <;> simp [LgHandler.verdict]
            · intro hn
              simp [LgHandler.verdict] at hn
        cases fut with
        | noFuture => exact good _ (.inl rfl)
        | result => exact good _ (.inr rfl)
        | cancelled =>
          refine ⟨s.mark ⟨a, none⟩ .dropped, by simp only [react, if_true, drop, if_pos (known_iff.2 hk')], ?_⟩
          refine Reacts.clears (k := ⟨a, none⟩) rfl rfl (.inr ?_) ?_ (names_mark _ _ _) rfl ?_
          · simp [LgHandler.verdict]
          · intro hn
            simp [LgHandler.verdict] at hn
          · intro l
            by_cases e : l = ⟨a, none⟩
            · subst e
              rw [isFailed_mark_self (known_iff.2 hk')]
              simp
            · rw [isFailed_mark_ne e]
              simp [e]
        | raised =>
          obtain ⟨s', hs'⟩ := failTest_ok hk'
          refine ⟨s'.emit, by simp only [react, if_true, hs']; rfl, ?_⟩
          refine Reacts.fails (k := ⟨a, none⟩) rfl (by simp [LgHandler.verdict]) ?_ ?_ ?_
          · rw [names_emit, names_failTest hs']
          · have := rcs_failTest hs'
            exact this
          · intro l
            rw [isFailed_emit, isFailed_failTest hs']
      · exact .inl ⟨by simp only [react, if_neg hab], Reacts.refl rfl (by simp only [LgHandler.verdict, if_neg hab])⟩
    | exit b n rc sd => exact .inl ⟨rfl, Reacts.refl rfl rfl⟩
    | stdout b x => exact .inl ⟨rfl, Reacts.refl rfl rfl⟩
    | shutdown p => exact .inl ⟨rfl, Reacts.refl rfl rfl⟩
  | outputExit t =>
    have hk' : t.key ∈ s.names := hk _ rfl
    cases e with
    | exit b n rc sd =>
      by_cases hab : t.action = b
      · right
        by_cases hl : s.patternsLeft t = true
        · obtain ⟨s', h1, h2, h3, h4⟩ := finish_ok hk'
          exact ⟨s', by simp only [react, if_pos hab, if_pos hl, h1], Reacts.clears (k := t.key) rfl rfl (.inl rfl) (fun _ => rfl) h2 h3 h4⟩
        · exact ⟨s, by simp only [react, if_pos hab, if_neg hl], Reacts.refl rfl rfl⟩
      · exact .inl ⟨by simp only [react, if_neg hab], Reacts.refl rfl rfl⟩
    | complete b f => exact .inl ⟨rfl, Reacts.refl rfl rfl⟩
    | stdout b x => exact .inl ⟨rfl, Reacts.refl rfl rfl⟩
    | shutdown p => exact .inl ⟨rfl, Reacts.refl rfl rfl⟩
  | outputShutdown t =>
    have hk' : t.key ∈ s.names := hk _ rfl
    cases e with
    | shutdown p =>
      right
      by_cases hl : s.patternsLeft t = true
      · obtain ⟨s1, h1⟩ := failTest_ok hk'
        have hk1 : t.key ∈ s1.names := by rw [names_failTest h1]; exact hk'
        obtain ⟨s2, h2⟩ := succeed_ok hk1 t.shutdownAfter false
        refine ⟨s2, by simp only [react, if_pos hl, hp p t rfl rfl, if_true, h1, h2], ?_⟩
        refine Reacts.clears (k := t.key) rfl rfl (.inl rfl) (fun _ => rfl) ?_ ?_ ?_
        · rw [names_succeed h2, names_failTest h1]
        · rw [rcs_succeed h2, rcs_failTest h1]
        · intro l
          rw [isFailed_succeed h2, isFailed_failTest h1]
          cases decide (l = t.key) <;> simp
      · obtain ⟨s2, h2⟩ := succeed_ok hk' t.shutdownAfter false
        exact ⟨s2, by simp only [react, if_neg hl, h2], Reacts.clears (k := t.key) rfl rfl (.inl rfl) (fun _ => rfl) (names_succeed h2) (rcs_succeed h2)
          (isFailed_succeed h2)⟩
    | complete b f => exact .inl ⟨rfl, Reacts.refl rfl rfl⟩
    | stdout b x => exact .inl ⟨rfl, Reacts.refl rfl rfl⟩
    | exit b n rc sd => exact .inl ⟨rfl, Reacts.refl rfl rfl⟩
  | outputStdout t =>
    have hk' : t.key ∈ s.names := hk _ rfl
    cases e with
    | stdout b x =>
      by_cases hab : t.action = b
      · right
        by_cases hl : (s.collate t x).patternsLeft t = true
        · refine ⟨s.collate t x, by simp only [react, if_pos hab, if_pos hl], ?_⟩
          exact ⟨rfl, rfl, fun _ _ => rfl, fun _ _ _ hb => (nomatch hb), fun _ _ _ h => h, fun _ _ _ _ => rfl⟩
        · obtain ⟨s2, h2⟩ := succeed_ok (s := s.collate t x) (k := t.key) hk' t.shutdownAfter true
          refine ⟨s2, by simp only [react, if_pos hab, if_neg hl, h2], ?_⟩
          refine Reacts.clears (k := t.key) rfl rfl (.inl rfl) (fun _ => rfl) ?_ ?_ ?_
          · rw [names_succeed h2]; rfl
          · rw [rcs_succeed h2]; rfl
          · intro l
            rw [isFailed_succeed h2]; rfl
      · exact .inl ⟨by simp only [react, if_neg hab], Reacts.refl rfl rfl⟩
    | complete b f => exact .inl ⟨rfl, Reacts.refl rfl rfl⟩
    | shutdown p => exact .inl ⟨rfl, Reacts.refl rfl rfl⟩
    | exit b n rc sd => exact .inl ⟨rfl, Reacts.refl rfl rfl⟩

/-- The decisions about one test that handlers make on an event. -/
def verdicts (hs : List (LgHandler O P T)) (l : LgKey) (e : LgEvent T) : List Bool :=
  hs.filterMap fun h => if h.key = some l then h.verdict e else none

theorem verdict_output {h : LgHandler O P T} {e : LgEvent T} (ho : h.isOutput = true) : h.verdict e = none := by
  cases h <;> first | rfl | cases ho

theorem output_suffix {h : LgHandler O P T} {l : LgKey} (ho : h.isOutput = true) (hk : h.key = some l) : l.suffix ≠ none := by
  cases h <;> first | (cases ho; done) | (simp only [LgHandler.key, Option.some.injEq] at hk; subst hk; simp [LgOutput.key])

/-- What the handlers do together on one event. -/
structure ReactsAll (s s' : LgState O P) (hs : List (LgHandler O P T)) (es : List (LgEvent T)) : Prop where
  names : s'.names = s.names
  rcs : s'.rcs = (es.flatMap fun e => hs.filterMap (·.code e)).foldl (fun d p => d.set p.1 p.2) s.rcs
  tests : ∀ l, l.suffix = none → s'.isFailed l = ((es.flatMap (verdicts hs l)).getLast?).getD (s.isFailed l)
  outputs : ∀ l, l.suffix ≠ none → s'.isFailed l = true → s.isFailed l = true

theorem getLast?_append_getD {α : Type} (l m : List α) (d : α) : ((l ++ m).getLast?).getD d = (m.getLast?).getD ((l.getLast?).getD d) := by
  cases m with
  | nil => simp
  | cons a m => simp [List.getLast?_append]

theorem verdict_suffix {h : LgHandler O P T} {e : LgEvent T} {l : LgKey} (hl : l.suffix ≠ none) (hk : h.key = some l) : h.verdict e = none := by
  cases h with
  | testExit a => simp only [LgHandler.key, Option.some.injEq] at hk; subst hk; exact absurd rfl hl
  | testCompletion a => simp only [LgHandler.key, Option.some.injEq] at hk; subst hk; exact absurd rfl hl
  | fixtureExit _ _ => rfl
  | outputExit _ => rfl
  | outputShutdown _ => rfl
  | outputStdout _ => rfl

theorem Reacts.cons {s s' s'' : LgState O P} {h : LgHandler O P T} {hs : List (LgHandler O P T)} {e : LgEvent T} (h1 : Reacts s s' h e)
    (h2 : ReactsAll s' s'' hs [e]) : ReactsAll s s'' (h :: hs) [e] where
  names := h2.names.trans h1.names
  rcs := by
    rw [h2.rcs, h1.rcs]
    simp only [List.flatMap_cons, List.flatMap_nil, List.append_nil, List.filterMap_cons]
    cases h.code e <;> rfl
  tests := fun l hl => by
    rw [h2.tests l hl]
    simp only [List.flatMap_cons, List.flatMap_nil, List.append_nil]
    by_cases hk : h.key = some l
    · have ho : h.isOutput = false := by
        cases ho : h.isOutput with
        | false => rfl
        | true => exact absurd hl (output_suffix ho hk)
      cases hv : h.verdict e with
      | none =>
        have : verdicts (h :: hs) l e = verdicts hs l e := by
          simp only [verdicts, List.filterMap_cons, if_pos hk, hv]
        rw [this, h1.rest' l hk hv ho]
      | some b =>
        have : verdicts (h :: hs) l e = [b] ++ verdicts hs l e := by
          simp only [verdicts, List.filterMap_cons, if_pos hk, hv, List.singleton_append]
        rw [this, getLast?_append_getD, h1.same l b hk hv]
        rfl
    · have : verdicts (h :: hs) l e = verdicts hs l e := by
        simp only [verdicts, List.filterMap_cons, if_neg hk]
      rw [this, h1.other l hk]
  outputs := fun l hl hf => by
    have hf' := h2.outputs l hl hf
    by_cases hk : h.key = some l
    · exact h1.rest l hk (verdict_suffix hl hk) hf'
    · rw [← h1.other l hk]; exact hf'

theorem reactAll_ok (e : LgEvent T) : ∀ (hs : List (LgHandler O P T)) (s : LgState O P), (∀ h ∈ hs, ∀ k, h.key = some k → k ∈ s.names) →
    e.Prepared hs → ∃ s', s.reactAll e hs = (s', false) ∧ ReactsAll s s' hs [e]
  | [], s, _, _ => ⟨s, rfl, rfl, rfl, fun _ _ => rfl, fun _ _ h => h⟩
  | h :: hs, s, hk, hp => by
    have hp' : e.Prepared hs := by
      cases e with
      | shutdown p => exact fun t ht => hp t (List.mem_cons_of_mem _ ht)
      | _ => trivial
    have hp1 : ∀ p t, e = .shutdown p → h = .outputShutdown t → p t.action = true := by
      rintro p t rfl rfl
      exact hp t List.mem_cons_self
    rcases react_cases s h e (hk h List.mem_cons_self) hp1 with ⟨h1, h2⟩ | ⟨s1, h1, h2⟩
    · obtain ⟨s', h3, h4⟩ := reactAll_ok e hs s (fun x hx => hk x (List.mem_cons_of_mem _ hx)) hp'
      refine ⟨s', ?_, h2.cons h4⟩
      simp only [reactAll, h1, h3]
    · obtain ⟨s', h3, h4⟩ := reactAll_ok e hs s1 (fun x hx k hxk => by rw [h2.names]; exact hk x (List.mem_cons_of_mem _ hx) k hxk) hp'
      refine ⟨s', ?_, h2.cons h4⟩
      simp only [reactAll, h1, h3]

theorem history_ok (hs : List (LgHandler O P T)) : ∀ (es : List (LgEvent T)) (s : LgState O P), (∀ h ∈ hs, ∀ k, h.key = some k → k ∈ s.names) →
    (∀ e ∈ es, e.Prepared hs) → ∃ s', s.history hs es = (s', false) ∧ ReactsAll s s' hs es
  | [], s, _, _ => ⟨s, rfl, rfl, rfl, fun _ _ => rfl, fun _ _ h => h⟩
  | e :: es, s, hk, hp => by
    obtain ⟨s1, h1, h2⟩ := reactAll_ok e hs s hk (hp e List.mem_cons_self)
    obtain ⟨s2, h3, h4⟩ := history_ok hs es s1 (fun x hx k hxk => by rw [h2.names]; exact hk x hx k hxk) (fun x hx => hp x (List.mem_cons_of_mem _ hx))
    refine ⟨s2, by simp only [history, h1, h3, Bool.or_self], h4.names.trans h2.names, ?_, ?_, ?_⟩
    · rw [h4.rcs, h2.rcs, List.flatMap_cons, List.foldl_append]
      simp
    · intro l hl
      rw [h4.tests l hl, h2.tests l hl, List.flatMap_cons, getLast?_append_getD]
      simp
    · intro l hl hf
      exact h2.outputs l hl (h4.outputs l hl hf)

end LgState

/-! ## Setting up -/

/-- The test that is added. -/
def LgAdd.key : LgAdd O P T → Option LgKey
  | .fixture _ _ => none
  | .processTest a => some ⟨a, none⟩
  | .otherTest a => some ⟨a, none⟩
  | .output t _ _ => some t.key

theorem LgAdd.apply_ok {x : LgAdd O P T} {s s' : LgState O P} (h : x.apply s = .ok s') :
    s'.rcs = s.rcs ∧ s'.tests = s.tests ++ (x.key.toList.map fun k => (k, .armed)) ∧ (∀ k, x.key = some k → k ∉ s.names) ∧ s'.emitted = s.emitted := by
  have harm : ∀ {k : LgKey} {t : LgState O P}, s.arm k = .ok t → t.rcs = s.rcs ∧ t.tests = s.tests ++ [(k, .armed)] ∧ k ∉ s.names ∧ t.emitted = s.emitted := by
    intro k t ht
    unfold LgState.arm at ht
    by_cases hk : s.known k = true
    · rw [if_pos hk] at ht; cases ht
    · rw [if_neg hk] at ht
      simp only [Except.ok.injEq] at ht
      subst ht
      exact ⟨rfl, rfl, fun hm => hk (LgState.known_iff.2 hm), rfl⟩
  cases x with
  | fixture a b =>
    simp only [LgAdd.apply, Except.ok.injEq] at h
    subst h
    exact ⟨rfl, by simp [LgAdd.key], fun _ hk => (nomatch hk), rfl⟩
  | processTest a =>
    obtain ⟨h1, h2, h3, h4⟩ := harm (show s.arm ⟨a, none⟩ = .ok s' from h)
    refine ⟨h1, h2, ?_, h4⟩
    intro k hk
    simp only [LgAdd.key, Option.some.injEq] at hk
    subst hk
    exact h3
  | otherTest a =>
    obtain ⟨h1, h2, h3, h4⟩ := harm (show s.arm ⟨a, none⟩ = .ok s' from h)
    refine ⟨h1, h2, ?_, h4⟩
    intro k hk
    simp only [LgAdd.key, Option.some.injEq] at hk
    subst hk
    exact h3
  | output t o ps =>
    simp only [LgAdd.apply] at h
    split at h
    · cases ha : s.arm t.key with
      | error e => rw [ha] at h; cases h
      | ok t' =>
        rw [ha] at h
        simp only [Except.ok.injEq] at h
        obtain ⟨h1, h2, h3, h4⟩ := harm ha
        subst h
        refine ⟨h1, h2, ?_, h4⟩
        intro k hk
        simp only [LgAdd.key, Option.some.injEq] at hk
        subst hk
        exact h3
    · cases h

theorem lgSetUp_ok : ∀ (adds : List (LgAdd O P T)) {s s' : LgState O P}, lgSetUp s adds = .ok s' →
    s'.rcs = s.rcs ∧ s'.tests = s.tests ++ ((adds.filterMap LgAdd.key).map fun k => (k, .armed)) ∧
      (s.names.Nodup → s'.names.Nodup) ∧ s'.emitted = s.emitted
  | [], s, s', h => by
    simp only [lgSetUp, Except.ok.injEq] at h
    subst h
    exact ⟨rfl, by simp, id, rfl⟩
  | x :: xs, s, s', h => by
    simp only [lgSetUp] at h
    cases hx : x.apply s with
    | error e => rw [hx] at h; cases h
    | ok s1 =>
      rw [hx] at h
      obtain ⟨h1, h2, h3, h4⟩ := LgAdd.apply_ok hx
      obtain ⟨g1, g2, g3, g4⟩ := lgSetUp_ok xs h
      refine ⟨g1.trans h1, ?_, ?_, g4.trans h4⟩
      · rw [g2, h2, List.filterMap_cons]
        cases x.key <;> simp
      · intro hn
        apply g3
        unfold LgState.names at h3 hn ⊢
        rw [h2]
        cases hk : x.key with
        | none => simpa using hn
        | some k =>
          simp only [Option.toList_some, List.map_cons, List.map_nil, List.map_append]
          rw [List.nodup_append]
          refine ⟨hn, by simp, ?_⟩
          intro a ha b hb
          simp only [List.mem_cons, List.not_mem_nil, or_false] at hb
          subst hb
          rintro rfl
          exact h3 _ hk ha

theorem lgSetUp_init {adds : List (LgAdd O P T)} {s : LgState O P} (h : lgSetUp {} adds = .ok s) :
    s.rcs = [] ∧ s.tests = (adds.filterMap LgAdd.key).map (fun k => (k, .armed)) ∧ (adds.filterMap LgAdd.key).Nodup ∧ s.emitted = 0 := by
  obtain ⟨h1, h2, h3, h4⟩ := lgSetUp_ok adds h
  have h2' : s.tests = (adds.filterMap LgAdd.key).map (fun k => (k, .armed)) := by simpa using h2
  refine ⟨h1, h2', ?_, h4⟩
  have := h3 (by simp [LgState.names])
  unfold LgState.names at this
  rw [h2', List.map_map] at this
  simpa [Function.comp_def] using this

theorem isFailed_setUp {adds : List (LgAdd O P T)} {s : LgState O P} (h : lgSetUp {} adds = .ok s) (l : LgKey) : s.isFailed l = false := by
  unfold LgState.isFailed
  rw [(lgSetUp_init h).2.1, Bool.eq_false_iff]
  intro h
  simp only [List.any_eq_true, List.mem_map] at h
  obtain ⟨p, ⟨k, _, rfl⟩, h⟩ := h
  simp at h

theorem names_setUp {adds : List (LgAdd O P T)} {s : LgState O P} (h : lgSetUp {} adds = .ok s) : s.names = adds.filterMap LgAdd.key := by
  unfold LgState.names
  rw [(lgSetUp_init h).2.1]
  simp [Function.comp_def]

theorem handler_key {adds : List (LgAdd O P T)} {h : LgHandler O P T} {k : LgKey} (hm : h ∈ (adds.flatMap LgAdd.handlers).reverse) (hk : h.key = some k) :
    k ∈ adds.filterMap LgAdd.key := by
  rw [List.mem_reverse, List.mem_flatMap] at hm
  obtain ⟨x, hx, hm⟩ := hm
  rw [List.mem_filterMap]
  refine ⟨x, hx, ?_⟩
  cases x with
  | fixture a b =>
    simp only [LgAdd.handlers, List.mem_singleton] at hm
    subst hm
    cases hk
  | processTest a =>
    simp only [LgAdd.handlers, List.mem_singleton] at hm
    subst hm
    exact hk
  | otherTest a =>
    simp only [LgAdd.handlers, List.mem_singleton] at hm
    subst hm
    exact hk
  | output t o ps =>
    simp only [LgAdd.handlers, List.mem_cons, List.not_mem_nil, or_false] at hm
    rcases hm with rfl | rfl | rfl <;> exact hk

theorem testExit_mem {adds : List (LgAdd O P T)} {a : Nat} : LgHandler.testExit a ∈ (adds.flatMap LgAdd.handlers).reverse ↔ LgAdd.processTest a ∈ adds := by
  rw [List.mem_reverse, List.mem_flatMap]
  constructor
  · rintro ⟨x, hx, hm⟩
    cases x <;> simp [LgAdd.handlers] at hm
    subst hm
    exact hx
  · intro h
    exact ⟨_, h, by simp [LgAdd.handlers]⟩

theorem testCompletion_mem {adds : List (LgAdd O P T)} {a : Nat} :
    LgHandler.testCompletion a ∈ (adds.flatMap LgAdd.handlers).reverse ↔ LgAdd.otherTest a ∈ adds := by
  rw [List.mem_reverse, List.mem_flatMap]
  constructor
  · rintro ⟨x, hx, hm⟩
    cases x <;> simp [LgAdd.handlers] at hm
    subst hm
    exact hx
  · intro h
    exact ⟨_, h, by simp [LgAdd.handlers]⟩

theorem fixtureExit_mem {adds : List (LgAdd O P T)} {a : Nat} {b : LgAllowed} :
    LgHandler.fixtureExit a b ∈ (adds.flatMap LgAdd.handlers).reverse ↔ LgAdd.fixture a b ∈ adds := by
  rw [List.mem_reverse, List.mem_flatMap]
  constructor
  · rintro ⟨x, hx, hm⟩
    cases x <;> simp [LgAdd.handlers] at hm
    obtain ⟨rfl, rfl⟩ := hm
    exact hx
  · intro h
    exact ⟨_, h, by simp [LgAdd.handlers]⟩

theorem outputShutdown_mem {adds : List (LgAdd O P T)} {t : LgOutput O P T} :
    LgHandler.outputShutdown t ∈ (adds.flatMap LgAdd.handlers).reverse → ∃ o ps, LgAdd.output t o ps ∈ adds := by
  rw [List.mem_reverse, List.mem_flatMap]
  rintro ⟨x, hx, hm⟩
  cases x <;> simp [LgAdd.handlers] at hm
  subst hm
  exact ⟨_, _, hx⟩

/-- A process test and another test are never for the same action. -/
theorem not_both {adds : List (LgAdd O P T)} (hn : (adds.filterMap LgAdd.key).Nodup) {a : Nat} (h1 : LgAdd.processTest a ∈ adds) :
    LgAdd.otherTest a ∉ adds := by
  induction adds with
  | nil => cases h1
  | cons x xs ih =>
    intro h2
    rw [List.filterMap_cons] at hn
    rcases List.mem_cons.1 h1 with rfl | h1'
    · rcases List.mem_cons.1 h2 with h | h2'
      · cases h
      · simp only [LgAdd.key, List.nodup_cons] at hn
        exact hn.1 (List.mem_filterMap.2 ⟨_, h2', rfl⟩)
    · rcases List.mem_cons.1 h2 with rfl | h2'
      · simp only [LgAdd.key, List.nodup_cons] at hn
        exact hn.1 (List.mem_filterMap.2 ⟨_, h1', rfl⟩)
      · cases hx : x.key with
        | none => rw [hx] at hn; exact ih hn h1' h2'
        | some k =>
          rw [hx] at hn
          exact ih (List.nodup_cons.1 hn).2 h1' h2'

/-! ## Shutdown events -/

/-- Does success of the test shut down the launch? -/
def LgHandler.shutdownAfter : LgHandler O P T → Bool
  | .outputStdout t => t.shutdownAfter
  | _ => false

/-- Events that decide about tests without a Shutdown event: a Shutdown event itself and the completion of an action whose future was cancelled. -/
def LgEvent.silent : LgEvent T → Bool
  | .shutdown _ => true
  | .complete _ .cancelled => true
  | _ => false

namespace LgState

/-- What a handler does about Shutdown events. -/
structure Emits (s s' : LgState O P) (h : LgHandler O P T) (e : LgEvent T) : Prop where
  mono : s.emitted ≤ s'.emitted
  armed : s.noneArmed = true → s'.noneArmed = true
  all : s.noneArmed = false → s'.noneArmed = true → e.silent = false → s.emitted < s'.emitted
  fail : h.code e ≠ none ∨ h.verdict e = some true → s.emitted < s'.emitted
  quiet : s'.noneArmed = false → h.code e = none → h.verdict e ≠ some true → h.shutdownAfter = false → s'.emitted = s.emitted

theorem Emits.refl {s : LgState O P} {h : LgHandler O P T} {e : LgEvent T} (hc : h.code e = none) (hv : h.verdict e = none) : Emits s s h e where
  mono := Nat.le_refl _
  armed := id
  all := fun h1 h2 => by rw [h1] at h2; cases h2
  fail := by
    rintro (h | h)
    · exact absurd hc h
    · rw [hv] at h; cases h
  quiet := fun _ _ _ _ => rfl

theorem noneArmed_mark {s : LgState O P} {k : LgKey} {x : LgStatus} (hx : x ≠ .armed) (h : s.noneArmed = true) : (s.mark k x).noneArmed = true := by
  unfold noneArmed mark at *
  simp only [List.all_map, List.all_eq_true, Function.comp_apply] at *
  intro p hp
  split
  · simpa using hx
  · exact h p hp

theorem failTest_noneArmed {s s' : LgState O P} {k : LgKey} (h : s.failTest k = .ok s') : s'.noneArmed = true ∧ s'.emitted = s.emitted := by
  unfold failTest at h
  by_cases hk : s.known k = true
  · rw [if_pos hk] at h
    simp only [Except.ok.injEq] at h
    subst h
    refine ⟨?_, rfl⟩
    unfold noneArmed
    simp only [List.all_map, List.all_eq_true, Function.comp_apply]
    intro p hp
    split
    · simp
    · next h => simpa using h
  · rw [if_neg hk] at h
    cases h

theorem succeed_emits {s s' : LgState O P} {k : LgKey} {a v : Bool} (h : s.succeed k a v = .ok s') :
    (s.noneArmed = true → s'.noneArmed = true) ∧ s'.emitted = s.emitted + (if v && (s'.noneArmed || a) then 1 else 0) := by
  unfold succeed at h
  by_cases hk : s.known k = true
  · rw [if_pos hk] at h
    simp only [Except.ok.injEq] at h
    subst h
    by_cases hc : (v && ((s.mark k .succeeded).noneArmed || a)) = true
    · simp only [hc, if_true]
      refine ⟨fun hn => noneArmed_mark (by simp) hn, ?_⟩
      show (s.mark k .succeeded).emitted + 1 = _
      have : ((s.mark k .succeeded).emit.noneArmed) = (s.mark k .succeeded).noneArmed := rfl
      rw [this, hc]
      rfl
    · simp only [if_neg hc]
      exact ⟨fun hn => noneArmed_mark (by simp) hn, rfl⟩
  · rw [if_neg hk] at h
    cases h

theorem finish_emits {s s' : LgState O P} {k : LgKey} (h : s.finish k = .ok s') :
    (s.noneArmed = true → s'.noneArmed = true) ∧ s'.emitted = s.emitted + (if s'.noneArmed then 1 else 0) := by
  unfold finish at h
  by_cases hk : s.known k = true
  · rw [if_pos hk] at h
    simp only [Except.ok.injEq] at h
    subst h
    by_cases hc : (s.mark k .finished).noneArmed = true
    · simp only [hc, if_true]
      refine ⟨fun _ => hc, ?_⟩
      have : ((s.mark k .finished).emit.noneArmed) = (s.mark k .finished).noneArmed := rfl
      rw [this, hc]
      rfl
    · simp only [if_neg hc]
      exact ⟨fun hn => absurd (noneArmed_mark (by simp) hn) hc, rfl⟩
  · rw [if_neg hk] at h
    cases h

/-- A test that is marked as failed or finished with a Shutdown event. -/
theorem Emits.failed {s s1 : LgState O P} {h : LgHandler O P T} {e : LgEvent T} (hn : s1.noneArmed = true) (hm : s1.emitted = s.emitted) :
    Emits s s1.emit h e where
  mono := by show s.emitted ≤ s1.emitted + 1; omega
  armed := fun _ => hn
  all := fun _ _ _ => by show s.emitted < s1.emitted + 1; omega
  fail := fun _ => by show s.emitted < s1.emitted + 1; omega
  quiet := fun h => by
    have : s1.emit.noneArmed = true := hn
    rw [this] at h; cases h

/-- A test that ends by itself. -/
theorem Emits.ended {s s' : LgState O P} {h : LgHandler O P T} {e : LgEvent T} {c : Bool} (hc : h.code e = none) (hv : h.verdict e ≠ some true)
    (ha : s.noneArmed = true → s'.noneArmed = true) (hm : s'.emitted = s.emitted + (if s'.noneArmed || c then 1 else 0))
    (hq : h.shutdownAfter = false → c = false) : Emits s s' h e where
  mono := by omega
  armed := ha
  all := fun _ h _ => by rw [hm, h]; simp
  fail := by
    rintro (h | h)
    · exact absurd hc h
    · exact absurd h hv
  quiet := fun h _ _ hs => by rw [hm, h, hq hs]; simp

/-- A test that is decided without a Shutdown event. -/
theorem Emits.silently {s s' : LgState O P} {h : LgHandler O P T} {e : LgEvent T} (hc : h.code e = none) (hv : h.verdict e ≠ some true)
    (he : e.silent = true) (ha : s.noneArmed = true → s'.noneArmed = true) (hm : s'.emitted = s.emitted) : Emits s s' h e where
  mono := by omega
  armed := ha
  all := fun _ _ hs => by rw [he] at hs; cases hs
  fail := by
    rintro (h | h)
    · exact absurd hc h
    · exact absurd h hv
  quiet := fun _ _ _ _ => hm

theorem react_emits {s s' : LgState O P} {h : LgHandler O P T} {e : LgEvent T} (hr : s.react h e = some (.ok s')) : Emits s s' h e := by
  cases h with
  | fixtureExit a allowed =>
    cases e with
    | exit b name rc sd =>
      simp only [react] at hr
      split at hr
      · next hab =>
        subst hab
        simp only [Option.some.injEq, Except.ok.injEq] at hr
        by_cases hc : (!sd && !allowed.allows rc) = true
        · rw [if_pos hc] at hr
          subst hr
          refine ⟨Nat.le_succ _, id, fun h1 h2 => ?_, fun _ => Nat.lt_succ_self _, fun _ hcode => ?_⟩
          · exact absurd (show s.noneArmed = true from h2) (by rw [h1]; simp)
          · simp only [Bool.and_eq_true, Bool.not_eq_true'] at hc
            simp [LgHandler.code, hc.1, hc.2] at hcode
        · rw [if_neg hc] at hr
          subst hr
          refine Emits.refl ?_ rfl
          simp only [LgHandler.code, true_and]
          rw [if_neg]
          rintro ⟨h1, h2⟩
          exact hc (by rw [h1, h2]; rfl)
      · cases hr
    | complete _ _ => cases hr
    | stdout _ _ => cases hr
    | shutdown _ => cases hr
  | testExit a =>
    cases e with
    | exit b name rc sd =>
      simp only [react] at hr
      split at hr
      · next hab =>
        subst hab
        simp only [Option.some.injEq] at hr
        by_cases hc : rc ≠ 0
        · rw [if_pos hc] at hr
          cases hf : ({ s with rcs := s.rcs.set name rc } : LgState O P).failTest ⟨a, none⟩ with
          | error x => rw [hf] at hr; cases hr
          | ok s1 =>
            rw [hf] at hr
            simp only [Except.map, Except.ok.injEq] at hr
            subst hr
            obtain ⟨h1, h2⟩ := failTest_noneArmed hf
            exact Emits.failed h1 h2
        · rw [if_neg hc] at hr
          obtain ⟨h1, h2⟩ := succeed_emits hr
          refine Emits.ended (c := false) ?_ ?_ h1 (by rw [h2]; simp) (fun _ => rfl)
          · simp only [LgHandler.code, true_and, if_neg hc]
          · simp only [LgHandler.verdict, if_true]
            simp at hc
            simp [hc]
      · cases hr
    | complete _ _ => cases hr
    | stdout _ _ => cases hr
    | shutdown _ => cases hr
  | testCompletion a =>
    cases e with
    | complete b fut =>
      simp only [react] at hr
      split at hr
      · next hab =>
        subst hab
        simp only [Option.some.injEq] at hr
        have good : (fut = .noFuture ∨ fut = .result) → s.succeed ⟨a, none⟩ false true = .ok s' → Emits s s' (.testCompletion a : LgHandler O P T) (.complete a fut) := by
          intro hf hr
          obtain ⟨h1, h2⟩ := succeed_emits hr
          refine Emits.ended (c := false) rfl ?_ h1 (by rw [h2]; simp) (fun _ => rfl)
          rcases hf with rfl | rfl <;> simp [LgHandler.verdict]
        cases fut with
        | noFuture => exact good (.inl rfl) hr
        | result => exact good (.inr rfl) hr
        | cancelled =>
          simp only [drop] at hr
          split at hr
          · simp only [Except.ok.injEq] at hr
            subst hr
            exact Emits.silently rfl (by simp [LgHandler.verdict]) rfl (fun hn => noneArmed_mark (by simp) hn) rfl
          · cases hr
        | raised =>
          cases hf : s.failTest ⟨a, none⟩ with
          | error x => simp only [hf] at hr; cases hr
          | ok s1 =>
            simp only [hf, Except.map, Except.ok.injEq] at hr
            subst hr
            obtain ⟨h1, h2⟩ := failTest_noneArmed hf
            exact Emits.failed h1 h2
      · cases hr
    | exit _ _ _ _ => cases hr
    | stdout _ _ => cases hr
    | shutdown _ => cases hr
  | outputExit t =>
    cases e with
    | exit b n rc sd =>
      simp only [react] at hr
      split at hr
      · simp only [Option.some.injEq] at hr
        split at hr
        · obtain ⟨h1, h2⟩ := finish_emits hr
          exact Emits.ended (c := false) rfl (by simp [LgHandler.verdict]) h1 (by rw [h2]; simp) (fun _ => rfl)
        · simp only [Except.ok.injEq] at hr
          subst hr
          exact Emits.refl rfl rfl
      · cases hr
    | complete _ _ => cases hr
    | stdout _ _ => cases hr
    | shutdown _ => cases hr
  | outputShutdown t =>
    cases e with
    | shutdown p =>
      simp only [react, Option.some.injEq] at hr
      split at hr
      · split at hr
        · cases hf : s.failTest t.key with
          | error x => simp only [hf] at hr; cases hr
          | ok s1 =>
            simp only [hf] at hr
            obtain ⟨h1, h2⟩ := failTest_noneArmed hf
            obtain ⟨h3, h4⟩ := succeed_emits hr
            exact Emits.silently rfl (by simp [LgHandler.verdict]) rfl (fun _ => h3 h1) (by rw [h4, h2]; simp)
        · cases hr
      · obtain ⟨h3, h4⟩ := succeed_emits hr
        exact Emits.silently rfl (by simp [LgHandler.verdict]) rfl h3 (by rw [h4]; simp)
    | complete _ _ => cases hr
    | stdout _ _ => cases hr
    | exit _ _ _ _ => cases hr
  | outputStdout t =>
    cases e with
    | stdout b x =>
      simp only [react] at hr
      split at hr
      · simp only [Option.some.injEq] at hr
        split at hr
        · simp only [Except.ok.injEq] at hr
          subst hr
          exact ⟨Nat.le_refl _, id, fun h1 h2 => absurd (show s.noneArmed = true from h2) (by rw [h1]; simp),
            (by rintro (h | h); exact absurd rfl h; simp [LgHandler.verdict] at h), fun _ _ _ _ => rfl⟩
        · obtain ⟨h1, h2⟩ := succeed_emits hr
          exact Emits.ended (c := t.shutdownAfter) rfl (by simp [LgHandler.verdict]) h1 (by rw [h2]; simp; rfl) id
      · cases hr
    | complete _ _ => cases hr
    | shutdown _ => cases hr
    | exit _ _ _ _ => cases hr

/-- What the handlers do together about Shutdown events. -/
structure EmitsAll (s s' : LgState O P) (hs : List (LgHandler O P T)) (es : List (LgEvent T)) : Prop where
  mono : s.emitted ≤ s'.emitted
  armed : s.noneArmed = true → s'.noneArmed = true
  all : s.noneArmed = false → s'.noneArmed = true → (∀ e ∈ es, e.silent = false) → s.emitted < s'.emitted
  quiet : s'.noneArmed = false → (∀ h ∈ hs, ∀ e ∈ es, h.code e = none ∧ h.verdict e ≠ some true) → (∀ h ∈ hs, h.shutdownAfter = false) →
    s'.emitted = s.emitted

theorem reactAll_emits (e : LgEvent T) : ∀ (hs : List (LgHandler O P T)) (s : LgState O P), EmitsAll s (s.reactAll e hs).1 hs [e]
  | [], s => ⟨Nat.le_refl _, id, (fun h1 h2 => by simp only [reactAll] at h2; rw [h1] at h2; cases h2), fun _ _ _ => rfl⟩
  | h :: hs, s => by
    simp only [reactAll]
    cases hr : s.react h e with
    | none =>
      obtain ⟨h1, h2, h3, h4⟩ := reactAll_emits e hs s
      exact ⟨h1, h2, h3, fun a b c => h4 a (fun x hx => b x (List.mem_cons_of_mem _ hx)) (fun x hx => c x (List.mem_cons_of_mem _ hx))⟩
    | some r =>
      cases r with
      | error x => exact ⟨Nat.le_refl _, id, (fun h1 h2 => by simp only at h2; rw [h1] at h2; cases h2), fun _ _ _ => rfl⟩
      | ok s1 =>
        obtain ⟨g1, g2, g3, g4, g5⟩ := react_emits hr
        obtain ⟨h1, h2, h3, h4⟩ := reactAll_emits e hs s1
        refine ⟨Nat.le_trans g1 h1, fun h => h2 (g2 h), ?_, ?_⟩
        · intro ha hb hc
          cases hm : s1.noneArmed with
          | true => exact Nat.lt_of_lt_of_le (g3 ha hm (hc e List.mem_cons_self)) h1
          | false => exact Nat.lt_of_le_of_lt g1 (h3 hm hb hc)
        · intro ha hb hc
          have hm : s1.noneArmed = false := by
            cases hm : s1.noneArmed with
            | false => rfl
            | true => rw [h2 hm] at ha; cases ha
          have hb' := hb h List.mem_cons_self e List.mem_cons_self
          rw [h4 ha (fun x hx => hb x (List.mem_cons_of_mem _ hx)) (fun x hx => hc x (List.mem_cons_of_mem _ hx)),
            g5 hm hb'.1 hb'.2 (hc h List.mem_cons_self)]

theorem reactAll_fail {e : LgEvent T} : ∀ {hs : List (LgHandler O P T)} {s s' : LgState O P}, s.reactAll e hs = (s', false) →
    ∀ h ∈ hs, (h.code e ≠ none ∨ h.verdict e = some true) → (∀ s, ∃ s', LgState.react s h e = some s') → s.emitted < s'.emitted
  | [], _, _, _, _, hh, _, _ => by cases hh
  | g :: hs, s, s', hr, h, hh, hc, hm => by
    simp only [reactAll] at hr
    cases hg : s.react g e with
    | none =>
      simp only [hg] at hr
      rcases List.mem_cons.1 hh with rfl | hh'
      · obtain ⟨x, hx⟩ := hm s
        rw [hg] at hx
        cases hx
      · exact reactAll_fail hr h hh' hc hm
    | some r =>
      cases r with
      | error x => simp only [hg, Prod.mk.injEq] at hr; exact absurd hr.2 (by simp)
      | ok s1 =>
        simp only [hg] at hr
        have g1 := react_emits hg
        have h1 : s1.emitted ≤ s'.emitted := by
          have := (reactAll_emits e hs s1).mono
          rw [hr] at this
          exact this
        rcases List.mem_cons.1 hh with rfl | hh'
        · exact Nat.lt_of_lt_of_le (g1.fail hc) h1
        · exact Nat.lt_of_le_of_lt g1.mono (reactAll_fail hr h hh' hc hm)

theorem history_emits (hs : List (LgHandler O P T)) : ∀ (es : List (LgEvent T)) (s : LgState O P), EmitsAll s (s.history hs es).1 hs es
  | [], s => ⟨Nat.le_refl _, id, (fun h1 h2 => by simp only [history] at h2; rw [h1] at h2; cases h2), fun _ _ _ => rfl⟩
  | e :: es, s => by
    simp only [history]
    obtain ⟨g1, g2, g3, g4⟩ := reactAll_emits e hs s
    obtain ⟨h1, h2, h3, h4⟩ := history_emits hs es (s.reactAll e hs).1
    refine ⟨Nat.le_trans g1 h1, fun h => h2 (g2 h), ?_, ?_⟩
    · intro ha hb hc
      cases hm : (s.reactAll e hs).1.noneArmed with
      | true =>
        refine Nat.lt_of_lt_of_le (g3 ha hm ?_) h1
        intro x hx
        rw [List.mem_singleton] at hx
        subst hx
        exact hc x List.mem_cons_self
      | false => exact Nat.lt_of_le_of_lt g1 (h3 hm hb (fun x hx => hc x (List.mem_cons_of_mem _ hx)))
    · intro ha hb hc
      have hm : (s.reactAll e hs).1.noneArmed = false := by
        cases hm : (s.reactAll e hs).1.noneArmed with
        | false => rfl
        | true => rw [h2 hm] at ha; cases ha
      rw [h4 ha (fun x hx y hy => hb x hx y (List.mem_cons_of_mem _ hy)) hc, g4 hm ?_ hc]
      intro x hx y hy
      rw [List.mem_singleton] at hy
      subst hy
      exact hb x hx y List.mem_cons_self

end LgState

end Verif
