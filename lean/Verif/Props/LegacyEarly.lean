/-
C91, continued: an output test whose process was not executed when the launch is shut down.
-/
import Verif.Props.Legacy

namespace Verif

variable {O P T : Type}

/-- The entry for an output test. -/
def LgAdd.outEntry : LgAdd O P T → Option (LgKey × O × List P)
  | .output t o ps => some (t.key, o, ps)
  | _ => none

theorem LgAdd.apply_out {x : LgAdd O P T} {s s' : LgState O P} (h : x.apply s = .ok s') : s'.out = s.out ++ x.outEntry.toList := by
  have harm : ∀ {k : LgKey} {s s' : LgState O P}, s.arm k = .ok s' → s'.out = s.out := by
    intro k s s' h
    simp only [LgState.arm] at h
    split at h
    · cases h
    · simp only [Except.ok.injEq] at h
      subst h
      rfl
  cases x with
  | fixture a al => simp only [LgAdd.apply, Except.ok.injEq] at h; subst h; simp [LgAdd.outEntry]
  | processTest a => simp [harm (show s.arm ⟨a, none⟩ = .ok s' from h), LgAdd.outEntry]
  | otherTest a => simp [harm (show s.arm ⟨a, none⟩ = .ok s' from h), LgAdd.outEntry]
  | output t o ps =>
    simp only [LgAdd.apply] at h
    split at h
    · cases ha : s.arm t.key with
      | error e => rw [ha] at h; cases h
      | ok t' =>
        rw [ha] at h
        simp only [Except.ok.injEq] at h
        subst h
        simp [harm ha, LgAdd.outEntry]
    · cases h

theorem lgSetUp_out : ∀ (adds : List (LgAdd O P T)) {s s' : LgState O P}, lgSetUp s adds = .ok s' → s'.out = s.out ++ adds.filterMap LgAdd.outEntry
  | [], s, s', h => by
    simp only [lgSetUp, Except.ok.injEq] at h
    subst h
    simp
  | x :: xs, s, s', h => by
    simp only [lgSetUp] at h
    cases hx : x.apply s with
    | error e => rw [hx] at h; cases h
    | ok s1 =>
      rw [hx] at h
      rw [lgSetUp_out xs h, LgAdd.apply_out hx, List.filterMap_cons]
      cases x.outEntry <;> simp

theorem lgSetUp_truthy : ∀ (adds : List (LgAdd O P T)) {s s' : LgState O P}, lgSetUp s adds = .ok s' →
    ∀ t o ps, LgAdd.output t o ps ∈ adds → ps.any t.truthy = true
  | x :: xs, s, s', h, t, o, ps, hm => by
    simp only [lgSetUp] at h
    cases hx : x.apply s with
    | error e => rw [hx] at h; cases h
    | ok s1 =>
      rw [hx] at h
      rcases List.mem_cons.1 hm with rfl | hm
      · simp only [LgAdd.apply] at hx
        split at hx
        · assumption
        · cases hx
      · exact lgSetUp_truthy xs h t o ps hm

theorem find_outEntry : ∀ (adds : List (LgAdd O P T)), (adds.filterMap LgAdd.key).Nodup → ∀ t o ps, LgAdd.output t o ps ∈ adds →
    (adds.filterMap LgAdd.outEntry).find? (fun p => p.1 = t.key) = some (t.key, o, ps)
  | x :: xs, hn, t, o, ps, hm => by
    rcases List.mem_cons.1 hm with rfl | hm'
    · simp [LgAdd.outEntry]
    · have hin : t.key ∈ xs.filterMap LgAdd.key := List.mem_filterMap.2 ⟨_, hm', rfl⟩
      have ih : (xs.filterMap LgAdd.key).Nodup := by
        rw [List.filterMap_cons] at hn
        split at hn
        · exact hn
        · exact (List.nodup_cons.1 hn).2
      rw [List.filterMap_cons]
      split
      · exact find_outEntry xs ih t o ps hm'
      · rename_i q hq
        cases x with
        | output t' o' ps' =>
          simp only [LgAdd.outEntry, Option.some.injEq] at hq
          subst hq
          have hne : ¬ t'.key = t.key := by
            rw [List.filterMap_cons] at hn
            simp only [LgAdd.key] at hn
            intro he
            exact (List.nodup_cons.1 hn).1 (he ▸ hin)
          rw [List.find?_cons_of_neg (by simpa using hne)]
          exact find_outEntry xs ih t o ps hm'
        | _ => simp [LgAdd.outEntry] at hq

/-- Nothing but output of its process changes what an output test waits for. -/
theorem react_outputOf (t : LgOutput O P T) (e : LgEvent T) (he : ∀ text, e ≠ .stdout t.action text) (s : LgState O P) (h : LgHandler O P T) (s' : LgState O P)
    (hr : s.react h e = some (.ok s')) : s'.outputOf t.key = s.outputOf t.key := by
  have hfail : ∀ {k : LgKey} {s s' : LgState O P}, s.failTest k = .ok s' → s'.out = s.out := by
    intro k s s' h
    simp only [LgState.failTest] at h
    split at h
    · simp only [Except.ok.injEq] at h; subst h; rfl
    · cases h
  have hsucc : ∀ {k : LgKey} {a b : Bool} {s s' : LgState O P}, s.succeed k a b = .ok s' → s'.out = s.out := by
    intro k a b s s' h
    simp only [LgState.succeed] at h
    split at h
    · simp only [Except.ok.injEq] at h; subst h; split <;> rfl
    · cases h
  have hfin : ∀ {k : LgKey} {s s' : LgState O P}, s.finish k = .ok s' → s'.out = s.out := by
    intro k s s' h
    simp only [LgState.finish] at h
    split at h
    · simp only [Except.ok.injEq] at h; subst h; split <;> rfl
    · cases h
  have hdrop : ∀ {k : LgKey} {s s' : LgState O P}, s.drop k = .ok s' → s'.out = s.out := by
    intro k s s' h
    simp only [LgState.drop] at h
    split at h
    · simp only [Except.ok.injEq] at h; subst h; rfl
    · cases h
  have hfe : ∀ {k : LgKey} {s s' : LgState O P}, (s.failTest k).map LgState.emit = .ok s' → s'.out = s.out := by
    intro k s s' h
    cases hf : s.failTest k with
    | error e => rw [hf] at h; cases h
    | ok s1 =>
      rw [hf] at h
      simp only [Except.map, Except.ok.injEq] at h
      subst h
      exact (hfail hf : s1.out = s.out)
  have keep : s'.out = s.out → s'.outputOf t.key = s.outputOf t.key := by
    intro h
    simp only [LgState.outputOf, h]
  cases h with
  | fixtureExit a al =>
    cases e with
    | exit b name rc sd =>
      simp only [LgState.react] at hr
      split at hr
      · simp only [Option.some.injEq, Except.ok.injEq] at hr
        subst hr
        apply keep
        split <;> rfl
      · cases hr
    | _ => cases hr
  | testExit a =>
    cases e with
    | exit b name rc sd =>
      simp only [LgState.react] at hr
      split at hr
      · simp only [Option.some.injEq] at hr
        apply keep
        split at hr
        · exact (hfe hr).trans rfl
        · exact hsucc hr
      · cases hr
    | _ => cases hr
  | testCompletion a =>
    cases e with
    | complete b fut =>
      simp only [LgState.react] at hr
      split at hr
      · simp only [Option.some.injEq] at hr
        apply keep
        split at hr
        · exact hdrop hr
        · exact hfe hr
        · exact hsucc hr
      · cases hr
    | _ => cases hr
  | outputExit u =>
    cases e with
    | exit b name rc sd =>
      simp only [LgState.react] at hr
      split at hr
      · simp only [Option.some.injEq] at hr
        apply keep
        split at hr
        · exact hfin hr
        · cases hr; rfl
      · cases hr
    | _ => cases hr
  | outputShutdown u =>
    cases e with
    | shutdown p =>
      simp only [LgState.react, Option.some.injEq] at hr
      apply keep
      split at hr
      · split at hr
        · cases hf : s.failTest u.key with
          | error e => rw [hf] at hr; cases hr
          | ok s1 =>
            rw [hf] at hr
            exact (hsucc hr).trans (hfail hf)
        · cases hr
      · exact hsucc hr
    | _ => cases hr
  | outputStdout u =>
    cases e with
    | stdout b text =>
      simp only [LgState.react] at hr
      split at hr
      · rename_i hb
        have hne : ¬ u.key = t.key := by
          intro hk
          simp only [LgOutput.key, LgKey.mk.injEq] at hk
          exact he text (by rw [← hk.1, hb])
        have hcol : (s.collate u text).outputOf t.key = s.outputOf t.key := by
          simp only [LgState.outputOf, LgState.collate, List.find?_map]
          have : ((fun p : LgKey × O × List P => decide (p.1 = t.key)) ∘ fun p =>
              if p.1 = u.key then (p.1, u.collate p.2.1 (u.filter text), p.2.2.filter fun x => !u.found (u.collate p.2.1 (u.filter text)) x) else p) =
              fun p => decide (p.1 = t.key) := by
            funext p
            simp only [Function.comp_apply]
            split <;> rfl
          rw [this]
          cases hf : s.out.find? (fun p => decide (p.1 = t.key)) with
          | none => rfl
          | some p =>
            have hp : p.1 = t.key := by simpa using List.find?_some hf
            simp only [Option.map_some]
            rw [if_neg (by rw [hp]; exact fun h => hne h.symm)]
        simp only [Option.some.injEq] at hr
        split at hr
        · cases hr; exact hcol
        · rw [← hcol]
          simp only [LgState.outputOf, hsucc hr]
      · cases hr
    | _ => cases hr

theorem reactAll_outputOf (t : LgOutput O P T) (e : LgEvent T) (he : ∀ text, e ≠ .stdout t.action text) : ∀ (hs : List (LgHandler O P T)) (s : LgState O P),
    (s.reactAll e hs).1.outputOf t.key = s.outputOf t.key
  | [], _ => rfl
  | h :: hs, s => by
    simp only [LgState.reactAll]
    split
    · exact reactAll_outputOf t e he hs s
    · rename_i s' hr
      exact (reactAll_outputOf t e he hs s').trans (react_outputOf t e he s h s' hr)
    · rfl

theorem history_outputOf (t : LgOutput O P T) (hs : List (LgHandler O P T)) : ∀ (es : List (LgEvent T)), (∀ text, LgEvent.stdout t.action text ∉ es) →
    ∀ (s : LgState O P), (s.history hs es).1.outputOf t.key = s.outputOf t.key
  | [], _, _ => rfl
  | e :: es, he, s => by
    simp only [LgState.history]
    rw [history_outputOf t hs es (fun text h => he text (List.mem_cons_of_mem _ h)),
      reactAll_outputOf t e (fun text h => he text (by rw [h]; exact List.mem_cons_self)) hs s]

theorem reactAll_raises (t : LgOutput O P T) (p : Nat → Bool) (hp : p t.action = false) : ∀ (hs : List (LgHandler O P T)) (s : LgState O P),
    s.patternsLeft t = true → LgHandler.outputShutdown t ∈ hs → (s.reactAll (.shutdown p) hs).2 = true
  | h :: hs, s, hl, hm => by
    rcases List.mem_cons.1 hm with rfl | hm
    · simp [LgState.reactAll, LgState.react, hl, hp]
    · simp only [LgState.reactAll]
      split
      · exact reactAll_raises t p hp hs s hl hm
      · rename_i s' hr
        refine reactAll_raises t p hp hs s' ?_ hm
        simp only [LgState.patternsLeft, react_outputOf t (.shutdown p) (by simp) s h s' hr]
        exact hl
      · rfl

theorem history_raised (hs : List (LgHandler O P T)) : ∀ (es : List (LgEvent T)) (e : LgEvent T) (es' : List (LgEvent T)) (s : LgState O P),
    ((s.history hs es).1.reactAll e hs).2 = true → (s.history hs (es ++ e :: es')).2 = true
  | [], e, es', s, h => by
    simp only [LgState.history, List.nil_append] at h ⊢
    simp [h]
  | e0 :: es, e, es', s, h => by
    simp only [LgState.history, List.cons_append] at h ⊢
    simp [history_raised hs es e es' _ h]

/-- An output test of a process that was not executed when the launch is shut down, and thus has printed nothing, never goes for a success: whatever else happens
before and after the shutdown, `run` returns 1. -/
theorem C91_never_executed (adds : List (LgAdd O P T)) (hs : (lgSetUp {} adds).isOk = true) (t : LgOutput O P T) (o : O) (ps : List P)
    (ht : LgAdd.output t o ps ∈ adds) (es es' : List (LgEvent T)) (p : Nat → Bool) (hp : p t.action = false)
    (hq : ∀ text, LgEvent.stdout t.action text ∉ es) (rc : Int) : lgRun adds (es ++ .shutdown p :: es') rc = .ok 1 := by
  cases h0 : lgSetUp {} adds with
  | error e => rw [h0] at hs; cases hs
  | ok s0 =>
    have hn := (lgSetUp_init h0).2.2.1
    have hout : s0.outputOf t.key = some (o, ps) := by
      have := lgSetUp_out adds h0
      simp only [LgState.outputOf, this, List.nil_append, find_outEntry adds hn t o ps ht, Option.map_some]
    have hraise : (s0.history (adds.flatMap LgAdd.handlers).reverse (es ++ .shutdown p :: es')).2 = true := by
      refine history_raised _ es _ es' s0 (reactAll_raises t p hp _ _ ?_ ?_)
      · simp only [LgState.patternsLeft, history_outputOf t _ es hq s0, hout]
        exact lgSetUp_truthy adds h0 t o ps ht
      · rw [List.mem_reverse, List.mem_flatMap]
        exact ⟨_, ht, by simp [LgAdd.handlers]⟩
    simp [lgRun, h0, hraise, LgState.returnCode]

/-- The launch is shut down because a test process ended, before the process with the output test was executed; what happens later does not matter. -/
example : lgRun [LgAdd.processTest (O := Nat) (P := Nat) (T := Nat) 0, .output ⟨1, "output", fun o _ => o, fun _ _ => true, fun _ => true, id, false⟩ 0 [5]]
    ([.exit 0 "a" 0 false] ++ .shutdown (fun a => a == 0) :: [.exit 0 "a" 0 true]) 0 = .ok 1 :=
  C91_never_executed _ rfl _ 0 [5] (List.mem_cons_of_mem _ List.mem_cons_self) _ _ _ rfl (by intro text h; simp at h) 0

end Verif
