import Verif.Lemmas.Legacy
import Verif.Spec.Legacy

/-! # C91, C92: the legacy test service -/

namespace Verif

variable {O P T : Type}

theorem allows_false {allowed : LgAllowed} {rc : Int} :
    allowed.allows rc = false ↔ (match allowed with | .codes l => rc ∉ l | .flag b => b = false) := by
  cases allowed <;> simp [LgAllowed.allows]

/-- Codes are recorded for failures and for nothing else. -/
theorem code_iff {adds : List (LgAdd O P T)} {e : LgEvent T} {n : String} {c : Int} :
    (n, c) ∈ (adds.flatMap LgAdd.handlers).reverse.filterMap (·.code e) ↔ LgFailure adds e n c := by
  rw [List.mem_filterMap]
  constructor
  · rintro ⟨h, hm, hc⟩
    cases h with
    | fixtureExit a allowed =>
      cases e with
      | exit b name rc sd =>
        simp only [LgHandler.code] at hc
        split at hc
        · next h =>
          obtain ⟨rfl, rfl, h3⟩ := h
          simp only [Option.some.injEq, Prod.mk.injEq] at hc
          obtain ⟨rfl, rfl⟩ := hc
          exact .fixture (fixtureExit_mem.1 hm) (allows_false.1 h3)
        · cases hc
      | _ => cases hc
    | testExit a =>
      cases e with
      | exit b name rc sd =>
        simp only [LgHandler.code] at hc
        split at hc
        · next h =>
          obtain ⟨rfl, h3⟩ := h
          simp only [Option.some.injEq, Prod.mk.injEq] at hc
          obtain ⟨rfl, rfl⟩ := hc
          exact .test (testExit_mem.1 hm) h3
        · cases hc
      | _ => cases hc
    | testCompletion a => cases e <;> cases hc
    | outputExit t => cases e <;> cases hc
    | outputShutdown t => cases e <;> cases hc
    | outputStdout t => cases e <;> cases hc
  · intro h
    cases h with
    | @test a name rc sd h1 h2 => exact ⟨_, testExit_mem.2 h1, by simp [LgHandler.code, h2]⟩
    | @fixture a allowed name rc h1 h2 => exact ⟨_, fixtureExit_mem.2 h1, by simp [LgHandler.code, allows_false.2 h2]⟩

theorem set_ne_nil (d : Dict Int) (k : String) (v : Int) : d.set k v ≠ [] := by
  cases d with
  | nil => simp [Dict.set]
  | cons p d =>
    obtain ⟨k', v'⟩ := p
    simp only [Dict.set]
    split <;> simp

theorem foldl_set_ne_nil : ∀ (l : List (String × Int)) (d : Dict Int), d ≠ [] → l.foldl (fun d p => d.set p.1 p.2) d ≠ []
  | [], _, h => h
  | p :: l, d, _ => foldl_set_ne_nil l _ (set_ne_nil d p.1 p.2)

theorem mem_set {d : Dict Int} {k : String} {v : Int} {x : String × Int} (h : x ∈ d.set k v) : x ∈ d ∨ x.2 = v := by
  induction d with
  | nil =>
    simp only [Dict.set, List.mem_singleton] at h
    subst h
    exact .inr rfl
  | cons p d ih =>
    obtain ⟨k', v'⟩ := p
    simp only [Dict.set] at h
    split at h
    · rcases List.mem_cons.1 h with rfl | h
      · exact .inr rfl
      · exact .inl (List.mem_cons_of_mem _ h)
    · rcases List.mem_cons.1 h with rfl | h
      · exact .inl List.mem_cons_self
      · rcases ih h with h | h
        · exact .inl (List.mem_cons_of_mem _ h)
        · exact .inr h

theorem foldl_set_values : ∀ (l : List (String × Int)) (d : Dict Int) (Q : Int → Prop), (∀ x ∈ d, Q x.2) → (∀ x ∈ l, Q x.2) →
    ∀ x ∈ l.foldl (fun d p => d.set p.1 p.2) d, Q x.2
  | [], _, _, h, _ => h
  | p :: l, d, Q, h, h' => by
    refine foldl_set_values l _ Q ?_ (fun x hx => h' x (List.mem_cons_of_mem _ hx))
    intro x hx
    rcases mem_set hx with hx | hx
    · exact h x hx
    · rw [hx]; exact h' p List.mem_cons_self

/-- What is known after a run. -/
theorem lgAfter_ok {adds : List (LgAdd O P T)} {es : List (LgEvent T)} {s0 : LgState O P} (hs : lgSetUp {} adds = .ok s0) (hx : LgExecuted adds es) :
    ∃ s, s0.history (adds.flatMap LgAdd.handlers).reverse es = (s, false) ∧
      LgState.ReactsAll s0 s (adds.flatMap LgAdd.handlers).reverse es := by
  apply LgState.history_ok
  · intro h hm k hk
    rw [names_setUp hs]
    exact handler_key hm hk
  · intro e he
    cases e with
    | shutdown p =>
      intro t ht
      obtain ⟨o, ps, hm⟩ := outputShutdown_mem ht
      exact hx p he t o ps hm
    | _ => trivial

theorem lgRun_eq {adds : List (LgAdd O P T)} {es : List (LgEvent T)} {s0 s : LgState O P} (hs : lgSetUp {} adds = .ok s0)
    (hh : s0.history (adds.flatMap LgAdd.handlers).reverse es = (s, false)) (rc : Int) : lgRun adds es rc = .ok (s.returnCode rc) := by
  simp only [lgRun, hs, hh]
  rfl

theorem failed_any {s : LgState O P} : (s.tests.any fun p => p.2 = .failed) = true ↔ ∃ l, s.isFailed l = true := by
  unfold LgState.isFailed
  simp only [List.any_eq_true, decide_eq_true_eq, Bool.and_eq_true]
  constructor
  · rintro ⟨p, h1, h2⟩
    exact ⟨p.1, p, h1, rfl, h2⟩
  · rintro ⟨l, p, h1, _, h2⟩
    exact ⟨p, h1, h2⟩

/-- All decisions about a test that is no process agree if its action completes once. -/
theorem verdicts_once {adds : List (LgAdd O P T)} {es : List (LgEvent T)} (hn : (adds.filterMap LgAdd.key).Nodup) (ho : LgOnce es) {a : Nat}
    (ha : LgAdd.otherTest a ∈ adds) (hr : LgEvent.complete a .raised ∈ es) :
    ∀ b ∈ es.flatMap (LgState.verdicts (adds.flatMap LgAdd.handlers).reverse ⟨a, none⟩), b = true := by
  intro b hb
  rw [List.mem_flatMap] at hb
  obtain ⟨e, he, hb⟩ := hb
  simp only [LgState.verdicts, List.mem_filterMap] at hb
  obtain ⟨h, hm, hb⟩ := hb
  split at hb
  · next hk =>
    cases h with
    | testExit a' =>
      simp only [LgHandler.key, Option.some.injEq, LgKey.mk.injEq, and_true] at hk
      subst hk
      exact absurd ha (not_both hn (testExit_mem.1 hm))
    | testCompletion a' =>
      simp only [LgHandler.key, Option.some.injEq, LgKey.mk.injEq, and_true] at hk
      subst hk
      cases e with
      | complete a'' fut =>
        simp only [LgHandler.verdict] at hb
        split at hb
        · next h =>
          subst h
          simp only [Option.some.injEq] at hb
          have hone := ho a'
          have m1 : LgEvent.complete a' fut ∈ es.filter (fun e => match e with | .complete b _ => a' == b | _ => false) := by
            rw [List.mem_filter]; exact ⟨he, by simp⟩
          have m2 : LgEvent.complete a' LgDone.raised ∈ es.filter (fun e => match e with | .complete b _ => a' == b | _ => false) := by
            rw [List.mem_filter]; exact ⟨hr, by simp⟩
          generalize es.filter (fun e => match e with | LgEvent.complete b _ => a' == b | _ => false) = L at hone m1 m2
          match L, hone, m1, m2 with
          | [], _, m1, _ => cases m1
          | [x], _, m1, m2 =>
            rw [List.mem_singleton] at m1 m2
            rw [← m2] at m1
            cases m1
            simpa using hb.symm
          | _ :: _ :: _, h, _, _ => simp at h
        · cases hb
      | _ => cases hb
    | fixtureExit _ _ => cases hb
    | outputExit _ => cases hb
    | outputShutdown _ => cases hb
    | outputStdout _ => cases hb
  · cases hb

/-- `run` returns 0 exactly if the launch service does, no test process failed, no fixture process died and no other test raised.
Missing: that every output test found its patterns (`C91_output_violated`). -/
theorem C91_exit_code_partial (adds : List (LgAdd O P T)) (es : List (LgEvent T)) (rc : Int) (hs : (lgSetUp {} adds).isOk = true) (ho : LgOnce es)
    (hx : LgExecuted adds es) :
    lgRun adds es rc = .ok 0 ↔
      rc = 0 ∧ (∀ e ∈ es, ∀ n c, ¬ LgFailure adds e n c) ∧ ∀ a, LgAdd.otherTest a ∈ adds → LgEvent.complete a .raised ∉ es := by
  cases hs' : lgSetUp {} adds with
  | error e => rw [hs'] at hs; cases hs
  | ok s0 =>
    obtain ⟨s, hh, hr⟩ := lgAfter_ok hs' hx
    obtain ⟨i1, i2, i3, -⟩ := lgSetUp_init hs'
    rw [lgRun_eq hs' hh]
    have hrcs := hr.rcs
    rw [i1] at hrcs
    have hval : ∀ x ∈ s.rcs, x.2 ≠ 0 := by
      rw [hrcs]
      apply foldl_set_values _ _ (fun v => v ≠ 0)
      · simp
      · rintro ⟨n, c⟩ hm
        rw [List.mem_flatMap] at hm
        obtain ⟨e, _, hm⟩ := hm
        have := code_iff.1 hm
        cases this with
        | test _ h => exact h
        | fixture _ _ => simp only; split <;> omega
    constructor
    · intro h
      simp only [Except.ok.injEq, LgState.returnCode] at h
      by_cases h0 : rc = 0
      · rw [if_pos h0] at h
        have hnil : s.rcs = [] := by
          cases hd : s.rcs with
          | nil => rfl
          | cons p d =>
            rw [hd] at h hval
            have hp := hval p List.mem_cons_self
            simp only [List.find?_cons] at h
            have : decide (p.2 ≠ 0) = true := by simpa using hp
            rw [this] at h
            exact absurd h hp
        rw [hnil] at h
        simp only [List.find?_nil] at h
        have hnf : ∀ l, s.isFailed l = false := by
          intro l
          cases hl : s.isFailed l with
          | false => rfl
          | true =>
            rw [if_pos (failed_any.2 ⟨l, hl⟩)] at h
            cases h
        refine ⟨h0, ?_, ?_⟩
        · intro e he n c hf
          have hm : (n, c) ∈ es.flatMap (fun e => (adds.flatMap LgAdd.handlers).reverse.filterMap (·.code e)) :=
            List.mem_flatMap.2 ⟨e, he, code_iff.2 hf⟩
          cases hl : es.flatMap (fun e => (adds.flatMap LgAdd.handlers).reverse.filterMap (·.code e)) with
          | nil => rw [hl] at hm; cases hm
          | cons p l =>
            rw [hl] at hrcs
            exact foldl_set_ne_nil l _ (set_ne_nil [] p.1 p.2) (hrcs.symm.trans hnil)
        · intro a ha hm
          have ht := hr.tests ⟨a, none⟩ rfl
          rw [hnf] at ht
          have hall := verdicts_once i3 ho ha hm
          have hex : true ∈ es.flatMap (LgState.verdicts (adds.flatMap LgAdd.handlers).reverse ⟨a, none⟩) := by
            rw [List.mem_flatMap]
            refine ⟨_, hm, ?_⟩
            simp only [LgState.verdicts, List.mem_filterMap]
            exact ⟨.testCompletion a, testCompletion_mem.2 ha, by simp [LgHandler.key, LgHandler.verdict]⟩
          cases hl : (es.flatMap (LgState.verdicts (adds.flatMap LgAdd.handlers).reverse ⟨a, none⟩)).getLast? with
          | none =>
            rw [List.getLast?_eq_none_iff] at hl
            rw [hl] at hex
            cases hex
          | some b =>
            rw [hl] at ht
            have := hall b (List.mem_of_getLast? hl)
            subst this
            cases ht
      · rw [if_neg h0] at h
        exact absurd h h0
    · rintro ⟨h0, h1, h2⟩
      have hnil : s.rcs = [] := by
        rw [hrcs]
        have : es.flatMap (fun e => (adds.flatMap LgAdd.handlers).reverse.filterMap (·.code e)) = [] := by
          rw [List.eq_nil_iff_forall_not_mem]
          rintro ⟨n, c⟩ hm
          rw [List.mem_flatMap] at hm
          obtain ⟨e, he, hm⟩ := hm
          exact h1 e he n c (code_iff.1 hm)
        rw [this]
        rfl
      have hnf : ∀ l, s.isFailed l = false := by
        intro l
        by_cases hl : l.suffix = none
        · rw [hr.tests l hl, isFailed_setUp hs']
          cases hv : (es.flatMap (LgState.verdicts (adds.flatMap LgAdd.handlers).reverse l)).getLast? with
          | none => rfl
          | some b =>
            have hm := List.mem_of_getLast? hv
            rw [List.mem_flatMap] at hm
            obtain ⟨e, he, hm⟩ := hm
            simp only [LgState.verdicts, List.mem_filterMap] at hm
            obtain ⟨h, hh, hm⟩ := hm
            split at hm
            · cases h with
              | testExit a =>
                cases e with
                | exit b' name rc' sd =>
                  simp only [LgHandler.verdict] at hm
                  split at hm
                  · next hab =>
                    subst hab
                    simp only [Option.some.injEq] at hm
                    rw [← hm]
                    by_cases hz : rc' = 0
                    · simp [hz]
                    · exact absurd (.test (testExit_mem.1 hh) hz) (h1 _ he name rc')
                  · cases hm
                | _ => cases hm
              | testCompletion a =>
                cases e with
                | complete b' fut =>
                  simp only [LgHandler.verdict] at hm
                  split at hm
                  · next hab =>
                    subst hab
                    simp only [Option.some.injEq] at hm
                    rw [← hm]
                    by_cases hz : fut = .raised
                    · subst hz
                      exact absurd he (h2 a (testCompletion_mem.1 hh))
                    · simp [hz]
                  · cases hm
                | _ => cases hm
              | fixtureExit _ _ => cases hm
              | outputExit _ => cases hm
              | outputShutdown _ => cases hm
              | outputStdout _ => cases hm
            · cases hm
        · cases hf : s.isFailed l with
          | false => rfl
          | true =>
            have := hr.outputs l hl hf
            rw [isFailed_setUp hs'] at this
            cases this
      simp only [Except.ok.injEq, LgState.returnCode, if_pos h0, hnil, List.find?_nil]
      rw [if_neg]
      intro h
      obtain ⟨l, hl⟩ := failed_any.1 h
      rw [hnf] at hl
      cases hl

/-- A run without a failure: an output test, a fixture and a test process that exits with 0. -/
example : lgRun [LgAdd.processTest (O := Nat) (P := Nat) (T := Nat) 0, .fixture 1 (.codes [0, 3]), .otherTest 2]
    [.exit 1 "server" 3 false, .complete 2 .result, .exit 0 "talker" 0 false, .exit 1 "server" 1 true] 0 = .ok 0 ∧
    lgRun [LgAdd.processTest (O := Nat) (P := Nat) (T := Nat) 0, .otherTest 2] [.complete 2 .raised, .exit 0 "talker" 0 true] 0 = .ok 1 := by
  constructor
  · rw [C91_exit_code_partial _ _ _ rfl]
    · refine ⟨rfl, ?_, ?_⟩
      · intro e he n c h
        cases h with
        | test h1 h2 => simp at h1; subst h1; simp at he; omega
        | fixture h1 h2 =>
          simp only [List.mem_cons, LgAdd.fixture.injEq, List.not_mem_nil, or_false, reduceCtorEq, false_or] at h1
          obtain ⟨rfl, rfl⟩ := h1
          simp at he
          obtain ⟨-, rfl⟩ := he
          simp at h2
      · intro a ha hc
        simp at hc
    · intro a
      simp [List.filter_cons]
      split <;> simp
    · intro p hp
      simp at hp
  · rfl

/-- Output tests never count: whatever was printed and expected, a run with nothing but output tests returns 0 if the launch service does. -/
theorem C91_output_violated (adds : List (LgAdd O P T)) (es : List (LgEvent T)) (hs : (lgSetUp {} adds).isOk = true) (ho : LgOnce es)
    (hx : LgExecuted adds es) (hout : ∀ x ∈ adds, ∃ t o ps, x = .output t o ps) : lgRun adds es 0 = .ok 0 := by
  rw [C91_exit_code_partial adds es 0 hs ho hx]
  refine ⟨rfl, ?_, ?_⟩
  · intro e he n c h
    cases h with
    | test h1 h2 =>
      obtain ⟨t, o, ps, h⟩ := hout _ h1
      cases h
    | fixture h1 h2 =>
      obtain ⟨t, o, ps, h⟩ := hout _ h1
      cases h
  · intro a ha
    obtain ⟨t, o, ps, h⟩ := hout _ ha
    cases h

/-- An output test that looks for 7 in the numbers printed. -/
def lgExampleOutput : LgOutput (List Nat) Nat Nat :=
  { action := 0, suffix := "output", collate := fun o x => o ++ [x], found := fun o x => o.contains x, truthy := fun x => x ≠ 0, filter := id,
    shutdownAfter := false }

/-- The expected output never appears, the process exits and the launch is shut down. -/
example : lgRun [LgAdd.output lgExampleOutput [] [7]] [.stdout 0 1, .stdout 0 2, .exit 0 "talker" 0 false, .shutdown (fun _ => true)] 0 = .ok 0 := by
  apply C91_output_violated
  · rfl
  · intro a
    simp
  · intro p hp t o ps _
    simp only [List.mem_cons, reduceCtorEq, false_or, List.not_mem_nil, or_false, LgEvent.shutdown.injEq] at hp
    rw [hp]
  · intro x hx
    simp at hx
    exact ⟨_, _, _, hx⟩

/-- If the launch service fails, its return code is returned. -/
theorem C91_service_code (adds : List (LgAdd O P T)) (es : List (LgEvent T)) (rc : Int) (hs : (lgSetUp {} adds).isOk = true) (hx : LgExecuted adds es)
    (h0 : rc ≠ 0) : lgRun adds es rc = .ok rc := by
  cases hs' : lgSetUp {} adds with
  | error e => rw [hs'] at hs; cases hs
  | ok s0 =>
    obtain ⟨s, hh, hr⟩ := lgAfter_ok hs' hx
    rw [lgRun_eq hs' hh, LgState.returnCode, if_neg h0]

theorem foldl_set_first {n : String} {c : Int} : ∀ (l : List (String × Int)) (d : Dict Int), (∀ x ∈ l, x.1 ≠ n ∨ x = (n, c)) →
    ∃ d' : Dict Int, l.foldl (fun (d : Dict Int) p => d.set p.1 p.2) ((n, c) :: d) = (n, c) :: d'
  | [], d, _ => ⟨d, rfl⟩
  | p :: l, d, h => by
    have ht := fun x hx => h x (List.mem_cons_of_mem _ hx)
    rw [List.foldl_cons]
    rcases h p List.mem_cons_self with hp | hp
    · have : Dict.set ((n, c) :: d) p.1 p.2 = (n, c) :: Dict.set d p.1 p.2 := by
        simp only [Dict.set]
        rw [if_neg (Ne.symm hp)]
      rw [this]
      exact foldl_set_first l _ ht
    · subst hp
      have : Dict.set ((n, c) :: d) n c = (n, c) :: d := by simp [Dict.set]
      simp only [this]
      exact foldl_set_first l _ ht

/-- The code that is returned is the one of the first process that failed (unless a later one has the same name). -/
theorem C91_first_failure (adds : List (LgAdd O P T)) (es es' : List (LgEvent T)) (e : LgEvent T) (n : String) (c : Int)
    (hs : (lgSetUp {} adds).isOk = true) (hx : LgExecuted adds (es ++ e :: es')) (hbefore : ∀ e' ∈ es, ∀ n' c', ¬ LgFailure adds e' n' c')
    (hat : LgFailure adds e n c) (honly : ∀ n' c', LgFailure adds e n' c' → n' = n ∧ c' = c)
    (hafter : ∀ e' ∈ es', ∀ n' c', LgFailure adds e' n' c' → n' ≠ n) : lgRun adds (es ++ e :: es') 0 = .ok c := by
  cases hs' : lgSetUp {} adds with
  | error e => rw [hs'] at hs; cases hs
  | ok s0 =>
    obtain ⟨s, hh, hr⟩ := lgAfter_ok hs' hx
    obtain ⟨i1, i2, i3, -⟩ := lgSetUp_init hs'
    rw [lgRun_eq hs' hh]
    have hrcs := hr.rcs
    rw [i1, List.flatMap_append, List.flatMap_cons] at hrcs
    have hnil : es.flatMap (fun e => (adds.flatMap LgAdd.handlers).reverse.filterMap (·.code e)) = [] := by
      rw [List.eq_nil_iff_forall_not_mem]
      rintro ⟨n, c⟩ hm
      rw [List.mem_flatMap] at hm
      obtain ⟨e, he, hm⟩ := hm
      exact hbefore e he n c (code_iff.1 hm)
    rw [hnil, List.nil_append] at hrcs
    have hc : c ≠ 0 := by
      cases hat with
      | test _ h => exact h
      | fixture _ _ => split <;> omega
    have hm := code_iff.2 hat
    cases hl : (adds.flatMap LgAdd.handlers).reverse.filterMap (·.code e) with
    | nil => rw [hl] at hm; cases hm
    | cons p l =>
      have hp : p = (n, c) := by
        obtain ⟨n', c'⟩ := p
        obtain ⟨rfl, rfl⟩ := honly n' c' (code_iff.1 (by rw [hl]; exact List.mem_cons_self))
        rfl
      subst hp
      rw [hl, List.cons_append, List.foldl_cons] at hrcs
      obtain ⟨d', hd⟩ := foldl_set_first (n := n) (c := c) (l ++ es'.flatMap (fun e => (adds.flatMap LgAdd.handlers).reverse.filterMap (·.code e))) [] (by
        rintro ⟨n', c'⟩ hx
        rcases List.mem_append.1 hx with hx | hx
        · obtain ⟨rfl, rfl⟩ := honly n' c' (code_iff.1 (by rw [hl]; exact List.mem_cons_of_mem _ hx))
          exact .inr rfl
        · rw [List.mem_flatMap] at hx
          obtain ⟨e', he', hx⟩ := hx
          exact .inl (hafter e' he' n' c' (code_iff.1 hx)))
      have : s.rcs = (n, c) :: d' := hrcs.trans hd
      have hdec : decide ((n, c).2 ≠ 0) = true := by simpa using hc
      simp only [LgState.returnCode, if_true, this, List.find?_cons, hdec]

/-- Two test processes fail: the code of the first one is returned. -/
example : lgRun [LgAdd.processTest (O := Nat) (P := Nat) (T := Nat) 0, .processTest 1]
    [.exit 1 "b" 7 false, .exit 0 "a" 2 true] 0 = .ok 7 := by
  refine C91_first_failure _ [] _ _ "b" 7 rfl ?_ ?_ (.test (by simp) (by simp)) ?_ ?_
  · intro p hp
    simp at hp
  · intro e he
    cases he
  · intro n' c' h
    cases h with
    | test _ _ => exact ⟨rfl, rfl⟩
    | fixture h _ => simp at h
  · intro e he n' c' h
    rw [List.mem_singleton] at he
    subst he
    cases h with
    | test _ _ => simp

/-! ## Shutdown -/

theorem history_append (hs : List (LgHandler O P T)) : ∀ (es es' : List (LgEvent T)) (s : LgState O P),
    (s.history hs (es ++ es')).1 = ((s.history hs es).1.history hs es').1
  | [], _, _ => rfl
  | e :: es, es', s => by
    simp only [List.cons_append, LgState.history]
    exact history_append hs es es' _

/-- A test or a fixture that fails, and a test that raises, shut the launch down at once. -/
theorem C92_failure (adds : List (LgAdd O P T)) (es : List (LgEvent T)) (e : LgEvent T) (s s' : LgState O P) (hx : LgExecuted adds (es ++ [e]))
    (h1 : lgAfter adds es = .ok s) (h2 : lgAfter adds (es ++ [e]) = .ok s')
    (hf : (∃ n c, LgFailure adds e n c) ∨ ∃ a, LgAdd.otherTest a ∈ adds ∧ e = .complete a .raised) : s.emitted < s'.emitted := by
  cases hs : lgSetUp {} adds with
  | error x => simp only [lgAfter, hs] at h1; cases h1
  | ok s0 =>
    simp only [lgAfter, hs, Except.ok.injEq] at h1 h2
    have hx' : LgExecuted adds es := fun p hp => hx p (List.mem_append_left _ hp)
    obtain ⟨t, ht, hr⟩ := lgAfter_ok hs hx'
    rw [ht] at h1
    simp only at h1
    subst h1
    rw [history_append, ht] at h2
    simp only [LgState.history] at h2
    have hk : ∀ h ∈ (adds.flatMap LgAdd.handlers).reverse, ∀ k, h.key = some k → k ∈ t.names := by
      intro h hm k hk
      rw [hr.names, names_setUp hs]
      exact handler_key hm hk
    have hp : e.Prepared (adds.flatMap LgAdd.handlers).reverse := by
      cases e with
      | shutdown p =>
        intro u hu
        obtain ⟨o, ps, hm⟩ := outputShutdown_mem hu
        exact hx p (by simp) u o ps hm
      | _ => trivial
    obtain ⟨s1, g1, g2⟩ := LgState.reactAll_ok e _ t hk hp
    rw [g1] at h2
    simp only at h2
    subst h2
    rcases hf with ⟨n, c, hf⟩ | ⟨a, ha, rfl⟩
    · cases hf with
      | @test a name rc sd hm hne =>
        refine LgState.reactAll_fail g1 _ (testExit_mem.2 hm) (.inl (by simp [LgHandler.code, hne])) ?_
        intro s
        exact ⟨_, by simp only [LgState.react, if_true]; rfl⟩
      | @fixture a allowed name rc hm hne =>
        refine LgState.reactAll_fail g1 _ (fixtureExit_mem.2 hm) (.inl (by simp [LgHandler.code, allows_false.2 hne])) ?_
        intro s
        exact ⟨_, by simp only [LgState.react, if_true]; rfl⟩
    · refine LgState.reactAll_fail g1 _ (testCompletion_mem.2 ha) (.inr (by simp [LgHandler.verdict])) ?_
      intro s
      exact ⟨_, by simp only [LgState.react, if_true]; rfl⟩

/-- The first of two test processes fails. -/
example : ∃ s s', lgAfter [LgAdd.processTest (O := Nat) (P := Nat) (T := Nat) 0, .processTest 1] [] = .ok s ∧
    lgAfter [LgAdd.processTest (O := Nat) (P := Nat) (T := Nat) 0, .processTest 1] ([] ++ [.exit 1 "b" 7 false]) = .ok s' ∧ s.emitted < s'.emitted :=
  ⟨_, _, rfl, rfl, C92_failure [.processTest 0, .processTest 1] [] (.exit 1 "b" 7 false) _ _ (by intro p hp; simp at hp) rfl rfl
    (.inl ⟨"b", 7, .test (by simp) (by decide)⟩)⟩

/-- As soon as no test is under way any more, the launch has been asked to shut down.  Missing: tests that are dropped because their future was cancelled
(`C92_cancelled_violated`). -/
theorem C92_all_decided_partial (adds : List (LgAdd O P T)) (es : List (LgEvent T)) (s : LgState O P) (h : lgAfter adds es = .ok s)
    (hsome : s.tests ≠ []) (hnone : ∀ p ∈ s.tests, p.2 ≠ .armed) (hno : ∀ p, LgEvent.shutdown p ∉ es)
    (hc : ∀ a, LgEvent.complete a .cancelled ∉ es) : 0 < s.emitted := by
  cases hs : lgSetUp {} adds with
  | error x => simp only [lgAfter, hs] at h; cases h
  | ok s0 =>
    simp only [lgAfter, hs, Except.ok.injEq] at h
    have hx' : LgExecuted adds es := fun p hp => absurd hp (hno p)
    obtain ⟨t, ht, hr⟩ := lgAfter_ok hs hx'
    have hem := LgState.history_emits (adds.flatMap LgAdd.handlers).reverse es s0
    rw [ht] at h hem
    simp only at h hem
    subst h
    obtain ⟨i1, i2, i3, i4⟩ := lgSetUp_init hs
    rw [← i4]
    apply hem.all
    · rw [LgState.noneArmed, Bool.eq_false_iff]
      intro hall
      have hnames : t.names ≠ [] := by
        intro hn
        unfold LgState.names at hn
        exact hsome (List.map_eq_nil_iff.1 hn)
      rw [hr.names] at hnames
      unfold LgState.names at hnames
      cases hte : s0.tests with
      | nil => rw [hte] at hnames; exact hnames rfl
      | cons p l =>
        have hp : p ∈ s0.tests := by rw [hte]; exact List.mem_cons_self
        rw [List.all_eq_true] at hall
        have := hall p hp
        rw [i2, List.mem_map] at hp
        obtain ⟨k, _, rfl⟩ := hp
        simp at this
    · rw [LgState.noneArmed, List.all_eq_true]
      intro p hp
      simpa using hnone p hp
    · intro e he
      cases e with
      | shutdown p => exact absurd he (hno p)
      | complete a f =>
        cases f with
        | cancelled => exact absurd he (hc a)
        | _ => rfl
      | _ => rfl

/-- A test process and another test, both of which succeed. -/
example : ∃ s, lgAfter [LgAdd.processTest (O := Nat) (P := Nat) (T := Nat) 0, .otherTest 1] [.complete 1 .result, .exit 0 "a" 0 false] = .ok s ∧
    0 < s.emitted := by
  refine ⟨_, rfl, ?_⟩
  refine C92_all_decided_partial [.processTest 0, .otherTest 1] [.complete 1 .result, .exit 0 "a" 0 false] _ rfl ?_ ?_ ?_ ?_
  · decide
  · decide
  · intro p hp
    simp at hp
  · intro a ha
    simp at ha

/-- If the future of the last test is cancelled, the launch goes on although no test is under way. -/
theorem C92_cancelled_violated : ∃ s : LgState Nat Nat, lgAfter [LgAdd.processTest (T := Nat) 0, .otherTest 1] [.exit 0 "a" 0 false, .complete 1 .cancelled] = .ok s ∧
    (s.tests.map (·.2)) = [.succeeded, .dropped] ∧ s.emitted = 0 := ⟨_, rfl, by decide, by decide⟩

/-- While a test is under way, nothing has failed and no output test is there to shut down the launch, the launch is not shut down. -/
theorem C92_not_early (adds : List (LgAdd O P T)) (es : List (LgEvent T)) (s : LgState O P) (h : lgAfter adds es = .ok s)
    (hsome : ∃ p ∈ s.tests, p.2 = .armed) (hf : ∀ e ∈ es, ∀ n c, ¬ LgFailure adds e n c)
    (hr : ∀ a, LgAdd.otherTest a ∈ adds → LgEvent.complete a .raised ∉ es)
    (hside : ∀ t o ps, LgAdd.output t o ps ∈ adds → t.shutdownAfter = false) : s.emitted = 0 := by
  cases hs : lgSetUp {} adds with
  | error x => simp only [lgAfter, hs] at h; cases h
  | ok s0 =>
    simp only [lgAfter, hs, Except.ok.injEq] at h
    subst h
    have hem := LgState.history_emits (adds.flatMap LgAdd.handlers).reverse es s0
    obtain ⟨i1, i2, i3, i4⟩ := lgSetUp_init hs
    rw [← i4]
    apply hem.quiet
    · rw [LgState.noneArmed, Bool.eq_false_iff]
      intro hall
      rw [List.all_eq_true] at hall
      obtain ⟨p, hp, ha⟩ := hsome
      have := hall p hp
      simp [ha] at this
    · intro x hx e he
      refine ⟨?_, ?_⟩
      · cases hc : x.code e with
        | none => rfl
        | some p =>
          obtain ⟨n, c⟩ := p
          exact absurd (code_iff.1 (List.mem_filterMap.2 ⟨x, hx, hc⟩)) (hf e he n c)
      · intro hv
        cases x with
        | testExit a =>
          cases e with
          | exit b n rc sd =>
            simp only [LgHandler.verdict] at hv
            split at hv
            · next hab =>
              subst hab
              simp only [Option.some.injEq, decide_eq_true_eq] at hv
              exact hf _ he n rc (.test (testExit_mem.1 hx) hv)
            · cases hv
          | _ => cases hv
        | testCompletion a =>
          cases e with
          | complete b fut =>
            simp only [LgHandler.verdict] at hv
            split at hv
            · next hab =>
              subst hab
              simp only [Option.some.injEq, decide_eq_true_eq] at hv
              subst hv
              exact hr a (testCompletion_mem.1 hx) he
            · cases hv
          | _ => cases hv
        | fixtureExit _ _ => cases e <;> cases hv
        | outputExit _ => cases e <;> cases hv
        | outputShutdown _ => cases e <;> cases hv
        | outputStdout _ => cases e <;> cases hv
    · intro x hx
      cases x with
      | outputStdout t =>
        rw [List.mem_reverse, List.mem_flatMap] at hx
        obtain ⟨y, hy, hm⟩ := hx
        cases y <;> simp [LgAdd.handlers] at hm
        subst hm
        exact hside _ _ _ hy
      | _ => rfl

/-- One of two tests is under way. -/
example : ∃ s, lgAfter [LgAdd.processTest (O := Nat) (P := Nat) (T := Nat) 0, .otherTest 1] [.exit 0 "a" 0 false] = .ok s ∧ s.emitted = 0 := by
  refine ⟨_, rfl, ?_⟩
  refine C92_not_early [.processTest 0, .otherTest 1] [.exit 0 "a" 0 false] _ rfl ⟨(⟨1, none⟩, .armed), by decide, rfl⟩ ?_ ?_ ?_
  · intro e he n c h
    rw [List.mem_singleton] at he
    subst he
    cases h with
    | test _ h => exact h rfl
    | fixture h _ => simp at h
  · intro a _ hm
    simp at hm
  · intro t o ps hm
    simp at hm

end Verif
