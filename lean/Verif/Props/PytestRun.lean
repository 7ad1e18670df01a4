import Verif.Model.PytestRun
import Verif.Props.Collect
import Verif.Props.TestLoad

/-! # C94: the tests of a launch_pytest fixture; C95: when launch_pytest starts them -/

namespace Verif

/-- Code for the running launch begins before anybody asks the launch to shut down; code for the time after its shutdown begins after the launch is over. -/
def StagesKept (log : List PyObs) : Prop :=
  ∀ l1 i st l2, log = l1 ++ .began i st :: l2 → (st = .active → .asked ∉ l1) ∧ (st = .after → ∃ rc, .ended rc ∈ l1)

theorem StagesKept.snoc {log : List PyObs} {o : PyObs} (h : StagesKept log)
    (ho : ∀ i st, o = .began i st → (st = .active → .asked ∉ log) ∧ (st = .after → ∃ rc, .ended rc ∈ log)) : StagesKept (log ++ [o]) := by
  intro l1 i st l2 he
  rcases List.eq_nil_or_concat l2 with rfl | ⟨l3, x, rfl⟩
  · have := List.append_inj' he rfl
    obtain ⟨h1, h2⟩ := this
    subst h1
    simp only [List.cons.injEq, and_true] at h2
    exact ho i st h2
  · rw [List.concat_eq_append, show l1 ++ PyObs.began i st :: (l3 ++ [x]) = (l1 ++ .began i st :: l3) ++ [x] by simp] at he
    have := List.append_inj' he rfl
    exact h l1 i st l3 this.1

/-- Is the launch over in this state? -/
def PySvc.isOver : PySvc → Bool
  | .running => false
  | .over _ => true

/-- The number of times the launch ended. -/
def endedCount (log : List PyObs) : Nat := log.countP fun o => match o with | .ended _ => true | _ => false

/-- What holds after any number of tests. -/
structure PyInv (env : PyEnv) (s : PyState) : Prop where
  kept : StagesKept s.log
  over : s.svc.isOver = true → ∃ rc, .ended rc ∈ s.log
  run : s.svc = .running → s.hung = false → .asked ∉ s.log
  once : endedCount s.log = if s.svc.isOver then 1 else 0
  gens : ∀ i ∈ s.gens, env.body i .active = .yields ∧ i ∈ s.wrapped
  began : ∀ i ∈ s.gens, .began i .active ∈ s.log
  rc : .asked ∈ s.log → ∀ rc, env.finish = some rc → rc ≠ 0 → ∃ x, (x, PyEnd.failed) ∈ s.reports

theorem pyInv_init (env : PyEnv) : PyInv env {} where
  kept := by intro l1 i st l2 h; simp at h
  over := by intro h; cases h
  run := by intro _ _; simp
  once := rfl
  gens := by intro i hi; simp at hi
  began := by intro i hi; simp at hi
  rc := by intro h; simp at h

theorem pyInv_begin {env : PyEnv} {s : PyState} (h : PyInv env s) (hh : s.hung = false) (i : Nat) (st : PyStage)
    (hst : (st = .active → .asked ∉ s.log) ∧ (st = .after → ∃ rc, .ended rc ∈ s.log)) :
    PyInv env (s.begin env i st) ∧ (s.begin env i st).hung = false ∧ (s.begin env i st).reports = s.reports ∧ (s.begin env i st).wrapped = s.wrapped ∧
      (s.begin env i st).gens = s.gens ∧ (.asked ∈ (s.begin env i st).log ↔ .asked ∈ s.log) ∧ .began i st ∈ (s.begin env i st).log ∧
      ∀ o ∈ s.log, o ∈ (s.begin env i st).log := by
  have h1 : StagesKept (s.log ++ [.began i st]) := h.kept.snoc (by intro i' st' he; cases he; exact hst)
  have plain : PyInv env { s with log := s.log ++ [.began i st] } :=
    { kept := h1
      over := by intro ho; obtain ⟨rc, hrc⟩ := h.over ho; exact ⟨rc, List.mem_append_left _ hrc⟩
      run := by
        intro hr hu hm
        rcases List.mem_append.1 hm with hm | hm
        · exact h.run hr hu hm
        · simp at hm
      once := by
        have := h.once
        simp only [endedCount, List.countP_append] at this ⊢
        simp [this]
      gens := h.gens
      began := fun j hj => List.mem_append_left _ (h.began j hj)
      rc := by
        intro hm rc hf hne
        rcases List.mem_append.1 hm with hm | hm
        · exact h.rc hm rc hf hne
        · simp at hm }
  have hplain : s.begin env i st = { s with log := s.log ++ [.began i st] } → PyInv env (s.begin env i st) ∧ (s.begin env i st).hung = false ∧
      (s.begin env i st).reports = s.reports ∧ (s.begin env i st).wrapped = s.wrapped ∧ (s.begin env i st).gens = s.gens ∧
      (.asked ∈ (s.begin env i st).log ↔ .asked ∈ s.log) ∧ .began i st ∈ (s.begin env i st).log ∧ ∀ o ∈ s.log, o ∈ (s.begin env i st).log := by
    intro he
    rw [he]
    exact ⟨plain, hh, rfl, rfl, rfl, by simp, by simp, fun o ho => List.mem_append_left _ ho⟩
  cases hs : s.svc with
  | over rc => exact hplain (by simp [PyState.begin, hs])
  | running =>
    cases he : env.ends i st with
    | none => exact hplain (by simp [PyState.begin, hs, he])
    | some rc =>
      have hb : s.begin env i st = { s with log := s.log ++ [.began i st, .ended rc], svc := .over rc } := by simp [PyState.begin, hs, he]
      rw [hb]
      refine ⟨?_, hh, rfl, rfl, rfl, by simp, by simp, fun o ho => List.mem_append_left _ ho⟩
      refine { kept := ?_, over := ?_, run := ?_, once := ?_, gens := h.gens, began := fun j hj => List.mem_append_left _ (h.began j hj), rc := ?_ }
      · have := h1.snoc (o := .ended rc) (by intro _ _ he; cases he)
        simpa using this
      · intro _; exact ⟨rc, by simp⟩
      · intro hr; cases hr
      · have h2 := h.once
        rw [hs] at h2
        simp only [endedCount, List.countP_append, PySvc.isOver] at h2 ⊢
        simp [h2]
      · intro hm rc' hf hne
        rcases List.mem_append.1 hm with hm | hm
        · exact h.rc hm rc' hf hne
        · simp at hm

theorem pyInv_report {env : PyEnv} {s : PyState} (h : PyInv env s) (x : PyItem) (e : PyEnd) : PyInv env (s.report x e) where
  kept := h.kept
  over := h.over
  run := h.run
  once := h.once
  gens := h.gens
  began := h.began
  rc := by
    intro hm rc hf hne
    obtain ⟨y, hy⟩ := h.rc hm rc hf hne
    exact ⟨y, List.mem_append_left _ hy⟩

theorem pyInv_hang {env : PyEnv} {s : PyState} (h : PyInv env s) : PyInv env { s with hung := true } where
  kept := h.kept
  over := h.over
  run := by intro _ hx; cases hx
  once := h.once
  gens := h.gens
  began := h.began
  rc := h.rc

/-- What `finalize` leads to. -/
theorem pyInv_finalize {env : PyEnv} {s : PyState} (h : PyInv env s) (hh : s.hung = false) :
    (s.finalize env).1.reports = s.reports ∧ (s.finalize env).1.wrapped = s.wrapped ∧ (s.finalize env).1.gens = s.gens ∧
      (∀ o ∈ s.log, o ∈ (s.finalize env).1.log) ∧
      (((s.finalize env).1.hung = true ∧ PyInv env (s.finalize env).1) ∨
       ((s.finalize env).1.hung = false ∧ (s.finalize env).1.svc.isOver = true ∧
         ((s.finalize env).2 = true ∧ PyInv env (s.finalize env).1 ∨ (s.finalize env).2 = false ∧ ∀ x, PyInv env ((s.finalize env).1.report x .failed)))) := by
  unfold PyState.finalize
  cases hs : s.svc with
  | over rc => exact ⟨rfl, rfl, rfl, fun _ h => h, .inr ⟨hh, by rw [hs]; rfl, .inl ⟨rfl, h⟩⟩⟩
  | running =>
    have hk : StagesKept (s.log ++ [.asked]) := h.kept.snoc (by intro _ _ he; cases he)
    cases hf : env.finish with
    | none =>
      refine ⟨rfl, rfl, rfl, fun o ho => List.mem_append_left _ ho, .inl ⟨rfl, ?_⟩⟩
      refine { kept := hk, over := ?_, run := ?_, once := ?_, gens := h.gens, began := fun j hj => List.mem_append_left _ (h.began j hj), rc := ?_ }
      · intro ho; cases ho
      · intro _ hx; cases hx
      · have h2 := h.once
        rw [hs] at h2
        simp only [endedCount, List.countP_append] at h2 ⊢
        simp [h2]
      · intro _ rc he; rw [hf] at he; cases he
    | some rc =>
      have hk2 : StagesKept (s.log ++ [.asked, .ended rc]) := by
        have := hk.snoc (o := .ended rc) (by intro _ _ he; cases he)
        simpa using this
      have hc : endedCount (s.log ++ [.asked, .ended rc]) = 1 := by
        have h2 := h.once
        rw [hs] at h2
        simp only [endedCount, List.countP_append, PySvc.isOver] at h2 ⊢
        simp [h2]
      refine ⟨rfl, rfl, rfl, fun o ho => List.mem_append_left _ ho, .inr ⟨hh, rfl, ?_⟩⟩
      by_cases h0 : rc = 0
      · refine .inl ⟨by simp [h0], ?_⟩
        refine { kept := hk2, over := fun _ => ⟨rc, by simp⟩, run := ?_, once := hc, gens := h.gens,
                 began := fun j hj => List.mem_append_left _ (h.began j hj), rc := ?_ }
        · intro hx; cases hx
        · intro _ rc' he hne
          rw [hf, Option.some.injEq] at he
          exact absurd (he.symm.trans h0) hne
      · refine .inr ⟨by simp [h0], ?_⟩
        intro x
        refine { kept := hk2, over := fun _ => ⟨rc, by simp [PyState.report]⟩, run := ?_, once := hc, gens := h.gens,
                 began := fun j hj => List.mem_append_left _ (h.began j hj), rc := ?_ }
        · intro hx; cases hx
        · intro _ rc' he hne
          exact ⟨x, by simp [PyState.report]⟩

/-- After this item the launch may have been asked to shut down. -/
def PyItem.asks (x : PyItem) : Bool := x.isShutdown || match x with | .both _ _ => true | _ => false

/-- The result of one item. -/
structure PyStep (env : PyEnv) (s s' : PyState) (x : PyItem) : Prop where
  inv : PyInv env s'
  asked : .asked ∈ s'.log → .asked ∈ s.log ∨ x.asks = true
  log : ∀ o ∈ s.log, o ∈ s'.log
  wrapped : ∀ i ∈ s.wrapped, i ∈ s'.wrapped
  gens : ∀ i ∈ s.gens, i ∈ s'.gens
  reports : s'.hung = true ∨ ∃ e, s'.reports = s.reports ++ [(x, e)]

theorem pyStep_after {env : PyEnv} {s : PyState} (h : PyInv env s) (hh : s.hung = false) (x : PyItem) (i : Nat) (ok : PyBody → Bool) (hx : x.asks = true) :
    PyStep env s (let r := s.finalize env
      if r.1.hung then r.1
      else if r.2 then (r.1.begin env i .after).report x (if ok (env.body i .after) then .passed else .failed)
      else r.1.report x .failed) x := by
  obtain ⟨f1, f2, f3, f4, f5⟩ := pyInv_finalize h hh
  generalize s.finalize env = r at f1 f2 f3 f4 f5
  rcases f5 with ⟨g1, g2⟩ | ⟨g1, g2, g3⟩
  · simp only [g1, if_true]
    exact ⟨g2, fun _ => .inr hx, f4, by rw [f2]; exact fun _ h => h, by rw [f3]; exact fun _ h => h, .inl g1⟩
  · simp only [g1, Bool.false_eq_true, if_false]
    rcases g3 with ⟨g3, g4⟩ | ⟨g3, g4⟩
    · simp only [g3, if_true]
      obtain ⟨b1, b2, b3, b4, b5, b6, b7, b8⟩ := pyInv_begin g4 g1 i .after ⟨(fun hc => nomatch hc), fun _ => g4.over g2⟩
      refine ⟨pyInv_report b1 _ _, fun _ => .inr hx, fun o ho => b8 o (f4 o ho), ?_, ?_, .inr ⟨if ok (env.body i .after) then .passed else .failed, ?_⟩⟩
      · intro j hj; rw [PyState.report, b4, f2]; exact hj
      · intro j hj; rw [PyState.report, b5, f3]; exact hj
      · rw [PyState.report, b3, f1]
    · simp only [g3, Bool.false_eq_true, if_false]
      refine ⟨g4 x, fun _ => .inr hx, f4, ?_, ?_, .inr ⟨.failed, ?_⟩⟩
      · intro j hj; rw [PyState.report, f2]; exact hj
      · intro j hj; rw [PyState.report, f3]; exact hj
      · rw [PyState.report, f1]

theorem pyStep_report {env : PyEnv} {s : PyState} (h : PyInv env s) (x : PyItem) (e : PyEnd) : PyStep env s (s.report x e) x :=
  ⟨pyInv_report h x e, fun h => .inl h, fun _ h => h, fun _ h => h, fun _ h => h, .inr ⟨e, rfl⟩⟩

theorem pyInv_wrapped {env : PyEnv} {s : PyState} (h : PyInv env s) (i : Nat) : PyInv env { s with wrapped := i :: s.wrapped } where
  kept := h.kept
  over := h.over
  run := h.run
  once := h.once
  gens := fun j hj => ⟨(h.gens j hj).1, List.mem_cons_of_mem _ (h.gens j hj).2⟩
  began := h.began
  rc := h.rc

theorem pyStep_call {env : PyEnv} {s : PyState} (h : PyInv env s) (hh : s.hung = false) (x : PyItem) (hx : .asked ∈ s.log → x.isShutdown = true) :
    PyStep env s (s.call env x) x := by
  have hact : x.isShutdown = false → (PyStage.active = .active → PyObs.asked ∉ s.log) ∧ (PyStage.active = .after → ∃ rc, PyObs.ended rc ∈ s.log) := by
    intro h0
    refine ⟨fun _ hm => ?_, fun hc => nomatch hc⟩
    rw [hx hm] at h0
    cases h0
  cases x with
  | wrong i => exact pyStep_report h _ _
  | test i sd =>
    cases sd with
    | false =>
      obtain ⟨b1, b2, b3, b4, b5, b6, b7, b8⟩ := pyInv_begin h hh i .active (hact rfl)
      refine ⟨pyInv_report b1 _ _, fun ha => .inl (b6.1 ha), b8, ?_, ?_, .inr ⟨if env.body i .active = .raises then .failed else .passed, ?_⟩⟩
      · intro j hj; simp only [PyState.call, PyState.report, b4]; exact hj
      · intro j hj; simp only [PyState.call, PyState.report, b5]; exact hj
      · simp only [PyState.call, PyState.report, b3]
    | true =>
      have := pyStep_after h hh (.test i true) i (fun b => decide (b ≠ .raises)) rfl
      simp only [PyState.call]
      have he : (if decide (env.body i .after ≠ .raises) = true then PyEnd.passed else .failed) = if env.body i .after = .raises then .failed else .passed := by
        by_cases hr : env.body i .after = .raises <;> simp [hr]
      rw [he] at this
      exact this
  | first i a =>
    obtain ⟨b1, b2, b3, b4, b5, b6, b7, b8⟩ := pyInv_begin (pyInv_wrapped h i) hh i .active (hact rfl)
    simp only [PyState.call]
    generalize ({ s with wrapped := i :: s.wrapped } : PyState).begin env i .active = s1 at b1 b2 b3 b4 b5 b6 b7 b8
    simp only at b3 b4 b5
    have hw : ∀ j ∈ s.wrapped, j ∈ s1.wrapped := by intro j hj; rw [b4]; exact List.mem_cons_of_mem _ hj
    have hg : ∀ j ∈ s.gens, j ∈ s1.gens := by intro j hj; rw [b5]; exact hj
    have hrep : ∀ e, PyStep env s (s1.report (.first i a) e) (.first i a) := fun e =>
      ⟨pyInv_report b1 _ _, fun ha => .inl (b6.1 ha), b8, hw, hg, .inr ⟨e, by simp only [PyState.report, b3]⟩⟩
    cases hb : env.body i .active with
    | raises => exact hrep _
    | returns =>
      simp only
      split
      · exact ⟨pyInv_hang b1, fun ha => .inl (b6.1 ha), b8, hw, hg, .inl rfl⟩
      · exact hrep _
    | yields =>
      refine ⟨?_, fun ha => .inl (b6.1 ha), b8, hw, fun j hj => List.mem_cons_of_mem _ (hg j hj), .inr ⟨.passed, by simp only [PyState.report, b3]⟩⟩
      refine pyInv_report (s := { s1 with gens := i :: s1.gens }) { b1 with gens := ?_, began := ?_ } _ _
      · intro j hj
        rcases List.mem_cons.1 hj with rfl | hj
        · exact ⟨hb, by simp [b4]⟩
        · exact b1.gens j hj
      · intro j hj
        rcases List.mem_cons.1 hj with rfl | hj
        · exact b7
        · exact b1.began j hj
  | second i =>
    simp only [PyState.call]
    split
    · exact pyStep_report h _ _
    · split
      · exact pyStep_report h _ _
      · have := pyStep_after h hh (.second i) i (fun b => decide (b = .returns)) rfl
        simp only [decide_eq_true_eq] at this
        exact this
  | both i a =>
    obtain ⟨b1, b2, b3, b4, b5, b6, b7, b8⟩ := pyInv_begin h hh i .active (hact rfl)
    simp only [PyState.call]
    generalize s.begin env i .active = s1 at b1 b2 b3 b4 b5 b6 b7 b8
    have hw : ∀ j ∈ s.wrapped, j ∈ s1.wrapped := by intro j hj; rw [b4]; exact hj
    have hg : ∀ j ∈ s.gens, j ∈ s1.gens := by intro j hj; rw [b5]; exact hj
    have hrep : ∀ e, PyStep env s (s1.report (.both i a) e) (.both i a) := fun e =>
      ⟨pyInv_report b1 _ _, fun ha => .inl (b6.1 ha), b8, hw, hg, .inr ⟨e, by simp only [PyState.report, b3]⟩⟩
    cases hb : env.body i .active with
    | raises => exact hrep _
    | returns =>
      simp only
      split
      · exact ⟨pyInv_hang b1, fun ha => .inl (b6.1 ha), b8, hw, hg, .inl rfl⟩
      · exact hrep _
    | yields =>
      have := pyStep_after b1 b2 (.both i a) i (fun b => decide (b = .returns)) rfl
      simp only [decide_eq_true_eq] at this
      simp only [PyState.rest]
      generalize hs2 : (if (s1.finalize env).1.hung = true then (s1.finalize env).1 else _) = s2 at this ⊢
      refine ⟨this.inv, fun _ => .inr rfl, fun o ho => this.log o (b8 o ho), fun j hj => this.wrapped j (hw j hj), fun j hj => this.gens j (hg j hj), ?_⟩
      rw [← b3]
      exact this.reports

theorem pyStep_item {env : PyEnv} {s : PyState} (h : PyInv env s) (x : PyItem) (hx : .asked ∈ s.log → x.isShutdown = true) :
    PyStep env s (s.item env x) x := by
  unfold PyState.item
  cases hh : s.hung with
  | true => simp only [if_true]; exact ⟨h, .inl, fun _ h => h, fun _ h => h, fun _ h => h, .inl hh⟩
  | false =>
    simp only [Bool.false_eq_true, if_false]
    split
    · exact pyStep_report h _ _
    · exact pyStep_call h hh x hx

/-- Several items. -/
structure PySteps (env : PyEnv) (s s' : PyState) (xs : List PyItem) : Prop where
  inv : PyInv env s'
  log : ∀ o ∈ s.log, o ∈ s'.log
  wrapped : ∀ i ∈ s.wrapped, i ∈ s'.wrapped
  gens : ∀ i ∈ s.gens, i ∈ s'.gens
  asked : .asked ∈ s'.log → .asked ∈ s.log ∨ ∃ x ∈ xs, x.asks = true
  reports : s'.hung = true ∨ ∃ es, s'.reports = s.reports ++ es ∧ es.map (·.1) = xs

theorem item_hung {env : PyEnv} {s : PyState} (hh : s.hung = true) (x : PyItem) : s.item env x = s := by simp [PyState.item, hh]

theorem items_hung {env : PyEnv} : ∀ (xs : List PyItem) {s : PyState}, s.hung = true → xs.foldl (PyState.item env) s = s
  | [], _, _ => rfl
  | x :: xs, s, hh => by rw [List.foldl_cons, item_hung hh]; exact items_hung xs hh

theorem pySteps {env : PyEnv} : ∀ (xs : List PyItem) {s : PyState}, PyInv env s → (.asked ∈ s.log → ∀ x ∈ xs, x.isShutdown = true) →
    xs.Pairwise (fun a b => a.asks = true → b.isShutdown = true) → PySteps env s (xs.foldl (PyState.item env) s) xs
  | [], s, h, _, _ => ⟨h, fun _ h => h, fun _ h => h, fun _ h => h, .inl, .inr ⟨[], by simp⟩⟩
  | x :: xs, s, h, h1, h2 => by
    rw [List.pairwise_cons] at h2
    have st := pyStep_item h x (fun ha => h1 ha x List.mem_cons_self)
    have ih := pySteps xs st.inv (by
      intro ha y hy
      rcases st.asked ha with ha | ha
      · exact h1 ha y (List.mem_cons_of_mem _ hy)
      · exact h2.1 y hy ha) h2.2
    rw [List.foldl_cons]
    refine ⟨ih.inv, fun o ho => ih.log o (st.log o ho), fun i hi => ih.wrapped i (st.wrapped i hi), fun i hi => ih.gens i (st.gens i hi), ?_, ?_⟩
    · intro ha
      rcases ih.asked ha with ha | ⟨y, hy, ha⟩
      · rcases st.asked ha with ha | ha
        · exact .inl ha
        · exact .inr ⟨x, List.mem_cons_self, ha⟩
      · exact .inr ⟨y, List.mem_cons_of_mem _ hy, ha⟩
    · rcases st.reports with hh | ⟨e, he⟩
      · rw [items_hung xs hh]
        exact .inl hh
      · rcases ih.reports with hh | ⟨es, hes, hm⟩
        · exact .inl hh
        · refine .inr ⟨(x, e) :: es, ?_, by simp [hm]⟩
          rw [hes, he]
          simp

/-- Tests for the running launch are before those for the time after its shutdown. -/
def PyOrdered (items : List PyItem) : Prop := items.Pairwise (fun a b => a.asks = true → b.isShutdown = true)

theorem perm_map_inv {α β : Type} (f : α → β) {l : List β} {m : List β} (h : l.Perm m) : ∀ {xs : List α}, m = xs.map f →
    ∃ ys : List α, l = ys.map f ∧ ys.Perm xs := by
  induction h with
  | nil => intro xs hx; exact ⟨xs, hx, .refl _⟩
  | cons x _ ih =>
    intro xs hx
    cases xs with
    | nil => simp at hx
    | cons y ys =>
      rw [List.map_cons, List.cons.injEq] at hx
      obtain ⟨zs, h1, h2⟩ := ih hx.2
      exact ⟨y :: zs, by rw [h1, hx.1]; rfl, h2.cons y⟩
  | swap x y l =>
    intro xs hx
    match xs, hx with
    | a :: b :: ys, hx =>
      simp only [List.map_cons, List.cons.injEq] at hx
      exact ⟨b :: a :: ys, by rw [hx.1, hx.2.1, hx.2.2]; rfl, .swap a b ys⟩
  | trans _ _ ih1 ih2 =>
    intro xs hx
    obtain ⟨ys, h1, h2⟩ := ih2 hx
    obtain ⟨zs, h3, h4⟩ := ih1 h1
    exact ⟨zs, h3, h4.trans h2⟩

/-- The test function is marked with `shutdown=True`, or the item is the part of it after `yield`. -/
def PyItem.Later : PyItem → Prop
  | .test _ sd => sd = true
  | .second _ => True
  | .wrong _ => True
  | _ => False

/-- The order in which the plugin puts the tests of a fixture whose scope is not 'function' is such an order: see C56; and what is marked with `shutdown=True` comes last. -/
theorem C94_order (fs : Nat → Bool) (f : Nat) (params : Option Nat) (hf : fs f = false) (items : List PyItem) (hb : ∀ i a, .both i a ∉ items) :
    ∃ sorted, modifyItems fs (items.map (·.collected f params)) = sorted.map (·.collected f params) ∧ sorted.Perm items ∧ PyOrdered sorted ∧
      sorted.Pairwise (fun a b => a.Later → b.Later) := by
  obtain ⟨sorted, h1, h2⟩ := perm_map_inv (PyItem.collected f params) (C56_same_tests fs (items.map (·.collected f params))) rfl
  refine ⟨sorted, h1, h2, ?_⟩
  have h3 := C56_shutdown_last fs (items.map (·.collected f params))
  rw [h1, List.pairwise_map] at h3
  have hb' : ∀ i a, .both i a ∉ sorted := fun i a hm => hb i a (h2.mem_iff.1 hm)
  refine ⟨h3.imp_of_mem ?_, h3.imp ?_⟩
  rotate_left
  · intro a b hn hla
    have hiff : ∀ x : PyItem, x.Later ↔ x.isShutdown = true := by
      intro x; cases x <;> simp [PyItem.Later, PyItem.isShutdown]
    rw [hiff] at hla ⊢
    cases hbs : b.isShutdown with
    | true => rfl
    | false => exact absurd ⟨hla, hbs, ⟨f, rfl, rfl, hf, rfl⟩⟩ hn
  intro a b ha hb hn has
  have hsd : a.isShutdown = true := by
    cases a with
    | both i x => exact absurd ha (hb' i x)
    | _ => simpa [PyItem.asks] using has
  cases hbs : b.isShutdown with
  | true => rfl
  | false => exact absurd ⟨hsd, hbs, ⟨f, rfl, rfl, hf, rfl⟩⟩ hn

/-- The shutdown part of the first test goes to the end. -/
example : ∃ sorted, modifyItems (fun _ => false) ([PyItem.first 0 false, .second 0, .test 1 false].map (·.collected 5 none)) =
    sorted.map (·.collected 5 none) ∧ sorted.Perm [PyItem.first 0 false, .second 0, .test 1 false] ∧ PyOrdered sorted ∧
    sorted.Pairwise (fun a b => a.Later → b.Later) :=
  C94_order _ 5 none rfl _ (by simp)

theorem pyRun_ready {env : PyEnv} (hr : env.ready = true) (items : List PyItem) :
    pyRun env items = if (items.foldl (PyState.item env) {}).hung then (items.foldl (PyState.item env) {}, true) else (items.foldl (PyState.item env) {}).finalize env := by
  simp [pyRun, hr]

/-- Tests for the running launch begin before it is asked to shut down; tests and parts of tests for the time after shutdown begin after it is over. -/
theorem C94_stages (env : PyEnv) (items : List PyItem) (ho : PyOrdered items) (l1 l2 : List PyObs) (i : Nat) (st : PyStage)
    (h : (pyRun env items).1.log = l1 ++ .began i st :: l2) : (st = .active → .asked ∉ l1) ∧ (st = .after → ∃ rc, .ended rc ∈ l1) := by
  cases hr : env.ready with
  | false => simp [pyRun, hr] at h
  | true =>
    rw [pyRun_ready hr] at h
    have st := pySteps items (pyInv_init env) (by simp) ho
    generalize items.foldl (PyState.item env) {} = s at h st
    cases hh : s.hung with
    | true =>
      simp only [hh, if_true] at h
      exact st.inv.kept _ _ _ _ h
    | false =>
      simp only [hh, Bool.false_eq_true, if_false] at h
      obtain ⟨_, _, _, _, f5⟩ := pyInv_finalize st.inv hh
      rcases f5 with ⟨_, g⟩ | ⟨_, _, g⟩
      · exact g.kept _ _ _ _ h
      · rcases g with ⟨_, g⟩ | ⟨_, g⟩
        · exact g.kept _ _ _ _ h
        · exact (g (.wrong 0)).kept _ _ _ _ h

/-- Tests that do what is expected of them and a launch that ends with 0. -/
def pyFine : PyEnv :=
  { ready := true, body := fun i st => if i = 0 ∧ st = .active then .yields else .returns, ends := fun _ _ => none, finish := some 0,
    setupFails := fun _ => false, old := true }

/-- A generator, a test and a shutdown test. -/
example : (pyRun pyFine [.first 0 false, .test 1 false, .second 0, .test 2 true]).1.log =
    [.began 0 .active, .began 1 .active, .asked, .ended 0, .began 0 .after, .began 2 .after] := by decide +kernel

example : PyOrdered [.first 0 false, .test 1 false, .second 0, .test 2 true] := by simp [PyOrdered, PyItem.asks, PyItem.isShutdown]

/-- A generator with a fixture of scope 'function'. -/
example : PyOrdered [.both 0 true] ∧ (pyRun pyFine [.both 0 true]).1.log = [.began 0 .active, .asked, .ended 0, .began 0 .after] := by
  constructor
  · simp [PyOrdered]
  · decide +kernel

/-- Unless the run hangs, every test is reported once and in this order, and the launch is over afterwards, having ended once. -/
theorem C94_all_reported (env : PyEnv) (items : List PyItem) (ho : PyOrdered items) (hh : (pyRun env items).1.hung = false) :
    (pyRun env items).1.reports.map (·.1) = items ∧ ∃ rc, (pyRun env items).1.svc = .over rc ∧
      (pyRun env items).1.log.countP (fun o => match o with | .ended _ => true | _ => false) = 1 := by
  cases hr : env.ready with
  | false => simp [pyRun, hr] at hh
  | true =>
    rw [pyRun_ready hr] at hh ⊢
    have st := pySteps items (pyInv_init env) (by simp) ho
    generalize items.foldl (PyState.item env) {} = s at hh st
    cases hu : s.hung with
    | true => simp only [hu, if_true] at hh; cases hh
    | false =>
      simp only [hu, Bool.false_eq_true, if_false] at hh ⊢
      obtain ⟨f1, _, _, _, f5⟩ := pyInv_finalize st.inv hu
      rcases st.reports with hx | ⟨es, hes, hm⟩
      · rw [hu] at hx; cases hx
      rw [f1, hes]
      refine ⟨by simpa using hm, ?_⟩
      rcases f5 with ⟨g, _⟩ | ⟨_, g1, g⟩
      · rw [hh] at g; cases g
      · have hov : ∃ rc, (s.finalize env).1.svc = .over rc := by
          cases hsv : (s.finalize env).1.svc with
          | running => rw [hsv] at g1; cases g1
          | over rc => exact ⟨rc, rfl⟩
        obtain ⟨rc, hov⟩ := hov
        refine ⟨rc, hov, ?_⟩
        rcases g with ⟨_, g⟩ | ⟨_, g⟩
        · have := g.once
          rw [g1] at this
          exact this
        · have := (g (.wrong 0)).once
          simp only [PyState.report, g1] at this
          exact this

example : (pyRun pyFine [.first 0 false, .test 1 false, .second 0, .test 2 true]).1.hung = false := by decide +kernel

theorem pairwise_mid {a b : List PyItem} {x : PyItem} (h : PyOrdered (a ++ x :: b)) : PyOrdered a ∧ (∀ y ∈ a, y.asks = true → x.isShutdown = true) ∧
    PyOrdered b := by
  unfold PyOrdered at *
  rw [List.pairwise_append, List.pairwise_cons] at h
  exact ⟨h.1, fun y hy => h.2.2 y hy x List.mem_cons_self, h.2.1.2⟩

theorem finalize_hung {env : PyEnv} {s : PyState} (h : (s.finalize env).1.hung = false) : s.hung = false := by
  unfold PyState.finalize at h
  cases hs : s.svc with
  | over rc => simpa [hs] using h
  | running =>
    cases hf : env.finish with
    | none => simp [hs, hf] at h
    | some rc => simpa [hs, hf] using h

/-- The part of a test after `yield`: if the part before it did yield and the launch ends without an error, it is reported as passed exactly if it returns; if
the part before it did not yield, it is reported as skipped.  Missing: tests whose other fixtures cannot be set up (`C94_setup_failed_violated`). -/
theorem C94_second_part_partial (env : PyEnv) (a b c : List PyItem) (i : Nat) (as : Bool)
    (ho : PyOrdered (a ++ .first i as :: (b ++ .second i :: c))) (hn : (a ++ .first i as :: (b ++ .second i :: c)).Nodup)
    (hh : (pyRun env (a ++ .first i as :: (b ++ .second i :: c))).1.hung = false)
    (h1 : env.setupFails (.first i as) = false) (h2 : env.setupFails (.second i) = false) (hf : env.finish = some 0) (e : PyEnd) :
    (.second i, e) ∈ (pyRun env (a ++ .first i as :: (b ++ .second i :: c))).1.reports ↔
      e = if env.body i .active = .yields then if env.body i .after = .returns then .passed else .failed else .skipped := by
  have hrep := C94_all_reported env _ ho hh
  have key : (.second i, if env.body i .active = .yields then if env.body i .after = .returns then PyEnd.passed else .failed else .skipped) ∈
      (pyRun env (a ++ .first i as :: (b ++ .second i :: c))).1.reports := by
    cases hr : env.ready with
    | false => simp [pyRun, hr] at hh
    | true =>
      rw [pyRun_ready hr] at hh ⊢
      obtain ⟨o1, o2, o3⟩ := pairwise_mid ho
      have s1 := pySteps a (pyInv_init env) (by simp) o1
      rw [List.foldl_append, List.foldl_cons, List.foldl_append, List.foldl_cons] at hh ⊢
      generalize a.foldl (PyState.item env) {} = t1 at s1 hh
      obtain ⟨o4, o5, o6⟩ := pairwise_mid o3
      -- nothing hangs
      have hu : (c.foldl (PyState.item env) ((b.foldl (PyState.item env) (t1.item env (.first i as))).item env (.second i))).hung = false := by
        generalize c.foldl (PyState.item env) ((b.foldl (PyState.item env) (t1.item env (.first i as))).item env (.second i)) = z at hh
        cases hz : z.hung with
        | false => rfl
        | true => simp [hz] at hh
      have hu4 : ((b.foldl (PyState.item env) (t1.item env (.first i as))).item env (.second i)).hung = false := by
        cases hz : ((b.foldl (PyState.item env) (t1.item env (.first i as))).item env (.second i)).hung with
        | false => rfl
        | true => rw [items_hung c hz] at hu; rw [hu] at hz; cases hz
      have hu3 : (b.foldl (PyState.item env) (t1.item env (.first i as))).hung = false := by
        cases hz : (b.foldl (PyState.item env) (t1.item env (.first i as))).hung with
        | false => rfl
        | true => rw [item_hung hz] at hu4; rw [hu4] at hz; cases hz
      have hu2 : (t1.item env (.first i as)).hung = false := by
        cases hz : (t1.item env (.first i as)).hung with
        | false => rfl
        | true => rw [items_hung b hz] at hu3; rw [hu3] at hz; cases hz
      have hu1 : t1.hung = false := by
        cases hz : t1.hung with
        | false => rfl
        | true => rw [item_hung hz] at hu2; rw [hu2] at hz; cases hz
      have hna : .asked ∉ t1.log := by
        intro hm
        rcases s1.asked hm with hm | ⟨y, hy, hya⟩
        · simp at hm
        · exact absurd (o2 y hy hya) (by simp [PyItem.isShutdown])
      -- the first part
      have st2 := pyStep_item s1.inv (.first i as) (fun hm => absurd hm hna)
      have w2 : i ∈ (t1.item env (.first i as)).wrapped ∧ (env.body i .active = .yields → i ∈ (t1.item env (.first i as)).gens) := by
        simp only [PyState.item, hu1, Bool.false_eq_true, if_false, h1, PyState.call]
        obtain ⟨b1, b2, b3, b4, b5, b6, b7, b8⟩ := pyInv_begin (pyInv_wrapped s1.inv i) hu1 i .active ⟨fun _ => hna, by intro hc; cases hc⟩
        simp only [hu1] at b4 b5
        cases hb : env.body i .active with
        | yields => simp [PyState.report, b4]
        | raises => simp [PyState.report, b4]
        | returns => simp only; split <;> simp [PyState.report, b4]
      have s3 := pySteps b st2.inv (by
        intro hm
        rcases st2.asked hm with hm | hm
        · exact absurd hm hna
        · simp [PyItem.asks, PyItem.isShutdown] at hm) o4
      have w3 : i ∈ (b.foldl (PyState.item env) (t1.item env (.first i as))).wrapped := s3.wrapped i w2.1
      have g3 : i ∈ (b.foldl (PyState.item env) (t1.item env (.first i as))).gens ↔ env.body i .active = .yields :=
        ⟨fun h => (s3.inv.gens i h).1, fun h => s3.gens i (w2.2 h)⟩
      have i3 := s3.inv
      generalize b.foldl (PyState.item env) (t1.item env (.first i as)) = t3 at hu3 w3 g3 i3 hu4 hu hh
      have st4 := pyStep_item i3 (.second i) (fun _ => rfl)
      -- the second part
      have r4 : (t3.item env (.second i)).reports = t3.reports ++
          [(.second i, if env.body i .active = .yields then if env.body i .after = .returns then PyEnd.passed else .failed else .skipped)] := by
        have hw : t3.wrapped.contains i = true := by rw [List.contains_iff_mem]; exact w3
        simp only [PyState.item, hu3, Bool.false_eq_true, if_false, h2, PyState.call, hw, Bool.not_true]
        by_cases hy : env.body i .active = .yields
        · have hg : t3.gens.contains i = true := by rw [List.contains_iff_mem]; exact g3.2 hy
          simp only [hg, Bool.not_true, Bool.false_eq_true, if_false, PyState.rest, hy, if_true]
          obtain ⟨f1, _, _, _, f5⟩ := pyInv_finalize i3 hu3
          have hok : (t3.finalize env).2 = true := by
            unfold PyState.finalize
            cases t3.svc with
            | over _ => rfl
            | running => simp [hf]
          have hnh : (t3.finalize env).1.hung = false := by
            unfold PyState.finalize
            cases t3.svc with
            | over _ => exact hu3
            | running => simp [hf, hu3]
          rcases f5 with ⟨g, _⟩ | ⟨g, gov, g'⟩
          · rw [hnh] at g; cases g
          rcases g' with ⟨_, g'⟩ | ⟨g', _⟩
          · obtain ⟨b1, b2, b3, _⟩ := pyInv_begin g' g i .after ⟨(fun hc => nomatch hc), fun _ => g'.over gov⟩
            simp only [hnh, Bool.false_eq_true, if_false, hok, if_true, PyState.report, b3, f1]
          · rw [hok] at g'; cases g'
        · have hg : t3.gens.contains i = false := by
            rw [Bool.eq_false_iff, ne_eq, List.contains_iff_mem]
            exact fun h => hy (g3.1 h)
          simp only [hg, Bool.not_false, if_true, PyState.report, hy, if_false]
      have s5 := pySteps c st4.inv (by
        intro _ x hx
        unfold PyOrdered at ho
        rw [List.pairwise_append, List.pairwise_cons, List.pairwise_append, List.pairwise_cons] at ho
        exact ho.2.1.2.2.1.1 x hx rfl) o6
      rcases s5.reports with hz | ⟨es, hes, _⟩
      · rw [hu] at hz; cases hz
      · rw [hu]
        simp only [Bool.false_eq_true, if_false]
        obtain ⟨f1, _⟩ := pyInv_finalize s5.inv hu
        rw [f1, hes, r4]
        simp
  constructor
  · intro hm
    -- the item is reported once
    have hnd : ((pyRun env (a ++ .first i as :: (b ++ .second i :: c))).1.reports.map (·.1)).Nodup := by rw [hrep.1]; exact hn
    generalize (pyRun env (a ++ .first i as :: (b ++ .second i :: c))).1.reports = l at hm key hnd
    clear hrep hh
    induction l with
    | nil => cases hm
    | cons p l ih =>
      rw [List.map_cons, List.nodup_cons] at hnd
      rcases List.mem_cons.1 hm with hm | hm <;> rcases List.mem_cons.1 key with hk | hk
      · rw [← hm] at hk
        exact (Prod.mk.inj hk).2.symm
      · exact absurd (List.mem_map.2 ⟨_, hk, by rw [← hm]⟩) hnd.1
      · exact absurd (List.mem_map.2 ⟨_, hm, by rw [← hk]⟩) hnd.1
      · exact ih hm hk hnd.2
  · rintro rfl
    exact key

/-- With a generator that yields once. -/
example : (.second 0, .passed) ∈ (pyRun pyFine ([] ++ .first 0 false :: ([.test 1 false] ++ .second 0 :: [.test 2 true]))).1.reports := by
  rw [C94_second_part_partial pyFine [] [.test 1 false] [.test 2 true] 0 false (by simp [PyOrdered, PyItem.asks, PyItem.isShutdown]) (by simp) (by decide +kernel)
    rfl rfl rfl]
  decide

/-- If the plugin asks the launch to shut down and it then returns an error, a test or the end of the fixture fails.  Missing: launches that end by themselves
with an error (`C94_launch_failed_violated`). -/
theorem C94_launch_failed_partial (env : PyEnv) (items : List PyItem) (ho : PyOrdered items) (rc : Int) (hf : env.finish = some rc) (h0 : rc ≠ 0)
    (hh : (pyRun env items).1.hung = false) (ha : .asked ∈ (pyRun env items).1.log) :
    (pyRun env items).2 = false ∨ ∃ x, (x, PyEnd.failed) ∈ (pyRun env items).1.reports := by
  cases hr : env.ready with
  | false => simp [pyRun, hr] at hh
  | true =>
    rw [pyRun_ready hr] at hh ha ⊢
    have st := pySteps items (pyInv_init env) (by simp) ho
    generalize items.foldl (PyState.item env) {} = s at hh st ha
    cases hu : s.hung with
    | true => simp only [hu, if_true] at hh; cases hh
    | false =>
      simp only [hu, Bool.false_eq_true, if_false] at hh ha ⊢
      obtain ⟨f1, _, _, _, f5⟩ := pyInv_finalize st.inv hu
      rcases f5 with ⟨g, _⟩ | ⟨_, g1, g⟩
      · rw [hh] at g; cases g
      · rcases g with ⟨_, g⟩ | ⟨g, _⟩
        · exact .inr (g.rc ha rc hf h0)
        · exact .inl g

/-- The launch returns 1: the first of two shutdown tests fails. -/
example : (pyRun { pyFine with finish := some 1 } [.test 1 false, .test 2 true, .test 3 true]).1.reports =
    [(.test 1 false, .passed), (.test 2 true, .failed), (.test 3 true, .passed)] := by decide +kernel

/-- If the launch ends by itself with an error while a test runs, no test fails because of it. -/
theorem C94_launch_failed_violated (env : PyEnv) (i : Nat) (rc : Int) (hr : env.ready = true) (hb : env.body i .active = .returns)
    (he : env.ends i .active = some rc) (hs : env.setupFails (.test i false) = false) :
    pyRun env [.test i false] = ({ svc := .over rc, log := [.began i .active, .ended rc], reports := [(.test i false, .passed)] }, true) := by
  simp [pyRun, hr, PyState.item, hs, PyState.call, PyState.begin, he, hb, PyState.report, PyState.finalize]

/-- The launch ends with 1 while the test runs. -/
example : (pyRun { pyFine with ends := fun _ _ => some 1 } [.test 1 false]).2 = true := by
  rw [C94_launch_failed_violated _ 1 1 rfl rfl rfl rfl]

/-- If another fixture of a generator test cannot be set up, its second part is reported as failed, not as skipped; the same if it is run alone. -/
theorem C94_setup_failed_violated (env : PyEnv) (i : Nat) (a : Bool) (hr : env.ready = true) (h1 : env.setupFails (.first i a) = true)
    (h2 : env.setupFails (.second i) = false) :
    (pyRun env [.first i a, .second i]).1.reports = [(.first i a, .error), (.second i, .failed)] ∧
      (pyRun env [.second i]).1.reports = [(.second i, .failed)] := by
  constructor
  · simp only [pyRun, hr, if_true, List.foldl_cons, List.foldl_nil, PyState.item, h1, h2, Bool.false_eq_true, if_false, PyState.call, PyState.report,
      List.contains_nil, Bool.not_false, List.nil_append]
    unfold PyState.finalize
    cases env.finish <;> rfl
  · simp only [pyRun, hr, if_true, List.foldl_cons, List.foldl_nil, PyState.item, h2, Bool.false_eq_true, if_false, PyState.call, PyState.report,
      List.contains_nil, Bool.not_false, List.nil_append]
    unfold PyState.finalize
    cases env.finish <;> rfl

/-- The fixtures of the first part fail. -/
example : (pyRun { pyFine with setupFails := fun x => x = .first 0 false } [.first 0 false, .second 0]).1.reports =
    [(.first 0 false, .error), (.second 0, .failed)] := (C94_setup_failed_violated _ 0 false rfl rfl rfl).1

/-- A generator function that does not yield makes the run hang (before Python 3.12). -/
theorem C94_no_yield_violated (env : PyEnv) (i : Nat) (items : List PyItem) (hr : env.ready = true) (h : env.old = true) (h1 : env.setupFails (.first i false) = false)
    (hb : env.body i .active = .returns) : (pyRun env (.first i false :: items)).1.hung = true ∧ (pyRun env (.first i false :: items)).1.reports = [] := by
  have hx : (PyState.item env {} (.first i false)).hung = true ∧ (PyState.item env {} (.first i false)).reports = [] := by
    simp only [PyState.item, h1, PyState.call, hb, h, Bool.not_false, Bool.and_self, if_true, Bool.false_eq_true, if_false, true_and, PyState.begin]
    split <;> rfl
  rw [pyRun_ready hr, List.foldl_cons, items_hung items hx.1, hx.1]
  exact ⟨hx.1, hx.2⟩

example : (pyRun { pyFine with body := fun _ _ => .returns } [.first 0 false, .test 1 false]).1.hung = true :=
  (C94_no_yield_violated _ 0 [.test 1 false] rfl rfl rfl rfl).1

/-! ## C95: the start of the tests -/

/-- Does the launch set the event that the fixture waits for?  `holds` tells which conditions hold and which events come. -/
def pyStarts (holds : Nat → Bool) (ents : List TestEntity) (fresh : Nat) : Res Bool :=
  match pyReady ents fresh with
  | .ok (id, ents) => .ok ((TestEntity.executedAll holds ents).contains id)
  | .error e => .error e

theorem executedAll_append (holds : Nat → Bool) : ∀ (a b : List TestEntity),
    TestEntity.executedAll holds (a ++ b) = TestEntity.executedAll holds a ++ TestEntity.executedAll holds b
  | [], _ => rfl
  | x :: a, b => by rw [List.cons_append, TestEntity.executedAll, TestEntity.executedAll, executedAll_append holds a b, List.append_assoc]

/-- Without a ReadyToTest action in the description, the tests are started in any case. -/
theorem C95_default (holds : Nat → Bool) (ents : List TestEntity) (fresh : Nat) (h : ∀ id, ¬ TestEntity.ShowsIn ents id) :
    pyStarts holds ents fresh = .ok true := by
  have : TestEntity.readiesAll ents = [] := by
    rw [List.eq_nil_iff_forall_not_mem]
    intro id hm
    exact h id ((mem_readiesAll ents id).1 hm)
  simp [pyStarts, pyReady, this, executedAll_append, TestEntity.executedAll, TestEntity.executed]

/-- With one ReadyToTest action, they are started exactly if it is executed.  (It is in the description once: a list of two equal objects counts as two.) -/
theorem C95_one_partial (holds : Nat → Bool) (ents : List TestEntity) (fresh id : Nat) (h : TestEntity.readiesAll ents = [id]) :
    pyStarts holds ents fresh = .ok (decide (id ∈ TestEntity.executedAll holds ents)) := by
  simp [pyStarts, pyReady, h, List.contains_eq_mem]

/-- A ReadyToTest action that is executed on an event. -/
example : ∀ holds, pyStarts holds [.node none [], .node (some 3) [.node none [.ready 7]]] 9 = .ok (holds 3) := by
  intro holds
  rw [C95_one_partial holds _ 9 7 rfl]
  cases h : holds 3 <;> simp [TestEntity.executedAll, TestEntity.executed, h]

/-- Alternatives with a ReadyToTest action each are rejected. -/
theorem C95_alternatives_violated (holds : Nat → Bool) (hc : holds 1 = !holds 0) (fresh : Nat) :
    let ents := [TestEntity.node (some 0) [.ready 0], .node (some 1) [.ready 1]]
    TestEntity.executedAll holds ents ≠ [] ∧ pyStarts holds ents fresh = .error .runtimeError := by
  cases h : holds 0 <;>
    simp [TestEntity.executedAll, TestEntity.executed, pyStarts, pyReady, TestEntity.readiesAll, TestEntity.readies, hc, h]

/-- If the ReadyToTest action is not executed, the run hangs without reporting any test, even if the launch is over. -/
theorem C95_not_executed_violated (env : PyEnv) (items : List PyItem) (holds : Nat → Bool) (ents : List TestEntity) (fresh : Nat)
    (hs : pyStarts holds ents fresh = .ok env.ready) (hn : ∀ id, TestEntity.ShowsIn ents id → id ∉ TestEntity.executedAll holds ents)
    (h1 : ∃ id, TestEntity.ShowsIn ents id) : (pyRun env items).1.hung = true ∧ (pyRun env items).1.reports = [] := by
  obtain ⟨id, h1⟩ := h1
  have hr : env.ready = false := by
    have hm := (mem_readiesAll ents id).2 h1
    unfold pyStarts pyReady at hs
    split at hs
    · next hx =>
      split at hx
      · next hx' => rw [hx'] at hm; cases hm
      · next j hx' =>
        rw [hx', List.mem_singleton] at hm
        subst hm
        cases hx
        rw [Except.ok.injEq] at hs
        rw [← hs, Bool.eq_false_iff, ne_eq, List.contains_iff_mem]
        exact hn id h1
      · cases hx
    · cases hs
  simp [pyRun, hr]

/-- A ReadyToTest action whose condition does not hold. -/
example (items : List PyItem) : (pyRun { pyFine with ready := false } items).1.hung = true :=
  (C95_not_executed_violated _ items (fun _ => false) [.node (some 0) [.ready 7]] 9 rfl
    (by intro id h; simp [TestEntity.executedAll, TestEntity.executed]) ⟨7, .here (.node (.here .ready))⟩).1

end Verif
