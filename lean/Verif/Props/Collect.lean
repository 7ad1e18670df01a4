import Verif.Model.Collect

/-! # C56 launch_pytest runs shutdown tests after normal tests of their fixture -/

namespace Verif

/-- Two tests use the same running launch fixture: the same fixture function with the same parameters, not created anew for each test. -/
def Shares (fs : Nat → Bool) (l r : TestItem) : Prop :=
  ∃ f, l.mark = some (some f) ∧ r.mark = some (some f) ∧ fs f = false ∧ l.params = r.params

/-- A shutdown test and a normal test that must come before it. -/
def TooEarly (fs : Nat → Bool) (s n : TestItem) : Prop := s.shutdown = true ∧ n.shutdown = false ∧ Shares fs s n

theorem sameFixture_iff (fs : Nat → Bool) (l r : TestItem) : sameFixture fs l r = true ↔ Shares fs l r := by
  unfold sameFixture Shares TestItem.fixture
  cases hl : l.mark with
  | none => simp
  | some f =>
    cases f with
    | none => simp
    | some f =>
      cases hr : r.mark with
      | none => simp
      | some g =>
        cases g with
        | none => simp
        | some g =>
          by_cases hfg : f = g
          · subst hfg
            cases hs : fs f <;> simp [hs]
          · have hgf : ¬ g = f := fun h => hfg h.symm
            simp [hfg, hgf]

theorem Shares.symm {fs : Nat → Bool} {l r : TestItem} : Shares fs l r → Shares fs r l := by
  rintro ⟨f, h1, h2, h3, h4⟩; exact ⟨f, h2, h1, h3, h4.symm⟩

theorem Shares.trans {fs : Nat → Bool} {a b c : TestItem} : Shares fs a b → Shares fs b c → Shares fs a c := by
  rintro ⟨f, h1, h2, h3, h4⟩ ⟨g, g1, g2, g3, g4⟩
  rw [h2] at g1
  simp only [Option.some.injEq] at g1
  subst g1
  exact ⟨f, h1, g2, h3, h4.trans g4⟩

/-- The test of the inner loop. -/
def late (fs : Nat → Bool) (x y : TestItem) : Bool := sameFixture fs x y && x.shutdown && !y.shutdown

theorem late_iff {fs : Nat → Bool} {x y : TestItem} : late fs x y = true ↔ TooEarly fs x y := by
  unfold late TooEarly
  rw [Bool.and_eq_true, Bool.and_eq_true, sameFixture_iff]
  simp only [Bool.not_eq_true']
  exact ⟨fun ⟨⟨a, b⟩, c⟩ => ⟨b, c, a⟩, fun ⟨b, c, a⟩ => ⟨⟨a, b⟩, c⟩⟩

theorem newPosition_none {fs : Nat → Bool} {x : TestItem} : ∀ {ys : List TestItem} {j : Nat} {pos : Option Nat}, (∀ y ∈ ys, ¬ late fs x y = true) →
    newPosition fs x ys j pos = pos
  | [], _, _, _ => rfl
  | y :: ys, j, pos, h => by
    have h0 : late fs x y = false := by simpa using h y List.mem_cons_self
    unfold late at h0
    simp only [newPosition, h0, Bool.false_eq_true, if_false]
    exact newPosition_none (fun z hz => h z (List.mem_cons_of_mem _ hz))

theorem newPosition_some {fs : Nat → Bool} {x z : TestItem} : ∀ {a b : List TestItem} {j : Nat} {pos : Option Nat}, late fs x z = true →
    (∀ y ∈ b, ¬ late fs x y = true) → newPosition fs x (a ++ z :: b) j pos = some (j + a.length)
  | [], b, j, pos, hz, hb => by
    unfold late at hz
    simp only [List.nil_append, newPosition, hz, if_true, List.length_nil, Nat.add_zero]
    exact newPosition_none hb
  | y :: a, b, j, pos, hz, hb => by
    simp only [List.cons_append, newPosition, List.length_cons]
    rw [newPosition_some hz hb]
    congr 1
    omega

/-- The last item that satisfies a test. -/
theorem last_split (p : TestItem → Bool) : ∀ (l : List TestItem), (∀ y ∈ l, ¬ p y = true) ∨ ∃ a z b, l = a ++ z :: b ∧ p z = true ∧ ∀ y ∈ b, ¬ p y = true
  | [] => .inl (by simp)
  | y :: l => by
    rcases last_split p l with h | ⟨a, z, b, rfl, h1, h2⟩
    · cases hy : p y with
      | true => exact .inr ⟨[], y, l, rfl, hy, h⟩
      | false => exact .inl (by intro w hw; rcases List.mem_cons.1 hw with rfl | hw; simp [hy]; exact h w hw)
    · exact .inr ⟨y :: a, z, b, rfl, h1, h2⟩

/-- The effect of one step on the tests from its position on. -/
inductive Placed1 (fs : Nat → Bool) (x : TestItem) (ys : List TestItem) : List TestItem → Prop
  | stays (h : ∀ y ∈ ys, ¬ TooEarly fs x y) : Placed1 fs x ys (x :: ys)
  | moves {a b : List TestItem} {z : TestItem} (he : ys = a ++ z :: b) (hz : TooEarly fs x z) (hb : ∀ y ∈ b, ¬ TooEarly fs x y) :
      Placed1 fs x ys (a ++ z :: x :: b)

theorem moveItem_placed (fs : Nat → Bool) (x : TestItem) (pre ys : List TestItem) :
    ∃ r, moveItem fs (pre ++ x :: ys) (x, pre.length) = pre ++ r ∧ Placed1 fs x ys r := by
  unfold moveItem
  have hdrop : (pre ++ x :: ys).drop (pre.length + 1) = ys := by
    rw [show pre ++ x :: ys = (pre ++ [x]) ++ ys by simp, show pre.length + 1 = (pre ++ [x]).length by simp, List.drop_left]
  by_cases hl : x.isLaunch = true
  · simp only [hl, Bool.not_true, Bool.false_eq_true, if_false]
    rw [hdrop]
    rcases last_split (late fs x) ys with h | ⟨a, z, b, rfl, h1, h2⟩
    · rw [newPosition_none h]
      exact ⟨x :: ys, rfl, .stays (fun y hy ht => h y hy (late_iff.2 ht))⟩
    · rw [newPosition_some h1 h2]
      refine ⟨a ++ z :: x :: b, ?_, .moves rfl (late_iff.1 h1) (fun y hy ht => h2 y hy (late_iff.2 ht))⟩
      simp only [insertAt]
      have he : (pre ++ x :: (a ++ z :: b)).eraseIdx pre.length = pre ++ (a ++ z :: b) := by
        rw [List.eraseIdx_append_of_length_le (Nat.le_refl _)]
        simp
      rw [he]
      have e1 : pre ++ (a ++ z :: b) = (pre ++ (a ++ [z])) ++ b := by simp
      have e2 : pre.length + 1 + a.length = (pre ++ (a ++ [z])).length := by simp; omega
      rw [e1, e2, List.take_left, List.drop_left]
      simp
  · have hx : ∀ y, ¬ TooEarly fs x y := by
      rintro y ⟨_, _, f, h, _⟩
      apply hl
      simp [TestItem.isLaunch, h]
    simp only [hl, Bool.not_false, if_true]
    exact ⟨x :: ys, rfl, .stays (fun y _ => hx y)⟩

/-- The effect of the whole loop. -/
inductive Arranged (fs : Nat → Bool) : List TestItem → List TestItem → Prop
  | nil : Arranged fs [] []
  | cons {x : TestItem} {xs ys r : List TestItem} : Arranged fs xs ys → Placed1 fs x ys r → Arranged fs (x :: xs) r

theorem foldl_arranged (fs : Nat → Bool) : ∀ (xs : List TestItem) (pre suf : List TestItem) (k : Nat), k = pre.length →
    ∃ r, (xs.zipIdx k).reverse.foldl (moveItem fs) (pre ++ xs ++ suf) = pre ++ r ∧ (suf = [] → Arranged fs xs r) := by
  intro xs
  induction xs with
  | nil => intro pre suf k _; exact ⟨suf, by simp, by rintro rfl; exact .nil⟩
  | cons x xs ih =>
    intro pre suf k hk
    obtain ⟨r, h1, h2⟩ := ih (pre ++ [x]) suf (k + 1) (by simp [hk])
    simp only [List.zipIdx_cons, List.reverse_cons, List.foldl_append, List.foldl_cons, List.foldl_nil]
    have e : pre ++ x :: xs ++ suf = pre ++ [x] ++ xs ++ suf := by simp
    rw [e, h1, hk]
    have e' : pre ++ [x] ++ r = pre ++ x :: r := by simp
    rw [e']
    obtain ⟨r', h3, h4⟩ := moveItem_placed fs x pre r
    exact ⟨r', h3, fun hs => .cons (h2 hs) h4⟩

theorem modifyItems_arranged (fs : Nat → Bool) (items : List TestItem) : Arranged fs items (modifyItems fs items) := by
  obtain ⟨r, h1, h2⟩ := foldl_arranged fs items [] [] 0 rfl
  simp only [List.nil_append, List.append_nil] at h1
  unfold modifyItems
  rw [h1]
  exact h2 rfl

theorem Placed1.perm {fs : Nat → Bool} {x : TestItem} {ys r : List TestItem} (h : Placed1 fs x ys r) : r.Perm (x :: ys) := by
  cases h with
  | stays h => exact .refl _
  | @moves a b z he hz hb =>
    subst he
    have : a ++ z :: x :: b = (a ++ [z]) ++ x :: b := by simp
    rw [this]
    refine (List.perm_middle).trans ?_
    simp

theorem Placed1.ordered {fs : Nat → Bool} {x : TestItem} {ys r : List TestItem} (h : Placed1 fs x ys r)
    (ho : ys.Pairwise (fun a b => ¬ TooEarly fs a b)) : r.Pairwise (fun a b => ¬ TooEarly fs a b) := by
  cases h with
  | stays h => exact List.pairwise_cons.2 ⟨h, ho⟩
  | @moves a b z he hz hb =>
    subst he
    have e1 : a ++ z :: x :: b = (a ++ [z]) ++ ([x] ++ b) := by simp
    have e2 : a ++ z :: b = (a ++ [z]) ++ b := by simp
    rw [e1]
    rw [e2] at ho
    rw [List.pairwise_append] at ho ⊢
    obtain ⟨h1, h2, h3⟩ := ho
    refine ⟨h1, List.pairwise_cons.2 ⟨hb, h2⟩, ?_⟩
    intro p hp q hq
    rcases List.mem_cons.1 hq with rfl | hq
    · rintro ⟨_, h, _⟩
      rw [hz.1] at h; cases h
    · exact h3 p hp q hq

theorem Arranged.perm {fs : Nat → Bool} {xs r : List TestItem} (h : Arranged fs xs r) : r.Perm xs := by
  induction h with
  | nil => exact .refl _
  | cons h1 h2 ih => exact h2.perm.trans (ih.cons _)

theorem Arranged.ordered {fs : Nat → Bool} {xs r : List TestItem} (h : Arranged fs xs r) : r.Pairwise (fun a b => ¬ TooEarly fs a b) := by
  induction h with
  | nil => exact .nil
  | cons h1 h2 ih => exact h2.ordered ih

/-- C56: no test is lost or duplicated. -/
theorem C56_same_tests (fs : Nat → Bool) (items : List TestItem) : (modifyItems fs items).Perm items := (modifyItems_arranged fs items).perm

/-- C56: afterwards no shutdown test comes before a normal test of the same launch fixture. -/
theorem C56_shutdown_last (fs : Nat → Bool) (items : List TestItem) : (modifyItems fs items).Pairwise (fun a b => ¬ TooEarly fs a b) :=
  (modifyItems_arranged fs items).ordered

/-- C56: the order of the tests that are not shutdown tests is kept. -/
theorem C56_normal_order (fs : Nat → Bool) (items : List TestItem) :
    (modifyItems fs items).filter (fun x => !x.shutdown) = items.filter (fun x => !x.shutdown) := by
  have h := modifyItems_arranged fs items
  revert h
  generalize modifyItems fs items = r
  intro h
  induction h with
  | nil => rfl
  | cons h1 h2 ih =>
    cases h2 with
    | stays h => simp only [List.filter_cons, ih]
    | @moves a b z he hz hb =>
      subst he
      simp only [List.filter_append, List.filter_cons, hz.1, Bool.not_true, Bool.false_eq_true, if_false, ← ih]

/-- C56: the order of the shutdown tests of one launch fixture is kept. -/
theorem C56_shutdown_order (fs : Nat → Bool) (items : List TestItem) (t : TestItem) (p : TestItem → Bool)
    (hp : ∀ x, p x = true ↔ x.shutdown = true ∧ Shares fs t x) :
    (modifyItems fs items).filter p = items.filter p := by
  have h := modifyItems_arranged fs items
  revert h
  generalize modifyItems fs items = r
  intro h
  induction h with
  | nil => rfl
  | @cons x xs ys r h1 h2 ih =>
    cases h2 with
    | stays h => simp only [List.filter_cons, ih]
    | @moves a b z he hz hb =>
      subst he
      by_cases hx : p x = true
      · have ho := h1.ordered
        have hno : ∀ y ∈ a ++ [z], p y = false := by
          intro y hy
          cases hpy : p y with
          | false => rfl
          | true =>
            exfalso
            have hy' := (hp y).1 hpy
            have hx' := (hp x).1 hx
            have hyz : Shares fs y z := hy'.2.symm.trans (hx'.2.trans hz.2.2)
            rcases List.mem_append.1 hy with hy | hy
            · rw [List.pairwise_append] at ho
              exact ho.2.2 y hy z List.mem_cons_self ⟨hy'.1, hz.2.1, hyz⟩
            · simp only [List.mem_singleton] at hy
              subst hy
              rw [hz.2.1] at hy'
              exact absurd hy'.1 (by simp)
        have hnil : (a ++ [z]).filter p = [] := by
          rw [List.filter_eq_nil_iff]
          intro y hy
          simp [hno y hy]
        have e1 : a ++ z :: x :: b = (a ++ [z]) ++ x :: b := by simp
        have e2 : a ++ z :: b = (a ++ [z]) ++ b := by simp
        rw [e2, List.filter_append, hnil, List.nil_append] at ih
        rw [e1, List.filter_append, hnil, List.nil_append, List.filter_cons, List.filter_cons, ih]
      · have hx' : p x = false := by simpa using hx
        rw [List.filter_cons, if_neg hx, ← ih]
        simp [List.filter_append, List.filter_cons, hx']

/-- C56: a collection that is in order already is left as it is. -/
theorem C56_nothing_to_do (fs : Nat → Bool) (items : List TestItem) (h : items.Pairwise (fun a b => ¬ TooEarly fs a b)) :
    modifyItems fs items = items := by
  have ha := modifyItems_arranged fs items
  revert ha
  generalize modifyItems fs items = r
  intro ha
  induction ha with
  | nil => rfl
  | cons h1 h2 ih =>
    rw [List.pairwise_cons] at h
    have := ih h.2
    subst this
    cases h2 with
    | stays _ => rfl
    | @moves a b z he hz hb =>
      exfalso
      exact h.1 z (by rw [he]; simp) hz

/-- Tests of two fixtures and one that uses none, shutdown tests among them. -/
def sampleItems : List TestItem :=
  [⟨0, some (some 7), true, none⟩, ⟨1, some (some 7), false, none⟩, ⟨2, some (some 7), true, none⟩, ⟨3, none, false, none⟩,
   ⟨4, some (some 8), true, some 1⟩, ⟨5, some (some 7), false, none⟩, ⟨6, some (some 8), false, some 2⟩, ⟨7, some (some 8), false, some 1⟩]

example : (modifyItems (fun _ => false) sampleItems).map (·.id) = [1, 3, 5, 0, 2, 6, 7, 4] := by decide
example : (modifyItems (fun f => f == 7) sampleItems).map (·.id) = [0, 1, 2, 3, 5, 6, 7, 4] := by decide

end Verif
