import Verif.Lemmas.TestBind

/-! # C115: every test gets the objects of its own run -/

namespace Verif

variable {V : Type}

open TestHeap

/-! ## Loading -/

theorem each2_mem {α β : Type} {R : α → β → Prop} {l : List α} {l' : List β} (h : Each2 R l l') {x : α} (hx : x ∈ l) : ∃ y ∈ l', R x y := by
  induction h with
  | nil => simp at hx
  | cons h1 _ ih =>
    rcases List.mem_cons.1 hx with rfl | hx
    · exact ⟨_, List.mem_cons_self, h1⟩
    · obtain ⟨y, hy, hr⟩ := ih hx
      exact ⟨y, List.mem_cons_of_mem _ hy, hr⟩

theorem each2_imp {α β : Type} {R S : α → β → Prop} {l : List α} {l' : List β} (h : Each2 R l l') (hi : ∀ x ∈ l, ∀ y ∈ l', R x y → S x y) : Each2 S l l' := by
  induction h with
  | nil => exact .nil
  | @cons x y xs ys h1 _ ih =>
    exact .cons (hi x List.mem_cons_self y List.mem_cons_self h1)
      (ih fun a ha b hb => hi a (List.mem_cons_of_mem _ ha) b (List.mem_cons_of_mem _ hb))

/-- The name of a test in a run. -/
def nameIn (suffix : Option String) (m : String) : String := m ++ suffix.getD ""

/-- A test of a run right after loading: within the numbers of tests and classes given. -/
def LoadedTest (h0 h : TestHeap V) (suffix : Option String) (t1 t2 c1 c2 : Nat) (t : Nat) (x : Nat × String) : Prop :=
  TestIs h0 h t x.1 x.2 (nameIn suffix x.2) (fun _ => none) (fun _ => none) ∧ t1 ≤ t ∧ t < t2 ∧ c1 ≤ (h.tests t).cls ∧ (h.tests t).cls < c2

theorem LoadedTest.grown {h0 h h' : TestHeap V} {suffix : Option String} {t1 c1 t1' c1' t t2 c2 : Nat} {x : Nat × String} (l : LoadedTest h0 h suffix t1 t2 c1 c2 t x)
    (u : Unchanged h0 h) (u' : Unchanged h0 h') (ht : ∀ t, t < t2 → h'.tests t = h.tests t) (hc : ∀ c, c < c2 → h'.classes c = h.classes c) (h1 : t1' ≤ t1) (h2 : c1' ≤ c1)
    {t2' c2' : Nat} (h3 : t2 ≤ t2') (h4 : c2 ≤ c2') : LoadedTest h0 h' suffix t1' t2' c1' c2' t x := by
  obtain ⟨i, a, b, c, d⟩ := l
  have et := ht t b
  refine ⟨i.frame u u' et (hc _ d), by omega, by omega, by rw [et]; omega, by rw [et]; omega⟩

theorem rename_effect {h0 h : TestHeap V} {t c : Nat} {m : String} (i : TestIs h0 h t c m m (fun _ => none) (fun _ => none)) (x : String)
    (hm : ∃ y, m = "test" ++ y) (hf : ∃ f, h0.classAttr c m = some f) : TestIs h0 (h.rename x t) t c m (m ++ x) (fun _ => none) (fun _ => none) := by
  obtain ⟨f, hf⟩ := hf
  obtain ⟨g, hg⟩ := getsArgs_some (i.own f hf)
  have o := onTest_rename h x t
  have e : (h.rename x t).tests t = { h.tests t with method := m ++ x, attrs := put (h.tests t).attrs (m ++ x) (some g) } := by
    unfold rename; rw [i.method, hg]; simp
  have hname : ∃ y, m ++ x = "test" ++ y := by
    obtain ⟨y, rfl⟩ := hm
    exact ⟨y ++ x, String.append_assoc⟩
  obtain ⟨n1, n2⟩ := test_name hname
  have hta : ∀ n, n ≠ m ++ x → (h.rename x t).testAttr t n = h.testAttr t n := by
    intro n hn
    unfold testAttr
    rw [e]; dsimp only
    rw [put_other _ _ hn, classAttr_same o.classes]
  refine ⟨i.old, ?_, ?_, ?_, ?_, ?_, ?_, ?_⟩
  · rw [o.cls]; exact i.new
  · rw [o.cls, o.classes]; exact i.base
  · rw [e]
  · intro f' hf'
    have : (h.rename x t).testAttr t (m ++ x) = some g := by unfold testAttr; rw [e]; simp
    rw [this, ← hg]; exact i.own f' hf'
  · intro n hn f' hf'
    rw [hta n (by
      simp only [List.mem_cons, List.not_mem_nil, or_false] at hn
      rcases hn with rfl | rfl
      · exact Ne.symm n1
      · exact Ne.symm n2)]
    exact i.fixture n hn f' hf'
  · intro n hn f' hf'; rw [o.cls, classAttr_same o.classes]; exact i.classFixture n hn f' hf'
  · intro n; rw [o.cls, o.classes]; exact i.props n

theorem mem_loadTests {post : Nat → Bool} {b : Bool} {classes : List (Nat × List String)} {x : Nat × String} (h : x ∈ loadTests post b classes) :
    ∃ ms, (x.1, ms) ∈ classes ∧ x.2 ∈ ms := by
  simp only [loadTests, List.mem_flatMap] at h
  obtain ⟨⟨c, ms⟩, h1, h2⟩ := h
  split at h2
  · obtain ⟨m, hm, rfl⟩ := List.mem_map.1 h2; exact ⟨ms, h1, hm⟩
  · simp at h2

/-- Two suites have no test and no class in common. -/
def Apart (h : TestHeap V) (a b : List Nat) : Prop := ∀ t ∈ a, ∀ s ∈ b, t ≠ s ∧ (h.tests t).cls ≠ (h.tests s).cls

theorem Apart.symm {h : TestHeap V} {a b : List Nat} (x : Apart h a b) : Apart h b a := fun t ht s hs => ⟨Ne.symm (x s hs t ht).1, Ne.symm (x s hs t ht).2⟩

theorem loadRun_spec {h0 h : TestHeap V} (hm : ModuleHeap h0) {post : Nat → Bool} {classes : List (Nat × List String)} (hc : TestClasses h0 classes)
    (u : Unchanged h0 h) (hn : h0.nextClass ≤ h.nextClass) (suffix : Option String) :
    Grown h (h.loadRun post classes suffix).1 ∧
    (∀ b, Each2 (LoadedTest h0 (h.loadRun post classes suffix).1 suffix h.nextTest (h.loadRun post classes suffix).1.nextTest h.nextClass
        (h.loadRun post classes suffix).1.nextClass) ((h.loadRun post classes suffix).2.of b) (loadTests post b classes) ∧
      ((h.loadRun post classes suffix).2.of b).Nodup) ∧
    Apart (h.loadRun post classes suffix).1 (h.loadRun post classes suffix).2.pre (h.loadRun post classes suffix).2.post := by
  obtain ⟨g1, r1, e1⟩ := loadModule_spec post false classes h
  obtain ⟨g2, r2, e2⟩ := loadModule_spec post true classes (h.loadModule post false classes).1
  have hca : (h.loadRun post classes suffix).2 = ⟨(h.loadModule post false classes).2, ((h.loadModule post false classes).1.loadModule post true classes).2⟩ := by
    unfold loadRun; cases suffix <;> rfl
  rw [hca]
  have hcb : (h.loadRun post classes suffix).1 = match (generalizing := false) suffix with
      | none => ((h.loadModule post false classes).1.loadModule post true classes).1
      | some x => ((h.loadModule post false classes).2 ++ ((h.loadModule post false classes).1.loadModule post true classes).2).foldl
          (fun h t => h.rename x t) ((h.loadModule post false classes).1.loadModule post true classes).1 := by
    unfold loadRun; cases suffix <;> rfl
  rw [hcb]
  clear hca hcb
  generalize (h.loadModule post false classes).2 = A at *
  generalize (h.loadModule post false classes).1 = h1 at *
  generalize (h1.loadModule post true classes).2 = B at *
  generalize (h1.loadModule post true classes).1 = h2 at *
  have u1 : Unchanged h0 h1 := fun c h => (g1.classes c (by omega)).trans (u c h)
  have u2 : Unchanged h0 h2 := fun c h => (g2.classes c (by have := g1.nextClass; omega)).trans (u1 c h)
  have gn1 := g1.nextClass
  have gn2 := g2.nextClass
  have gt1 := g1.nextTest
  have gt2 := g2.nextTest
  have old : ∀ b, ∀ x ∈ loadTests post b classes, x.1 < h0.nextClass ∧ (∃ y, x.2 = "test" ++ y) ∧ ∃ f, h0.classAttr x.1 x.2 = some f := by
    intro b x hx
    obtain ⟨ms, h1, h2⟩ := mem_loadTests hx
    obtain ⟨a, b, _⟩ := hc _ _ h1
    exact ⟨a, (b _ h2).1, (b _ h2).2⟩
  have memA : ∀ t, t ∈ A ↔ h.nextTest ≤ t ∧ t < h1.nextTest := by intro t; rw [r1, List.mem_range'_1]; omega
  have memB : ∀ t, t ∈ B ↔ h1.nextTest ≤ t ∧ t < h2.nextTest := by intro t; rw [r2, List.mem_range'_1]; omega
  have ndA : A.Nodup := by rw [r1]; exact List.nodup_range'
  have ndB : B.Nodup := by rw [r2]; exact List.nodup_range'
  -- before the tests get new names
  have LA : Each2 (fun t x => LoadedTest h0 h2 none h.nextTest h1.nextTest h.nextClass h1.nextClass t x) A (loadTests post false classes) := by
    refine each2_imp e1 fun t ht x hx n => ?_
    have i := n.testIs hm u1 (old _ x hx).1 hn
    have et := g2.tests t ((memA t).1 ht).2
    refine ⟨?_, ((memA t).1 ht).1, ((memA t).1 ht).2, by rw [et]; exact n.lo, by rw [et]; exact n.hi⟩
    have := i.frame u1 u2 et (g2.classes _ n.hi)
    simpa [nameIn] using this
  have LB : Each2 (fun t x => LoadedTest h0 h2 none h1.nextTest h2.nextTest h1.nextClass h2.nextClass t x) B (loadTests post true classes) := by
    refine each2_imp e2 fun t ht x hx n => ?_
    have i := n.testIs hm u2 (old _ x hx).1 (Nat.le_trans hn gn1)
    refine ⟨by simpa [nameIn] using i, ((memB t).1 ht).1, ((memB t).1 ht).2, n.lo, n.hi⟩
  -- with the new names
  have fin : ∀ h3 : TestHeap V, (∀ c, h3.classes c = h2.classes c) → (∀ t, t ∉ A ++ B → h3.tests t = h2.tests t) → (∀ t, (h3.tests t).cls = (h2.tests t).cls) →
      h3.nextClass = h2.nextClass → h3.nextTest = h2.nextTest →
      (∀ b, ∀ t ∈ A ++ B, ∀ x ∈ loadTests post b classes, TestIs h0 h2 t x.1 x.2 x.2 (fun _ => none) (fun _ => none) →
        TestIs h0 h3 t x.1 x.2 (nameIn suffix x.2) (fun _ => none) (fun _ => none)) →
      Grown h h3 ∧
      (∀ b, Each2 (LoadedTest h0 h3 suffix h.nextTest h3.nextTest h.nextClass h3.nextClass) (Suites.of ⟨A, B⟩ b) (loadTests post b classes) ∧
        (Suites.of ⟨A, B⟩ b).Nodup) ∧ Apart h3 A B := by
    intro h3 hcl ht hcls hnc hnt hi
    refine ⟨⟨?_, ?_, by omega, by omega⟩, ?_, ?_⟩
    · intro c hlt; rw [hcl, g2.classes c (by omega), g1.classes c hlt]
    · intro t hlt
      rw [ht t (by rw [List.mem_append, memA, memB]; omega), g2.tests t (by omega), g1.tests t hlt]
    · intro b
      cases b with
      | false =>
        refine ⟨each2_imp LA fun t ht x hx l => ?_, ndA⟩
        obtain ⟨i, a, b, c, d⟩ := l
        exact ⟨hi false t (List.mem_append_left _ ht) x hx (by simpa [nameIn] using i), a, by omega, by rw [hcls]; exact c, by rw [hcls]; omega⟩
      | true =>
        refine ⟨each2_imp LB fun t ht x hx l => ?_, ndB⟩
        obtain ⟨i, a, b, c, d⟩ := l
        exact ⟨hi true t (List.mem_append_right _ ht) x hx (by simpa [nameIn] using i), by omega, by omega, by rw [hcls]; omega, by rw [hcls]; omega⟩
    · intro t ht s hs
      obtain ⟨_, _, l1⟩ := each2_mem LA ht
      obtain ⟨_, _, l2⟩ := each2_mem LB hs
      obtain ⟨_, a1, a2, a3, a4⟩ := l1
      obtain ⟨_, b1, b2, b3, b4⟩ := l2
      exact ⟨by omega, by rw [hcls, hcls]; omega⟩
  cases suffix with
  | none =>
    exact fin h2 (fun _ => rfl) (fun _ _ => rfl) (fun _ => rfl) rfl rfl (fun b t _ x _ i => by simpa [nameIn] using i)
  | some y =>
    have keep := fold_keep (fun (h : TestHeap V) t => h.rename y t)
      (fun h3 => h3.classes = h2.classes ∧ (∀ t, t ∉ A ++ B → h3.tests t = h2.tests t) ∧ (∀ t, (h3.tests t).cls = (h2.tests t).cls) ∧
        h3.nextClass = h2.nextClass ∧ h3.nextTest = h2.nextTest) (A ++ B)
      (by
        rintro h3 t ht ⟨k1, k2, k3, k4, k5⟩
        have o := onTest_rename h3 y t
        exact ⟨o.classes.trans k1, fun s hs => (o.tests s (fun e => hs (e ▸ ht))).trans (k2 s hs), fun s => (o.allCls s).trans (k3 s),
          o.nextClass.trans k4, o.nextTest.trans k5⟩) h2 ⟨rfl, fun _ _ => rfl, fun _ => rfl, rfl, rfl⟩
    obtain ⟨k1, k2, k3, k4, k5⟩ := keep
    refine fin _ (fun c => by rw [k1]) k2 k3 k4 k5 ?_
    intro b t ht x hx i
    have hnd : (A ++ B).Nodup := by
      rw [List.nodup_append]
      refine ⟨ndA, ndB, ?_⟩
      intro a ha b hb e
      rw [memA] at ha; rw [memB] at hb; omega
    refine (fold_effect (fun (h : TestHeap V) t => h.rename y t)
      (fun h3 => TestIs h0 h3 t x.1 x.2 x.2 (fun _ => none) (fun _ => none) ∧ Unchanged h0 h3)
      (fun h3 => TestIs h0 h3 t x.1 x.2 (nameIn (some y) x.2) (fun _ => none) (fun _ => none) ∧ Unchanged h0 h3) t (A ++ B) hnd ht ?_ ?_ ?_ h2 ⟨i, u2⟩).1
    · rintro h3 s _ hne ⟨i3, u3⟩
      have o := onTest_rename h3 y s
      exact ⟨i3.onTest u3 o hne, u3.onTest o⟩
    · rintro h3 s _ hne ⟨i3, u3⟩
      have o := onTest_rename h3 y s
      exact ⟨i3.onTest u3 o hne, u3.onTest o⟩
    · rintro h3 ⟨i3, u3⟩
      exact ⟨rename_effect i3 y (old b x hx).2.1 (old b x hx).2.2, u3.onTest (onTest_rename h3 y t)⟩

theorem loadRuns_spec {h0 : TestHeap V} (hm : ModuleHeap h0) {post : Nat → Bool} {classes : List (Nat × List String)} (hc : TestClasses h0 classes)
    (xs : List (Option String)) (h : TestHeap V) (u : Unchanged h0 h) (hn : h0.nextClass ≤ h.nextClass) :
    Grown h (h.loadRuns post classes xs).1 ∧ (h.loadRuns post classes xs).2.length = xs.length ∧
    (∀ (i : Nat) (s : Suites), (h.loadRuns post classes xs).2[i]? = some s → ∃ suffix, xs[i]? = some suffix ∧
      ∀ b, Each2 (LoadedTest h0 (h.loadRuns post classes xs).1 suffix h.nextTest (h.loadRuns post classes xs).1.nextTest h.nextClass
        (h.loadRuns post classes xs).1.nextClass) (s.of b) (loadTests post b classes) ∧ (s.of b).Nodup) ∧
    ∀ (i j : Nat) (s s' : Suites) (b b' : Bool), (h.loadRuns post classes xs).2[i]? = some s → (h.loadRuns post classes xs).2[j]? = some s' → (i, b) ≠ (j, b') →
      Apart (h.loadRuns post classes xs).1 (s.of b) (s'.of b') := by
  induction xs generalizing h with
  | nil => exact ⟨Grown.refl h, rfl, by simp [loadRuns], by simp [loadRuns]⟩
  | cons x xs ih =>
    obtain ⟨g1, l1, a1⟩ := loadRun_spec hm hc u hn x (post := post)
    have e : h.loadRuns post classes (x :: xs) = (((h.loadRun post classes x).1.loadRuns post classes xs).1,
      (h.loadRun post classes x).2 :: ((h.loadRun post classes x).1.loadRuns post classes xs).2) := rfl
    rw [e]
    generalize h.loadRun post classes x = r at g1 l1 a1 ⊢
    obtain ⟨h1, s1⟩ := r
    dsimp only at g1 l1 a1 ⊢
    have u1 : Unchanged h0 h1 := fun c hlt => (g1.classes c (by omega)).trans (u c hlt)
    have gn := g1.nextClass
    obtain ⟨g2, n2, l2, a2⟩ := ih h1 u1 (by omega)
    generalize h1.loadRuns post classes xs = r at g2 n2 l2 a2 ⊢
    obtain ⟨h2, ss⟩ := r
    dsimp only at g2 n2 l2 a2 ⊢
    have gt := g1.nextTest
    have u2 : Unchanged h0 h2 := fun c hlt => (g2.classes c (by omega)).trans (u1 c hlt)
    have first : ∀ b, Each2 (LoadedTest h0 h2 x h.nextTest h1.nextTest h.nextClass h1.nextClass) (s1.of b) (loadTests post b classes) := by
      intro b
      refine each2_imp (l1 b).1 fun t _ y _ l => ?_
      exact l.grown u1 u2 g2.tests g2.classes (Nat.le_refl _) (Nat.le_refl _) (Nat.le_refl _) (Nat.le_refl _)
    have apart1 : ∀ (b : Bool) (j : Nat) (s' : Suites), ss[j]? = some s' → ∀ b', Apart h2 (s1.of b) (s'.of b') := by
      intro b j s' hs' b' t ht s hs
      obtain ⟨_, _, _, x1, x2, x3, x4⟩ := each2_mem (first b) ht
      obtain ⟨_, _, l⟩ := l2 j s' hs'
      obtain ⟨_, _, _, y1, y2, y3, y4⟩ := each2_mem (l b').1 hs
      exact ⟨by omega, by omega⟩
    refine ⟨g1.trans g2, by simp [n2], ?_, ?_⟩
    · intro i s hs
      cases i with
      | zero =>
        simp only [List.getElem?_cons_zero, Option.some.injEq] at hs
        subst hs
        refine ⟨x, rfl, fun b => ⟨each2_imp (first b) fun t _ y _ l => ?_, (l1 b).2⟩⟩
        exact l.grown u2 u2 (fun _ _ => rfl) (fun _ _ => rfl) (Nat.le_refl _) (Nat.le_refl _) g2.nextTest g2.nextClass
      | succ i =>
        obtain ⟨suffix, hx, l⟩ := l2 i s (by simpa using hs)
        refine ⟨suffix, by simpa using hx, fun b => ⟨each2_imp (l b).1 fun t _ y _ l => ?_, (l b).2⟩⟩
        exact l.grown u2 u2 (fun _ _ => rfl) (fun _ _ => rfl) gt gn (Nat.le_refl _) (Nat.le_refl _)
    · intro i j s s' b b' hs hs' hne
      cases i with
      | zero =>
        simp only [List.getElem?_cons_zero, Option.some.injEq] at hs
        subst hs
        cases j with
        | zero =>
          simp only [List.getElem?_cons_zero, Option.some.injEq] at hs'
          subst hs'
          have pp : Apart h2 s1.pre s1.post := by
            intro t ht s hs
            obtain ⟨_, _, _, x1, x2, x3, x4⟩ := each2_mem (first false) ht
            obtain ⟨_, _, _, y1, y2, y3, y4⟩ := each2_mem (first true) hs
            have := a1 t ht s hs
            rw [g2.tests t x2, g2.tests s y2]
            exact this
          cases b <;> cases b'
          · exact absurd rfl hne
          · exact pp
          · exact pp.symm
          · exact absurd rfl hne
        | succ j => exact apart1 b j s' (by simpa using hs') b'
      | succ i =>
        cases j with
        | zero =>
          simp only [List.getElem?_cons_zero, Option.some.injEq] at hs'
          subst hs'
          exact (apart1 b' i s (by simpa using hs) b).symm
        | succ j => exact a2 i j s s' b b' (by simpa using hs) (by simpa using hs') (by simpa using hne)

/-! ## The theorems -/

/-- C115 (tests).  Every run has the tests of the module for each phase, in order; their classes are subclasses of those of the module, and their names
are those of the methods with the parameters of the run appended. -/
theorem C115_tests (h0 : TestHeap V) (hm : ModuleHeap h0) (post : Nat → Bool) (classes : List (Nat × List String)) (hc : TestClasses h0 classes)
    (xs : List (Option String)) (i : Nat) (suffix : Option String) (hx : xs[i]? = some suffix) :
    ∃ s, (h0.loadRuns post classes xs).2[i]? = some s ∧
      ∀ b, (s.of b).map (fun t => (((h0.loadRuns post classes xs).1.classes ((h0.loadRuns post classes xs).1.tests t).cls).base,
        ((h0.loadRuns post classes xs).1.tests t).method)) = (loadTests post b classes).map fun x => (some x.1, nameIn suffix x.2) := by
  obtain ⟨_, hl, l, _⟩ := loadRuns_spec hm hc xs h0 (post := post) (fun _ _ => rfl) (Nat.le_refl _)
  have hi : i < (h0.loadRuns post classes xs).2.length := by rw [hl]; exact (List.getElem?_eq_some_iff.1 hx).1
  refine ⟨_, List.getElem?_eq_getElem hi, fun b => ?_⟩
  obtain ⟨suffix', hx', l⟩ := l i _ (List.getElem?_eq_getElem hi)
  rw [hx] at hx'; injection hx' with hx'; subst hx'
  have := (l b).1
  generalize ((h0.loadRuns post classes xs).2[i]).of b = ts at this
  generalize loadTests post b classes = ys at this
  induction this with
  | nil => rfl
  | cons h1 _ ih =>
    rw [List.map_cons, List.map_cons, ih, h1.1.base, h1.1.method]

/-- What has been given to all tests, after any calls. -/
theorem bindCalls_spec {h0 : TestHeap V} (runs : List Suites) (calls : List (BindCall V)) (hd : GiveDicts calls) (h : TestHeap V) (K : Nat → Nat)
    (hK : ∀ t, (h.tests t).cls = K t) (u : Unchanged h0 h) (hs : ∀ (i : Nat) (s : Suites) (b : Bool), runs[i]? = some s → (s.of b).Nodup ∧ ∀ t ∈ s.of b, h0.nextClass ≤ K t)
    (ha : ∀ (i j : Nat) (s s' : Suites) (b b' : Bool), runs[i]? = some s → runs[j]? = some s' → (i, b) ≠ (j, b') → ∀ t ∈ s.of b, ∀ t' ∈ s'.of b', t ≠ t' ∧ K t ≠ K t')
    (i : Nat) (s : Suites) (hi : runs[i]? = some s) (b : Bool) (t : Nat) (ht : t ∈ s.of b) (c : Nat) (m name : String) (hname : ∃ x, name = "test" ++ x)
    (G A : String → Option V) (it : TestIs h0 h t c m name G A) :
    Unchanged h0 (h.bindCalls runs calls) ∧
    TestIs h0 (h.bindCalls runs calls) t c m name (fun a => (lastGiven BindCall.args i b a calls).or (G a))
      (fun a => (lastGiven BindCall.attributes i b a calls).or (A a)) := by
  induction calls generalizing h G A with
  | nil => exact ⟨u, by simpa [bindCalls, lastGiven] using it⟩
  | cons call calls ih =>
    have hd' : GiveDicts calls := fun b hb => hd b (List.mem_cons_of_mem _ hb)
    obtain ⟨w1, w2⟩ := hd call List.mem_cons_self
    have e : h.bindCalls runs (call :: calls) = (match runs[call.run]? with
      | some s => h.bind (s.of call.post) call.attributes call.args
      | none => h).bindCalls runs calls := rfl
    rw [e]
    cases hr : runs[call.run]? with
    | none =>
      have hne : ¬ (call.run = i ∧ call.post = b) := by rintro ⟨rfl, _⟩; rw [hr] at hi; cases hi
      have := ih hd' h hK u G A it
      simpa [lastGiven, hne] using this
    | some s' =>
      dsimp only
      obtain ⟨nd, new⟩ := hs _ _ call.post hr
      have so : SuiteOf h0 h (s'.of call.post) K := fun t ht => ⟨hK t, new t ht⟩
      obtain ⟨b1, b2, b3⟩ := bind_effect (h0 := h0) call.attributes call.args w1 w2 u so nd
      have b3 := b3 t c m name G A it hname
      by_cases heq : call.run = i ∧ call.post = b
      · obtain ⟨rfl, rfl⟩ := heq
        rw [hi] at hr; injection hr with hr; subst hr
        have := ih hd' _ (fun t => (b2 t).trans (hK t)) b1 _ _ (b3.1 ht)
        simpa [lastGiven, Option.or_assoc] using this
      · have hap := ha i call.run s s' b call.post hi hr (fun e => heq (by injection e with e1 e2; exact ⟨e1.symm, e2.symm⟩))
        have := ih hd' _ (fun t => (b2 t).trans (hK t)) b1 _ _
          (b3.2 (fun hm => (hap t ht t hm).1 rfl) (fun x hx => by rw [hK]; exact Ne.symm (hap t ht x hx).2))
        simpa [lastGiven, heq] using this

/-- C115.  Whatever runs there are and in whatever order their tests are given objects: the method, the fixtures and the class fixtures of every test are
called with the arguments that they name, each with the object last given to the tests of the same run and phase, and the class has the attributes given
to them. -/
theorem C115_own_objects (h0 : TestHeap V) (hm : ModuleHeap h0) (post : Nat → Bool) (classes : List (Nat × List String)) (hc : TestClasses h0 classes)
    (xs : List (Option String)) (calls : List (BindCall V)) (hd : GiveDicts calls) (i : Nat) (suffix : Option String) (hx : xs[i]? = some suffix) (s : Suites)
    (hs : (h0.loadRuns post classes xs).2[i]? = some s) (b : Bool) (t : Nat) (ht : t ∈ s.of b) :
    ∃ c m, (c, m) ∈ loadTests post b classes ∧
      let h := (h0.loadRuns post classes xs).1.bindCalls (h0.loadRuns post classes xs).2 calls
      (h.tests t).method = nameIn suffix m ∧ (h.classes (h.tests t).cls).base = some c ∧
      (∃ f, h0.classAttr c m = some f ∧ GetsArgs (h.testAttr t (nameIn suffix m)) f fun a => lastGiven BindCall.args i b a calls) ∧
      (∀ n ∈ ["setUp", "tearDown"], ∃ f, h0.classAttr c n = some f ∧ GetsArgs (h.testAttr t n) f fun a => lastGiven BindCall.args i b a calls) ∧
      (∀ n ∈ ["setUpClass", "tearDownClass"], ∃ f, h0.classAttr c n = some f ∧
        GetsArgs (h.classAttr (h.tests t).cls n) f fun a => lastGiven BindCall.args i b a calls) ∧
      ∀ n, (h.classes (h.tests t).cls).props n = lastGiven BindCall.attributes i b n calls := by
  obtain ⟨g, hl, l, ap⟩ := loadRuns_spec hm hc xs h0 (post := post) (fun _ _ => rfl) (Nat.le_refl _)
  generalize (h0.loadRuns post classes xs) = r at *
  obtain ⟨h1, runs⟩ := r
  dsimp only at *
  have u : Unchanged h0 h1 := g.classes
  obtain ⟨suffix', hx', li⟩ := l i s hs
  rw [hx] at hx'; injection hx' with hx'; subst hx'
  obtain ⟨⟨c, m⟩, hy, it, _, _, _, _⟩ := each2_mem (li b).1 ht
  obtain ⟨ms, q1, q2⟩ := mem_loadTests hy
  obtain ⟨_, q3, q4⟩ := hc _ _ q1
  obtain ⟨⟨y, hy'⟩, q5⟩ := q3 _ q2
  have hname : ∃ x, nameIn suffix m = "test" ++ x := ⟨y ++ suffix.getD "", by unfold nameIn; rw [show m = "test" ++ y from hy', String.append_assoc]⟩
  obtain ⟨u', fin⟩ := bindCalls_spec (h0 := h0) runs calls hd h1 (fun t => (h1.tests t).cls) (fun _ => rfl) u
    (fun j s' b' hj => by
      obtain ⟨_, _, lj⟩ := l j s' hj
      refine ⟨(lj b').2, fun t' ht' => ?_⟩
      obtain ⟨_, _, _, _, _, a, _⟩ := each2_mem (lj b').1 ht'
      exact a)
    (fun i j s s' b b' h1 h2 h3 => ap i j s s' b b' h1 h2 h3) i s hs b t ht c m _ hname _ _ it
  refine ⟨c, m, hy, fin.method, fin.base, ?_, ?_, ?_, ?_⟩
  · obtain ⟨f, hf⟩ := q5
    exact ⟨f, hf, by simpa using fin.own f hf⟩
  · intro n hn
    obtain ⟨f, hf⟩ := q4 n (by simp only [List.mem_cons, List.not_mem_nil, or_false] at hn ⊢; rcases hn with h | h <;> simp [h])
    exact ⟨f, hf, by simpa using fin.fixture n hn f hf⟩
  · intro n hn
    obtain ⟨f, hf⟩ := q4 n (by simp only [List.mem_cons, List.not_mem_nil, or_false] at hn ⊢; rcases hn with h | h <;> simp [h])
    exact ⟨f, hf, by simpa using fin.classFixture n hn f hf⟩
  · intro n; simpa using fin.props n

/-- C115 (module).  The test classes of the module are never changed. -/
theorem C115_module (h0 : TestHeap V) (hm : ModuleHeap h0) (post : Nat → Bool) (classes : List (Nat × List String)) (hc : TestClasses h0 classes)
    (xs : List (Option String)) (calls : List (BindCall V)) (hd : GiveDicts calls) (c : Nat) (hlt : c < h0.nextClass) :
    ((h0.loadRuns post classes xs).1.bindCalls (h0.loadRuns post classes xs).2 calls).classes c = h0.classes c := by
  obtain ⟨g, hl, l, ap⟩ := loadRuns_spec hm hc xs h0 (post := post) (fun _ _ => rfl) (Nat.le_refl _)
  generalize (h0.loadRuns post classes xs) = r at *
  obtain ⟨h1, runs⟩ := r
  dsimp only at *
  have key : Unchanged h0 (h1.bindCalls runs calls) ∧ ∀ t, ((h1.bindCalls runs calls).tests t).cls = (h1.tests t).cls := by
    refine fold_keep _ (fun h => Unchanged h0 h ∧ ∀ t, (h.tests t).cls = (h1.tests t).cls) calls ?_ h1 ⟨g.classes, fun _ => rfl⟩
    rintro h call hcall ⟨u, e⟩
    cases hr : runs[call.run]? with
    | none => exact ⟨u, e⟩
    | some s =>
      dsimp only
      obtain ⟨_, _, lj⟩ := l _ s hr
      have so : SuiteOf h0 h (s.of call.post) (fun t => (h1.tests t).cls) := by
        intro t ht
        refine ⟨e t, ?_⟩
        obtain ⟨_, _, _, _, _, a, _⟩ := each2_mem (lj call.post).1 ht
        exact a
      obtain ⟨b1, b2, _⟩ := bind_effect (h0 := h0) call.attributes call.args (hd call hcall).1 (hd call hcall).2 u so (lj call.post).2
      exact ⟨b1, fun t => (b2 t).trans (e t)⟩
  exact key.1 c hlt

/-! ## Examples -/

/-- `unittest.TestCase` with its fixtures, and a class with a test that takes `proc_info` and a `setUpClass` that takes `x`. -/
def exampleModule : TestHeap Nat where
  nextClass := 2
  classes := fun c => match c with
    | 0 => { attrs := fun n => if n ∈ ["setUp", "tearDown", "setUpClass", "tearDownClass"] then some { params := [] } else none }
    | 1 => { base := some 0, attrs := fun n => if n = "test_a" then some { params := ["proc_info"] } else if n = "setUpClass" then some { params := ["x"] } else none }
    | _ => {}

example : ModuleHeap exampleModule := by
  constructor
  · intro c b h
    match c with
    | 0 => simp [exampleModule] at h
    | 1 => simp [exampleModule] at h; omega
    | c + 2 => simp [exampleModule] at h
  · intro c n f h
    match c with
    | 0 => simp only [exampleModule] at h; split at h <;> simp at h; rw [← h]
    | 1 => simp only [exampleModule] at h; split at h; · simp at h; rw [← h]
           · split at h <;> simp at h; rw [← h]
    | c + 2 => simp [exampleModule] at h

example : TestClasses exampleModule [(1, ["test_a"])] := by
  intro c ms h
  simp only [List.mem_singleton, Prod.mk.injEq] at h
  obtain ⟨rfl, rfl⟩ := h
  refine ⟨by decide, ?_, ?_⟩
  · intro m hm
    simp only [List.mem_singleton] at hm
    subst hm
    exact ⟨⟨"_a", rfl⟩, _, by rw [classAttr]; rfl⟩
  · intro n hn
    simp only [List.mem_cons, List.not_mem_nil, or_false] at hn
    rcases hn with rfl | rfl | rfl | rfl
    · exact ⟨{ params := [] }, by simp [classAttr, exampleModule]⟩
    · exact ⟨{ params := [] }, by simp [classAttr, exampleModule]⟩
    · exact ⟨{ params := ["x"] }, by rw [classAttr]; rfl⟩
    · exact ⟨{ params := [] }, by simp [classAttr, exampleModule]⟩

/-- Two parametrized runs, bound one after the other: the first keeps its objects. -/
example : let calls : List (BindCall Nat) := [⟨0, false, [], [("x", 1), ("proc_info", 10)]⟩, ⟨1, false, [], [("x", 2), ("proc_info", 20)]⟩]
    lastGiven BindCall.args 0 false "x" calls = some 1 ∧ lastGiven BindCall.args 1 false "proc_info" calls = some 20 := ⟨rfl, rfl⟩

end Verif
