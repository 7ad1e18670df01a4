import Verif.Spec.TestBind
import Verif.Props.TestLoad

/-! # Lemmas about loading and binding tests -/

namespace Verif

variable {V : Type}

@[simp] theorem put_same {α β : Type} [DecidableEq α] (f : α → β) (a : α) (b : β) : put f a b a = b := by simp [put]

theorem put_other {α β : Type} [DecidableEq α] (f : α → β) {a x : α} (b : β) (h : x ≠ a) : put f a b x = f x := by simp [put, h]

namespace TestHeap

theorem classAttr_congr {h h' : TestHeap V} {N : Nat} (hc : ∀ c, c < N → h'.classes c = h.classes c) (n : String) :
    ∀ c, c < N → h'.classAttr c n = h.classAttr c n := by
  intro c
  induction c using Nat.strongRecOn with
  | _ c ih =>
    intro hN
    rw [classAttr, classAttr, hc c hN]
    cases (h.classes c).attrs n with
    | some f => rfl
    | none =>
      cases hb : (h.classes c).base with
      | none => rfl
      | some b =>
        dsimp only
        split
        · rename_i hlt; exact ih b hlt (by omega)
        · rfl

/-- The attribute of a class made for a run. -/
theorem classAttr_fresh {h : TestHeap V} {k c : Nat} (hb : (h.classes k).base = some c) (hk : c < k) (n : String) :
    h.classAttr k n = match (h.classes k).attrs n with
      | some f => some f
      | none => h.classAttr c n := by
  rw [classAttr, hb]
  cases (h.classes k).attrs n with
  | some f => rfl
  | none => simp [hk]

/-! ## Loading -/

/-- What loading has done: older classes and tests are as before, the tests are those numbered from `h.nextTest`. -/
structure Grown (h h' : TestHeap V) : Prop where
  classes : ∀ c, c < h.nextClass → h'.classes c = h.classes c
  tests : ∀ t, t < h.nextTest → h'.tests t = h.tests t
  nextClass : h.nextClass ≤ h'.nextClass
  nextTest : h.nextTest ≤ h'.nextTest

theorem Grown.refl (h : TestHeap V) : Grown h h := ⟨fun _ _ => rfl, fun _ _ => rfl, Nat.le_refl _, Nat.le_refl _⟩

theorem Grown.trans {h1 h2 h3 : TestHeap V} (a : Grown h1 h2) (b : Grown h2 h3) : Grown h1 h3 :=
  ⟨fun c hc => (b.classes c (Nat.lt_of_lt_of_le hc a.nextClass)).trans (a.classes c hc),
   fun t ht => (b.tests t (Nat.lt_of_lt_of_le ht a.nextTest)).trans (a.tests t ht),
   Nat.le_trans a.nextClass b.nextClass, Nat.le_trans a.nextTest b.nextTest⟩

/-- A test as it is after loading: of a class made after the first `N`, between `lo` and `hi`, which has the base class `c`. -/
structure NewTest (h : TestHeap V) (lo hi : Nat) (t c : Nat) (m : String) : Prop where
  lo : lo ≤ (h.tests t).cls
  hi : (h.tests t).cls < hi
  base : (h.classes (h.tests t).cls).base = some c
  noAttrs : ∀ n, (h.classes (h.tests t).cls).attrs n = none
  noProps : ∀ n, (h.classes (h.tests t).cls).props n = none
  method : (h.tests t).method = m
  fresh : ∀ n, (h.tests t).attrs n = none

theorem newTests_spec (h : TestHeap V) (c : Nat) (ms : List String) :
    Grown h (h.newTests c ms).1 ∧ (h.newTests c ms).1.classes = h.classes ∧ (h.newTests c ms).1.nextClass = h.nextClass ∧
    (h.newTests c ms).1.nextTest = h.nextTest + ms.length ∧ (h.newTests c ms).2 = List.range' h.nextTest ms.length ∧
    ∀ i m, ms[i]? = some m → (h.newTests c ms).1.tests (h.nextTest + i) = { cls := c, method := m } := by
  induction ms generalizing h with
  | nil => exact ⟨Grown.refl h, rfl, rfl, rfl, rfl, by simp⟩
  | cons m ms ih =>
    let h1 : TestHeap V := { h with tests := put h.tests h.nextTest { cls := c, method := m }, nextTest := h.nextTest + 1 }
    have g1 : Grown h h1 := ⟨fun _ _ => rfl, fun t ht => put_other _ _ (by omega), Nat.le_refl _, Nat.le_succ _⟩
    obtain ⟨a1, a2, a3, a4, a5, a6⟩ := ih h1
    refine ⟨g1.trans a1, a2, a3, ?_, ?_, ?_⟩
    · show (h1.newTests c ms).1.nextTest = _
      rw [a4]; show h.nextTest + 1 + ms.length = h.nextTest + (ms.length + 1); omega
    · show h.nextTest :: (h1.newTests c ms).2 = _
      rw [a5]; rfl
    · intro i x hx
      cases i with
      | zero =>
        simp only [List.getElem?_cons_zero, Option.some.injEq] at hx
        subst hx
        show (h1.newTests c ms).1.tests (h.nextTest + 0) = _
        rw [Nat.add_zero, a1.tests h.nextTest (Nat.lt_succ_self _)]
        exact put_same _ _ _
      | succ i =>
        have := a6 i x (by simpa using hx)
        show (h1.newTests c ms).1.tests (h.nextTest + (i + 1)) = _
        rw [show h.nextTest + (i + 1) = h1.nextTest + i by show _ = h.nextTest + 1 + i; omega]
        exact this

/-- Two lists side by side. -/
theorem loadModule_spec (post : Nat → Bool) (b : Bool) (classes : List (Nat × List String)) (h : TestHeap V) :
    Grown h (h.loadModule post b classes).1 ∧
    (h.loadModule post b classes).2 = List.range' h.nextTest ((h.loadModule post b classes).1.nextTest - h.nextTest) ∧
    Each2 (fun t (x : Nat × String) => NewTest (h.loadModule post b classes).1 h.nextClass (h.loadModule post b classes).1.nextClass t x.1 x.2)
      (h.loadModule post b classes).2 (loadTests post b classes) := by
  induction classes generalizing h with
  | nil => exact ⟨Grown.refl h, by simp [loadModule], .nil⟩
  | cons x cs ih =>
    obtain ⟨c, ms⟩ := x
    -- one class
    have one : Grown h (h.loadClass post b c ms).1 ∧
        (h.loadClass post b c ms).2 = List.range' h.nextTest ((h.loadClass post b c ms).1.nextTest - h.nextTest) ∧
        Each2 (fun t (x : Nat × String) => NewTest (h.loadClass post b c ms).1 h.nextClass (h.loadClass post b c ms).1.nextClass t x.1 x.2)
          (h.loadClass post b c ms).2 (if post c = b then ms.map fun m => (c, m) else []) := by
      unfold loadClass
      split
      · let h1 : TestHeap V := { h with classes := put h.classes h.nextClass { base := some c }, nextClass := h.nextClass + 1 }
        have g1 : Grown h h1 := ⟨fun k hk => put_other _ _ (by omega), fun _ _ => rfl, Nat.le_succ _, Nat.le_refl _⟩
        obtain ⟨a1, a2, a3, a4, a5, a6⟩ := newTests_spec h1 h.nextClass ms
        refine ⟨g1.trans a1, ?_, ?_⟩
        · show (h1.newTests h.nextClass ms).2 = _
          rw [a5, a4]; show _ = List.range' h.nextTest (h.nextTest + ms.length - h.nextTest)
          rw [Nat.add_sub_cancel_left]
        · show Each2 _ (h1.newTests h.nextClass ms).2 _
          rw [a5]
          have key : ∀ (l : List String) (i : Nat), (∀ j m, l[j]? = some m → (h1.newTests h.nextClass ms).1.tests (i + j) = { cls := h.nextClass, method := m }) →
              Each2 (fun t (x : Nat × String) => NewTest (h1.newTests h.nextClass ms).1 h.nextClass (h1.newTests h.nextClass ms).1.nextClass t x.1 x.2)
                (List.range' i l.length) (l.map fun m => (c, m)) := by
            intro l
            induction l with
            | nil => intro i _; exact .nil
            | cons m l ihl =>
              intro i hi
              refine .cons ?_ (ihl (i + 1) fun j x hx => ?_)
              · have e := hi 0 m rfl
                rw [Nat.add_zero] at e
                have ec : (h1.newTests h.nextClass ms).1.classes h.nextClass = { base := some c } := by rw [a2]; exact put_same _ _ _
                constructor
                · rw [e]; exact Nat.le_refl _
                · rw [e, a3]; exact Nat.lt_succ_self _
                · rw [e]; dsimp only; rw [ec]
                · rw [e]; dsimp only; rw [ec]; exact fun _ => rfl
                · rw [e]; dsimp only; rw [ec]; exact fun _ => rfl
                · rw [e]
                · rw [e]; exact fun _ => rfl
              · rw [show i + 1 + j = i + (j + 1) by omega]; exact hi (j + 1) x (by simpa using hx)
          exact key ms h1.nextTest a6
      · exact ⟨Grown.refl h, by simp, .nil⟩
    obtain ⟨g1, r1, e1⟩ := one
    obtain ⟨g2, r2, e2⟩ := ih (h.loadClass post b c ms).1
    refine ⟨g1.trans g2, ?_, ?_⟩
    · show (h.loadClass post b c ms).2 ++ ((h.loadClass post b c ms).1.loadModule post b cs).2 =
        List.range' h.nextTest (((h.loadClass post b c ms).1.loadModule post b cs).1.nextTest - h.nextTest)
      rw [r2]
      conv => lhs; lhs; rw [r1]
      have h1 := g1.nextTest
      have h2 := g2.nextTest
      have : (h.loadClass post b c ms).1.nextTest = h.nextTest + ((h.loadClass post b c ms).1.nextTest - h.nextTest) := by omega
      conv => lhs; rhs; arg 1; rw [this]
      rw [List.range'_append_1]
      congr 1; omega
    · show Each2 _ ((h.loadClass post b c ms).2 ++ ((h.loadClass post b c ms).1.loadModule post b cs).2) _
      have hl : loadTests post b ((c, ms) :: cs) = (if post c = b then ms.map fun m => (c, m) else []) ++ loadTests post b cs := by
        simp [loadTests]
      rw [hl]
      have app : ∀ {α β : Type} {R : α → β → Prop} {a a' : List α} {b b' : List β}, Each2 R a b → Each2 R a' b' → Each2 R (a ++ a') (b ++ b') := by
        intro α β R a a' b b' h1 h2
        induction h1 with
        | nil => exact h2
        | cons hx _ ih => exact .cons hx ih
      refine app ?_ ?_
      · have mono : ∀ {ts : List Nat} {xs : List (Nat × String)},
            (∀ t ∈ ts, t < (h.loadClass post b c ms).1.nextTest) →
            Each2 (fun t (x : Nat × String) => NewTest (h.loadClass post b c ms).1 h.nextClass (h.loadClass post b c ms).1.nextClass t x.1 x.2) ts xs →
            Each2 (fun t (x : Nat × String) => NewTest ((h.loadClass post b c ms).1.loadModule post b cs).1 h.nextClass
              ((h.loadClass post b c ms).1.loadModule post b cs).1.nextClass t x.1 x.2) ts xs := by
          intro ts xs hts he
          induction he with
          | nil => exact .nil
          | @cons t x ts xs hx _ ih =>
            refine .cons ?_ (ih fun t ht => hts t (List.mem_cons_of_mem _ ht))
            have et := g2.tests t (hts t List.mem_cons_self)
            have ec := g2.classes _ hx.hi
            constructor
            · rw [et]; exact hx.lo
            · rw [et]; exact Nat.lt_of_lt_of_le hx.hi g2.nextClass
            · rw [et, ec]; exact hx.base
            · rw [et, ec]; exact hx.noAttrs
            · rw [et, ec]; exact hx.noProps
            · rw [et]; exact hx.method
            · rw [et]; exact hx.fresh
        refine mono ?_ e1
        intro t ht
        rw [r1, List.mem_range'_1] at ht
        have := g1.nextTest
        omega
      · clear ih r2 r1 e1
        generalize ((h.loadClass post b c ms).1.loadModule post b cs).2 = ts at e2
        generalize loadTests post b cs = xs at e2
        induction e2 with
        | nil => exact .nil
        | cons hx _ ih =>
          refine .cons ?_ ih
          exact ⟨Nat.le_trans g1.nextClass hx.lo, hx.hi, hx.base, hx.noAttrs, hx.noProps, hx.method, hx.fresh⟩

/-! ## One test -/

/-- A test of the class made from `c` for the method `m`, now called `name`: its functions get the arguments `G`, its class has the attributes `A`. -/
structure TestIs (h0 h : TestHeap V) (t c : Nat) (m name : String) (G A : String → Option V) : Prop where
  old : c < h0.nextClass
  new : h0.nextClass ≤ (h.tests t).cls
  base : (h.classes (h.tests t).cls).base = some c
  method : (h.tests t).method = name
  own : ∀ f, h0.classAttr c m = some f → GetsArgs (h.testAttr t name) f G
  fixture : ∀ n ∈ ["setUp", "tearDown"], ∀ f, h0.classAttr c n = some f → GetsArgs (h.testAttr t n) f G
  classFixture : ∀ n ∈ ["setUpClass", "tearDownClass"], ∀ f, h0.classAttr c n = some f → GetsArgs (h.classAttr (h.tests t).cls n) f G
  props : ∀ n, (h.classes (h.tests t).cls).props n = A n

/-- The classes of the module are as they were. -/
def Unchanged (h0 h : TestHeap V) : Prop := ∀ c, c < h0.nextClass → h.classes c = h0.classes c

theorem classAttr_frame {h0 h h' : TestHeap V} {k c : Nat} (u : Unchanged h0 h) (u' : Unchanged h0 h') (old : c < h0.nextClass) (new : h0.nextClass ≤ k)
    (hb : (h.classes k).base = some c) (hc : h'.classes k = h.classes k) (n : String) : h'.classAttr k n = h.classAttr k n := by
  rw [classAttr_fresh (h := h') (by rw [hc]; exact hb) (by omega), classAttr_fresh hb (by omega), hc]
  rw [classAttr_congr (h := h0) (h' := h') u' n c old, classAttr_congr (h := h0) (h' := h) u n c old]

theorem TestIs.frame {h0 h h' : TestHeap V} {t c : Nat} {m name : String} {G A : String → Option V} (i : TestIs h0 h t c m name G A)
    (u : Unchanged h0 h) (u' : Unchanged h0 h') (ht : h'.tests t = h.tests t) (hc : h'.classes (h.tests t).cls = h.classes (h.tests t).cls) :
    TestIs h0 h' t c m name G A := by
  have hca : ∀ n, h'.classAttr (h.tests t).cls n = h.classAttr (h.tests t).cls n := fun n => classAttr_frame u u' i.old i.new i.base hc n
  have hta : ∀ n, h'.testAttr t n = h.testAttr t n := by
    intro n; unfold testAttr; rw [ht, hca]
  refine ⟨i.old, ?_, ?_, ?_, ?_, ?_, ?_, ?_⟩
  · rw [ht]; exact i.new
  · rw [ht, hc]; exact i.base
  · rw [ht]; exact i.method
  · intro f hf; rw [hta]; exact i.own f hf
  · intro n hn f hf; rw [hta]; exact i.fixture n hn f hf
  · intro n hn f hf; rw [ht, hca]; exact i.classFixture n hn f hf
  · intro n; rw [ht, hc]; exact i.props n

theorem classAttr_unbound {h : TestHeap V} (hm : ModuleHeap h) (n : String) : ∀ c f, h.classAttr c n = some f → f.bound = [] := by
  intro c
  induction c using Nat.strongRecOn with
  | _ c ih =>
    intro f hf
    rw [classAttr] at hf
    cases ha : (h.classes c).attrs n with
    | some g => rw [ha] at hf; injection hf with hf; subst hf; exact hm.unbound c n g ha
    | none =>
      rw [ha] at hf
      cases hb : (h.classes c).base with
      | none => rw [hb] at hf; cases hf
      | some b =>
        rw [hb] at hf; dsimp only at hf
        split at hf
        · rename_i hlt; exact ih b hlt f hf
        · cases hf

theorem getsArgs_unbound {f : Fn V} (h : f.bound = []) : GetsArgs (some f) f (fun _ => none) :=
  ⟨f, rfl, rfl, fun a => by rw [h]; simp⟩

theorem NewTest.testIs {h0 h : TestHeap V} {lo hi t c : Nat} {m : String} (n : NewTest h lo hi t c m) (hm : ModuleHeap h0) (u : Unchanged h0 h)
    (hc : c < h0.nextClass) (hlo : h0.nextClass ≤ lo) : TestIs h0 h t c m m (fun _ => none) (fun _ => none) := by
  have hnew : h0.nextClass ≤ (h.tests t).cls := Nat.le_trans hlo n.lo
  have hca : ∀ x, h.classAttr (h.tests t).cls x = h0.classAttr c x := by
    intro x
    rw [classAttr_fresh n.base (by omega), n.noAttrs]
    exact classAttr_congr (h := h0) (h' := h) u x c hc
  have hta : ∀ x, h.testAttr t x = h0.classAttr c x := by
    intro x; unfold testAttr; rw [n.fresh]; exact hca x
  refine ⟨hc, hnew, n.base, n.method, ?_, ?_, ?_, n.noProps⟩
  · intro f hf; rw [hta, hf]; exact getsArgs_unbound (classAttr_unbound hm m c f hf)
  · intro x _ f hf; rw [hta, hf]; exact getsArgs_unbound (classAttr_unbound hm x c f hf)
  · intro x _ f hf; rw [hca, hf]; exact getsArgs_unbound (classAttr_unbound hm x c f hf)

/-! ## Folds -/

theorem fold_keep {σ ι : Type} (op : σ → ι → σ) (P : σ → Prop) (l : List ι) (hP : ∀ s i, i ∈ l → P s → P (op s i)) (s : σ) (h : P s) : P (l.foldl op s) := by
  induction l generalizing s with
  | nil => exact h
  | cons i l ih => exact ih (fun s j hj => hP s j (List.mem_cons_of_mem _ hj)) _ (hP s i List.mem_cons_self h)

theorem fold_effect {σ ι : Type} (op : σ → ι → σ) (P Q : σ → Prop) (k : ι) (l : List ι) (hn : l.Nodup) (hk : k ∈ l)
    (hP : ∀ s i, i ∈ l → i ≠ k → P s → P (op s i)) (hQ : ∀ s i, i ∈ l → i ≠ k → Q s → Q (op s i)) (hE : ∀ s, P s → Q (op s k)) (s : σ) (h : P s) :
    Q (l.foldl op s) := by
  induction l generalizing s with
  | nil => simp at hk
  | cons i l ih =>
    rw [List.nodup_cons] at hn
    by_cases hi : i = k
    · subst hi
      refine fold_keep op Q l (fun s j hj => hQ s j (List.mem_cons_of_mem _ hj) (fun e => hn.1 (e ▸ hj))) _ (hE s h)
    · exact ih hn.2 ((List.mem_cons.1 hk).resolve_left (fun e => hi e.symm)) (fun s j hj => hP s j (List.mem_cons_of_mem _ hj))
        (fun s j hj => hQ s j (List.mem_cons_of_mem _ hj)) _ (hP s i List.mem_cons_self hi h)

theorem nodup_classesOf (h : TestHeap V) (suite : List Nat) : (h.classesOf suite).Nodup := by
  refine fold_keep _ List.Nodup suite ?_ [] List.nodup_nil
  intro cs t _ hn
  split
  · exact hn
  · rename_i hm
    rw [List.nodup_append]
    refine ⟨hn, by simp, ?_⟩
    intro a ha b hb e
    simp only [List.mem_singleton] at hb
    exact hm (by rw [← hb, ← e]; exact ha)

theorem mem_classesOf (h : TestHeap V) (suite : List Nat) (c : Nat) : c ∈ h.classesOf suite ↔ ∃ t ∈ suite, (h.tests t).cls = c := by
  have key : ∀ (suite : List Nat) (cs : List Nat),
      c ∈ suite.foldl (fun cs t => if (h.tests t).cls ∈ cs then cs else cs ++ [(h.tests t).cls]) cs ↔ c ∈ cs ∨ ∃ t ∈ suite, (h.tests t).cls = c := by
    intro suite
    induction suite with
    | nil => simp
    | cons t suite ih =>
      intro cs
      rw [List.foldl_cons, ih]
      split
      · rename_i hm
        constructor
        · rintro (h1 | ⟨u, h1, h2⟩)
          · exact .inl h1
          · exact .inr ⟨u, by simp [h1], h2⟩
        · rintro (h1 | ⟨u, h1, h2⟩)
          · exact .inl h1
          · rcases List.mem_cons.1 h1 with rfl | h1
            · exact .inl (h2 ▸ hm)
            · exact .inr ⟨u, h1, h2⟩
      · rw [List.mem_append, List.mem_singleton, or_assoc]
        refine or_congr Iff.rfl ?_
        constructor
        · rintro (h1 | ⟨u, h1, h2⟩)
          · exact ⟨t, by simp, h1.symm⟩
          · exact ⟨u, by simp [h1], h2⟩
        · rintro ⟨u, h1, h2⟩
          rcases List.mem_cons.1 h1 with rfl | h1
          · exact .inl h2.symm
          · exact .inr ⟨u, h1, h2⟩
  simpa [classesOf] using key suite []

/-! ## Operations on one test or class -/

/-- Only the test `t` changes, and it stays of its class. -/
structure OnTest (h h' : TestHeap V) (t : Nat) : Prop where
  classes : h'.classes = h.classes
  tests : ∀ u, u ≠ t → h'.tests u = h.tests u
  cls : (h'.tests t).cls = (h.tests t).cls
  nextClass : h'.nextClass = h.nextClass
  nextTest : h'.nextTest = h.nextTest

theorem OnTest.refl (h : TestHeap V) (t : Nat) : OnTest h h t := ⟨rfl, fun _ _ => rfl, rfl, rfl, rfl⟩

theorem OnTest.trans {h1 h2 h3 : TestHeap V} {t : Nat} (a : OnTest h1 h2 t) (b : OnTest h2 h3 t) : OnTest h1 h3 t :=
  ⟨b.classes.trans a.classes, fun u hu => (b.tests u hu).trans (a.tests u hu), b.cls.trans a.cls, b.nextClass.trans a.nextClass,
   b.nextTest.trans a.nextTest⟩

theorem OnTest.allCls {h h' : TestHeap V} {t : Nat} (a : OnTest h h' t) (u : Nat) : (h'.tests u).cls = (h.tests u).cls := by
  by_cases hu : u = t
  · subst hu; exact a.cls
  · rw [a.tests u hu]

theorem onTest_rename (h : TestHeap V) (x : String) (t : Nat) : OnTest h (h.rename x t) t := by
  unfold rename
  split
  · exact OnTest.refl h t
  · exact ⟨rfl, fun u hu => put_other _ _ hu, by simp, rfl, rfl⟩

theorem onTest_bindTestAttr (h : TestHeap V) (args : Dict V) (t : Nat) (n : String) : OnTest h (h.bindTestAttr args t n) t := by
  unfold bindTestAttr
  split
  · exact ⟨rfl, fun u hu => put_other _ _ hu, by simp [setTestAttr], rfl, rfl⟩
  · exact OnTest.refl h t

theorem onTest_bindTest (h : TestHeap V) (args : Dict V) (t : Nat) : OnTest h (h.bindTest args t) t :=
  ((onTest_bindTestAttr h args t _).trans (onTest_bindTestAttr _ args t _)).trans (onTest_bindTestAttr _ args t _)

/-- Only the class `c` changes, and it keeps its base class. -/
structure OnClass (h h' : TestHeap V) (c : Nat) : Prop where
  tests : h'.tests = h.tests
  classes : ∀ k, k ≠ c → h'.classes k = h.classes k
  base : (h'.classes c).base = (h.classes c).base
  nextClass : h'.nextClass = h.nextClass
  nextTest : h'.nextTest = h.nextTest

theorem OnClass.refl (h : TestHeap V) (c : Nat) : OnClass h h c := ⟨rfl, fun _ _ => rfl, rfl, rfl, rfl⟩

theorem OnClass.trans {h1 h2 h3 : TestHeap V} {c : Nat} (a : OnClass h1 h2 c) (b : OnClass h2 h3 c) : OnClass h1 h3 c :=
  ⟨b.tests.trans a.tests, fun u hu => (b.classes u hu).trans (a.classes u hu), b.base.trans a.base, b.nextClass.trans a.nextClass,
   b.nextTest.trans a.nextTest⟩

theorem onClass_bindClassAttr (h : TestHeap V) (args : Dict V) (c : Nat) (n : String) : OnClass h (h.bindClassAttr args c n) c := by
  unfold bindClassAttr
  split
  · exact ⟨rfl, fun u hu => put_other _ _ hu, by simp [setClassAttr], rfl, rfl⟩
  · exact OnClass.refl h c

theorem onClass_bindClass (h : TestHeap V) (args : Dict V) (c : Nat) : OnClass h (h.bindClass args c) c :=
  (onClass_bindClassAttr h args c _).trans (onClass_bindClassAttr _ args c _)

theorem Unchanged.onClass {h0 h h' : TestHeap V} {c : Nat} (u : Unchanged h0 h) (o : OnClass h h' c) (hc : h0.nextClass ≤ c) : Unchanged h0 h' :=
  fun k hk => (o.classes k (by omega)).trans (u k hk)

theorem Unchanged.onTest {h0 h h' : TestHeap V} {t : Nat} (u : Unchanged h0 h) (o : OnTest h h' t) : Unchanged h0 h' :=
  fun k hk => by rw [o.classes]; exact u k hk

theorem TestIs.onTest {h0 h h' : TestHeap V} {t u c : Nat} {m name : String} {G A : String → Option V} (i : TestIs h0 h t c m name G A)
    (un : Unchanged h0 h) (o : OnTest h h' u) (hu : u ≠ t) : TestIs h0 h' t c m name G A :=
  i.frame un (un.onTest o) (o.tests t (Ne.symm hu)) (by rw [o.classes])

theorem TestIs.onClass {h0 h h' : TestHeap V} {t k c : Nat} {m name : String} {G A : String → Option V} (i : TestIs h0 h t c m name G A)
    (un : Unchanged h0 h) (o : OnClass h h' k) (hk : k ≠ (h.tests t).cls) (hk0 : h0.nextClass ≤ k) : TestIs h0 h' t c m name G A :=
  i.frame un (un.onClass o hk0) (by rw [o.tests]) (o.classes _ (Ne.symm hk))

theorem getsArgs_bindArgs {g : Option (Fn V)} {f : Fn V} {G : String → Option V} (h : GetsArgs g f G) {args : Dict V} (hw : args.Wf) :
    ∃ g', g = some g' ∧ GetsArgs (some (g'.bindArgs args)) f (fun a => (args.get? a).or (G a)) := by
  obtain ⟨g', rfl, hp, hb⟩ := h
  refine ⟨g', rfl, _, rfl, hp, fun a => ?_⟩
  have hw' : (bindMatching g'.params args).Wf := List.Pairwise.sublist (List.Sublist.map _ List.filter_sublist) hw
  show (g'.bound.update (bindMatching g'.params args)).get? a = _
  rw [Dict.get?_update _ _ _ hw', get?_bindMatching, hb, hp]
  by_cases ha : a ∈ f.params <;> simp [ha]

/-! ## Binding the arguments of one test -/

/-- Tests have distinct names for their method and their fixtures. -/
theorem test_name {m : String} (h : ∃ x, m = "test" ++ x) : m ≠ "setUp" ∧ m ≠ "tearDown" := by
  obtain ⟨x, rfl⟩ := h
  constructor
  · intro e
    have := congrArg String.toList e
    simp [String.toList_append] at this
  · intro e
    have := congrArg String.toList e
    simp [String.toList_append] at this

/-- Between binding the functions of tests and those of classes. -/
structure HalfBound (h0 h : TestHeap V) (t c : Nat) (m name : String) (G' G A : String → Option V) : Prop where
  old : c < h0.nextClass
  new : h0.nextClass ≤ (h.tests t).cls
  base : (h.classes (h.tests t).cls).base = some c
  method : (h.tests t).method = name
  own : ∀ f, h0.classAttr c m = some f → GetsArgs ((h.tests t).attrs name) f G'
  fixture : ∀ n ∈ ["setUp", "tearDown"], ∀ f, h0.classAttr c n = some f → GetsArgs ((h.tests t).attrs n) f G'
  classFixture : ∀ n ∈ ["setUpClass", "tearDownClass"], ∀ f, h0.classAttr c n = some f → GetsArgs (h.classAttr (h.tests t).cls n) f G
  props : ∀ n, (h.classes (h.tests t).cls).props n = A n

theorem HalfBound.frame {h0 h h' : TestHeap V} {t c : Nat} {m name : String} {G' G A : String → Option V} (i : HalfBound h0 h t c m name G' G A)
    (u : Unchanged h0 h) (u' : Unchanged h0 h') (ht : h'.tests t = h.tests t) (hc : h'.classes (h.tests t).cls = h.classes (h.tests t).cls) :
    HalfBound h0 h' t c m name G' G A := by
  have hca : ∀ n, h'.classAttr (h.tests t).cls n = h.classAttr (h.tests t).cls n := fun n => classAttr_frame u u' i.old i.new i.base hc n
  refine ⟨i.old, ?_, ?_, ?_, ?_, ?_, ?_, ?_⟩
  · rw [ht]; exact i.new
  · rw [ht, hc]; exact i.base
  · rw [ht]; exact i.method
  · intro f hf; rw [ht]; exact i.own f hf
  · intro n hn f hf; rw [ht]; exact i.fixture n hn f hf
  · intro n hn f hf; rw [ht, hca]; exact i.classFixture n hn f hf
  · intro n; rw [ht, hc]; exact i.props n

theorem getsArgs_some {o : Option (Fn V)} {f : Fn V} {G : String → Option V} (h : GetsArgs o f G) : ∃ g, o = some g := by
  obtain ⟨g, h, _⟩ := h; exact ⟨g, h⟩

/-- Binding one function of a test. -/
theorem bindTestAttr_effect {h : TestHeap V} {t : Nat} {n : String} {f : Fn V} {G : String → Option V} (hg : GetsArgs (h.testAttr t n) f G)
    {args : Dict V} (hw : args.Wf) : GetsArgs (((h.bindTestAttr args t n).tests t).attrs n) f (fun a => (args.get? a).or (G a)) := by
  obtain ⟨g, e, hb⟩ := getsArgs_bindArgs hg hw
  simpa [bindTestAttr, e, setTestAttr] using hb

theorem bindTestAttr_attrs (h : TestHeap V) (args : Dict V) (t : Nat) {n n' : String} (hn : n' ≠ n) :
    ((h.bindTestAttr args t n).tests t).attrs n' = (h.tests t).attrs n' := by
  unfold bindTestAttr
  split
  · simp [setTestAttr, put_other _ _ hn]
  · rfl

theorem classAttr_same {h h' : TestHeap V} (hc : h'.classes = h.classes) (k : Nat) (n : String) : h'.classAttr k n = h.classAttr k n :=
  classAttr_congr (N := k + 1) (fun c _ => by rw [hc]) n k (Nat.lt_succ_self k)

theorem bindTestAttr_testAttr (h : TestHeap V) (args : Dict V) (t : Nat) {n n' : String} (hn : n' ≠ n) :
    (h.bindTestAttr args t n).testAttr t n' = h.testAttr t n' := by
  have o := onTest_bindTestAttr h args t n
  unfold testAttr
  rw [bindTestAttr_attrs h args t hn, o.cls, classAttr_same o.classes]

theorem bindTestAttr_method (h : TestHeap V) (args : Dict V) (t : Nat) (n : String) : ((h.bindTestAttr args t n).tests t).method = (h.tests t).method := by
  unfold bindTestAttr
  split
  · simp [setTestAttr]
  · rfl

theorem bindTest_effect {h0 h : TestHeap V} {t c : Nat} {m name : String} {G A : String → Option V} (i : TestIs h0 h t c m name G A)
    (hname : ∃ x, name = "test" ++ x) {args : Dict V} (hw : args.Wf) :
    HalfBound h0 (h.bindTest args t) t c m name (fun a => (args.get? a).or (G a)) G A := by
  obtain ⟨n1, n2⟩ := test_name hname
  have n3 : "setUp" ≠ "tearDown" := by decide
  have o := onTest_bindTest h args t
  have e : h.bindTest args t = ((h.bindTestAttr args t name).bindTestAttr args t "setUp").bindTestAttr args t "tearDown" := by
    unfold bindTest; rw [i.method]
  refine ⟨i.old, ?_, ?_, ?_, ?_, ?_, ?_, ?_⟩
  · rw [o.cls]; exact i.new
  · rw [o.cls, o.classes]; exact i.base
  · rw [e, bindTestAttr_method, bindTestAttr_method, bindTestAttr_method]; exact i.method
  · intro f hf
    rw [e, bindTestAttr_attrs _ _ _ n2, bindTestAttr_attrs _ _ _ n1]
    exact bindTestAttr_effect (i.own f hf) hw
  · intro n hn f hf
    have hg := i.fixture n hn f hf
    simp only [List.mem_cons, List.not_mem_nil, or_false] at hn
    rcases hn with rfl | rfl
    · rw [e, bindTestAttr_attrs _ _ _ n3]
      exact bindTestAttr_effect (by rw [bindTestAttr_testAttr _ _ _ (Ne.symm n1)]; exact hg) hw
    · rw [e]
      exact bindTestAttr_effect (by rw [bindTestAttr_testAttr _ _ _ (Ne.symm n3), bindTestAttr_testAttr _ _ _ (Ne.symm n2)]; exact hg) hw
  · intro n hn f hf; rw [o.cls, classAttr_same o.classes]; exact i.classFixture n hn f hf
  · intro n; rw [o.cls, o.classes]; exact i.props n

theorem bindClassAttr_effect {h : TestHeap V} {k : Nat} {n : String} {f : Fn V} {G : String → Option V} (hg : GetsArgs (h.classAttr k n) f G)
    {args : Dict V} (hw : args.Wf) : GetsArgs (((h.bindClassAttr args k n).classes k).attrs n) f (fun a => (args.get? a).or (G a)) := by
  obtain ⟨g, e, hb⟩ := getsArgs_bindArgs hg hw
  simpa [bindClassAttr, e, setClassAttr] using hb

theorem bindClassAttr_attrs (h : TestHeap V) (args : Dict V) (k : Nat) {n n' : String} (hn : n' ≠ n) :
    ((h.bindClassAttr args k n).classes k).attrs n' = (h.classes k).attrs n' := by
  unfold bindClassAttr
  split
  · simp [setClassAttr, put_other _ _ hn]
  · rfl

theorem bindClassAttr_props (h : TestHeap V) (args : Dict V) (k : Nat) (n : String) :
    ((h.bindClassAttr args k n).classes k).props = (h.classes k).props := by
  unfold bindClassAttr
  split
  · simp [setClassAttr]
  · rfl

theorem bindClass_effect {h0 h : TestHeap V} {t c : Nat} {m name : String} {G' G A : String → Option V} (i : HalfBound h0 h t c m name G' G A)
    (u : Unchanged h0 h) {args : Dict V} (hw : args.Wf) (hG : G' = fun a => (args.get? a).or (G a)) :
    TestIs h0 (h.bindClass args (h.tests t).cls) t c m name G' A := by
  have o := onClass_bindClass h args (h.tests t).cls
  have et : (h.bindClass args (h.tests t).cls).tests t = h.tests t := by rw [o.tests]
  have n3 : "setUpClass" ≠ "tearDownClass" := by decide
  refine ⟨i.old, ?_, ?_, ?_, ?_, ?_, ?_, ?_⟩
  · rw [et]; exact i.new
  · rw [et, o.base]; exact i.base
  · rw [et]; exact i.method
  · intro f hf
    have := i.own f hf
    obtain ⟨g, hg⟩ := getsArgs_some this
    unfold testAttr; rw [et]; rw [hg] at this ⊢; exact this
  · intro n hn f hf
    have := i.fixture n hn f hf
    obtain ⟨g, hg⟩ := getsArgs_some this
    unfold testAttr; rw [et]; rw [hg] at this ⊢; exact this
  · intro n hn f hf
    have hg := i.classFixture n hn f hf
    have fin : ∀ x, GetsArgs (((h.bindClass args (h.tests t).cls).classes (h.tests t).cls).attrs n) f x →
        GetsArgs ((h.bindClass args (h.tests t).cls).classAttr (h.tests t).cls n) f x := by
      intro x hx
      obtain ⟨g, e⟩ := getsArgs_some hx
      rw [classAttr, e]; rw [e] at hx; exact hx
    rw [et, hG]
    refine fin _ ?_
    simp only [List.mem_cons, List.not_mem_nil, or_false] at hn
    unfold bindClass
    rcases hn with rfl | rfl
    · rw [bindClassAttr_attrs _ _ _ n3]; exact bindClassAttr_effect hg hw
    · refine bindClassAttr_effect ?_ hw
      have o1 := onClass_bindClassAttr h args (h.tests t).cls "setUpClass"
      have : (h.bindClassAttr args (h.tests t).cls "setUpClass").classAttr (h.tests t).cls "tearDownClass" = h.classAttr (h.tests t).cls "tearDownClass" := by
        have hlt : c < (h.tests t).cls := Nat.lt_of_lt_of_le i.old i.new
        rw [classAttr_fresh (by rw [o1.base]; exact i.base) hlt, classAttr_fresh i.base hlt, bindClassAttr_attrs _ _ _ (Ne.symm n3)]
        rw [classAttr_congr (h := h0) (u.onClass o1 i.new) _ c i.old, classAttr_congr (h := h0) (h' := h) u _ c i.old]
      rw [this]; exact hg
  · intro n; rw [et]; unfold bindClass; rw [bindClassAttr_props, bindClassAttr_props]; exact i.props n

/-! ## Binding a suite -/

/-- The tests of a suite are of the classes given by `K`, which are new ones. -/
def SuiteOf (h0 h : TestHeap V) (suite : List Nat) (K : Nat → Nat) : Prop := ∀ t ∈ suite, (h.tests t).cls = K t ∧ h0.nextClass ≤ K t

theorem giveAttribute_keeps {h0 : TestHeap V} {suite : List Nat} {K : Nat → Nat} (h : TestHeap V) (name : String) (v : V)
    (u : Unchanged h0 h) (hs : SuiteOf h0 h suite K) :
    Unchanged h0 (h.giveAttribute suite name v) ∧ (h.giveAttribute suite name v).tests = h.tests := by
  refine fold_keep _ (fun h' => Unchanged h0 h' ∧ h'.tests = h.tests) _ ?_ h ⟨u, rfl⟩
  rintro h' c hc ⟨u', ht⟩
  obtain ⟨t, hm, e⟩ := (mem_classesOf h suite c).1 hc
  obtain ⟨e1, e2⟩ := hs t hm
  refine ⟨fun k hk => ?_, ht⟩
  exact (put_other _ _ (by omega)).trans (u' k hk)

theorem giveAttribute_effect {h0 : TestHeap V} {suite : List Nat} {K : Nat → Nat} {h : TestHeap V} {t c : Nat} {m n0 : String} {G A : String → Option V}
    (i : TestIs h0 h t c m n0 G A) (u : Unchanged h0 h) (hs : SuiteOf h0 h suite K) (ht : t ∈ suite) (name : String) (v : V) :
    TestIs h0 (h.giveAttribute suite name v) t c m n0 G (fun n => if n = name then some v else A n) := by
  have hk : (h.tests t).cls ∈ h.classesOf suite := (mem_classesOf h suite _).2 ⟨t, ht, rfl⟩
  have step : ∀ (h' : TestHeap V) (c' : Nat), OnClass h' { h' with classes := put h'.classes c' { h'.classes c' with props := put (h'.classes c').props name (some v) } } c' :=
    fun h' c' => ⟨rfl, fun k hk => put_other _ _ hk, by simp, rfl, rfl⟩
  have new : ∀ c' ∈ h.classesOf suite, h0.nextClass ≤ c' := by
    intro c' hc'
    obtain ⟨t', hm, e⟩ := (mem_classesOf h suite c').1 hc'
    obtain ⟨e1, e2⟩ := hs t' hm
    omega
  have := fold_effect (fun (h : TestHeap V) c => { h with classes := put h.classes c { h.classes c with props := put (h.classes c).props name (some v) } })
    (fun h' => TestIs h0 h' t c m n0 G A ∧ Unchanged h0 h' ∧ (h'.tests t).cls = (h.tests t).cls)
    (fun h' => TestIs h0 h' t c m n0 G (fun n => if n = name then some v else A n) ∧ Unchanged h0 h' ∧ (h'.tests t).cls = (h.tests t).cls)
    (h.tests t).cls (h.classesOf suite) (nodup_classesOf h suite) hk ?_ ?_ ?_ h ⟨i, u, rfl⟩
  · exact this.1
  · rintro h' c' hc' hne ⟨i', u', e'⟩
    exact ⟨i'.onClass u' (step h' c') (by rw [e']; exact hne) (new c' hc'), u'.onClass (step h' c') (new c' hc'), e'⟩
  · rintro h' c' hc' hne ⟨i', u', e'⟩
    exact ⟨i'.onClass u' (step h' c') (by rw [e']; exact hne) (new c' hc'), u'.onClass (step h' c') (new c' hc'), e'⟩
  · rintro h' ⟨i', u', e'⟩
    have o := step h' (h.tests t).cls
    have u2 := u'.onClass o (new _ hk)
    refine ⟨?_, u2, e'⟩
    rw [← e'] at o u2 ⊢
    have hlt : c < (h'.tests t).cls := Nat.lt_of_lt_of_le i'.old i'.new
    have hca : ∀ n, ({ h' with classes := put h'.classes (h'.tests t).cls { h'.classes (h'.tests t).cls with
        props := put (h'.classes (h'.tests t).cls).props name (some v) } } : TestHeap V).classAttr (h'.tests t).cls n = h'.classAttr (h'.tests t).cls n := by
      intro n
      rw [classAttr_fresh (by rw [o.base]; exact i'.base) hlt, classAttr_fresh i'.base hlt]
      rw [classAttr_congr (h := h0) u2 _ c i'.old, classAttr_congr (h := h0) (h' := h') u' _ c i'.old]
      simp
    have hta : ∀ n, ({ h' with classes := put h'.classes (h'.tests t).cls { h'.classes (h'.tests t).cls with
        props := put (h'.classes (h'.tests t).cls).props name (some v) } } : TestHeap V).testAttr t n = h'.testAttr t n := by
      intro n
      unfold testAttr
      dsimp only
      rw [hca]
    refine ⟨i'.old, i'.new, ?_, i'.method, ?_, ?_, ?_, ?_⟩
    · simpa using i'.base
    · intro f hf; rw [hta]; exact i'.own f hf
    · intro n hn f hf; rw [hta]; exact i'.fixture n hn f hf
    · intro n hn f hf; show GetsArgs (classAttr _ (h'.tests t).cls n) f G; rw [hca]; exact i'.classFixture n hn f hf
    · intro n
      simp only [put_same]
      by_cases hn : n = name
      · subst hn; simp
      · rw [put_other _ _ hn, if_neg hn]; exact i'.props n

theorem giveAttribute_other {h0 : TestHeap V} {suite : List Nat} {K : Nat → Nat} {h : TestHeap V} {t c : Nat} {m n0 : String} {G A : String → Option V}
    (i : TestIs h0 h t c m n0 G A) (u : Unchanged h0 h) (hs : SuiteOf h0 h suite K) (ht : ∀ s ∈ suite, K s ≠ (h.tests t).cls) (name : String) (v : V) :
    TestIs h0 (h.giveAttribute suite name v) t c m n0 G A := by
  have := fold_keep (fun (h : TestHeap V) c => { h with classes := put h.classes c { h.classes c with props := put (h.classes c).props name (some v) } })
    (fun h' => TestIs h0 h' t c m n0 G A ∧ Unchanged h0 h' ∧ (h'.tests t).cls = (h.tests t).cls) (h.classesOf suite) ?_ h ⟨i, u, rfl⟩
  · exact this.1
  · rintro h' c' hc' ⟨i', u', e'⟩
    obtain ⟨t', hm, e⟩ := (mem_classesOf h suite c').1 hc'
    obtain ⟨e1, e2⟩ := hs t' hm
    have o : OnClass h' { h' with classes := put h'.classes c' { h'.classes c' with props := put (h'.classes c').props name (some v) } } c' :=
      ⟨rfl, fun k hk => put_other _ _ hk, by simp, rfl, rfl⟩
    have hc0 : h0.nextClass ≤ c' := by omega
    exact ⟨i'.onClass u' o (by rw [e', ← e, e1]; exact ht t' hm) hc0, u'.onClass o hc0, e'⟩

/-- All attributes. -/
theorem giveAttributes {h0 : TestHeap V} {suite : List Nat} {K : Nat → Nat} (attributes : Dict V) (hw : attributes.Wf) {h : TestHeap V}
    (u : Unchanged h0 h) (hs : SuiteOf h0 h suite K) :
    Unchanged h0 (attributes.foldl (fun h p => h.giveAttribute suite p.1 p.2) h) ∧
    (attributes.foldl (fun h p => h.giveAttribute suite p.1 p.2) h).tests = h.tests ∧
    ∀ t c m n0 G A, TestIs h0 h t c m n0 G A →
      (t ∈ suite → TestIs h0 (attributes.foldl (fun h p => h.giveAttribute suite p.1 p.2) h) t c m n0 G (fun n => (attributes.get? n).or (A n))) ∧
      ((∀ s ∈ suite, K s ≠ (h.tests t).cls) → TestIs h0 (attributes.foldl (fun h p => h.giveAttribute suite p.1 p.2) h) t c m n0 G A) := by
  induction attributes generalizing h with
  | nil => exact ⟨u, rfl, fun t c m n0 G A i => ⟨fun _ => by simpa using i, fun _ => i⟩⟩
  | cons p rest ih =>
    obtain ⟨name, v⟩ := p
    have hw' : Dict.Wf rest := by simp only [Dict.Wf, Dict.keys, List.map_cons, List.nodup_cons] at hw; exact hw.2
    have hnm : Dict.get? rest name = none := by
      simp only [Dict.Wf, Dict.keys, List.map_cons, List.nodup_cons] at hw
      have : ∀ (r : Dict V), name ∉ r.map (·.1) → r.get? name = none := by
        intro r
        induction r with
        | nil => intro _; rfl
        | cons q r ihr =>
          intro hq
          simp only [List.map_cons, List.mem_cons, not_or] at hq
          simp only [Dict.get?, if_neg (Ne.symm hq.1)]
          exact ihr hq.2
      exact this rest hw.1
    obtain ⟨u1, e1⟩ := giveAttribute_keeps h name v u hs
    have hs1 : SuiteOf h0 (h.giveAttribute suite name v) suite K := by intro t ht; rw [e1]; exact hs t ht
    obtain ⟨a1, a2, a3⟩ := ih hw' u1 hs1
    refine ⟨a1, a2.trans e1, fun t c m n0 G A i => ⟨fun ht => ?_, fun ht => ?_⟩⟩
    · have := (a3 t c m n0 G _ (giveAttribute_effect i u hs ht name v)).1 ht
      have e : (fun n => (Dict.get? rest n).or (if n = name then some v else A n)) = fun n => (Dict.get? ((name, v) :: rest) n).or (A n) := by
        funext n
        by_cases hn : name = n
        · subst hn; simp [Dict.get?, hnm]
        · simp [Dict.get?, hn, Ne.symm hn]
      rw [e] at this
      exact this
    · exact (a3 t c m n0 G A (giveAttribute_other i u hs ht name v)).2 (by rw [e1]; exact ht)

/-- `bind` on the suite of a test gives the test the arguments and attributes; on other suites it does not change what it has. -/
theorem bind_effect {h0 : TestHeap V} {suite : List Nat} {K : Nat → Nat} (attributes args : Dict V) (hwa : attributes.Wf) (hw : args.Wf) {h : TestHeap V}
    (u : Unchanged h0 h) (hs : SuiteOf h0 h suite K) (hn : suite.Nodup) :
    Unchanged h0 (h.bind suite attributes args) ∧ (∀ t, ((h.bind suite attributes args).tests t).cls = (h.tests t).cls) ∧
    ∀ t c m n0 G A, TestIs h0 h t c m n0 G A → (∃ x, n0 = "test" ++ x) →
      (t ∈ suite → TestIs h0 (h.bind suite attributes args) t c m n0 (fun n => (args.get? n).or (G n)) (fun n => (attributes.get? n).or (A n))) ∧
      (t ∉ suite → (∀ s ∈ suite, K s ≠ (h.tests t).cls) → TestIs h0 (h.bind suite attributes args) t c m n0 G A) := by
  obtain ⟨u1, e1, a1⟩ := giveAttributes (h0 := h0) attributes hwa u hs
  unfold bind
  generalize attributes.foldl (fun h p => h.giveAttribute suite p.1 p.2) h = h1 at u1 e1 a1 ⊢
  have hs1 : SuiteOf h0 h1 suite K := by intro t ht; rw [e1]; exact hs t ht
  unfold bindArgs
  -- the tests
  have b := fold_keep (fun (h : TestHeap V) t => h.bindTest args t)
    (fun h' => Unchanged h0 h' ∧ (∀ t, (h'.tests t).cls = (h1.tests t).cls)) suite
    (fun h' t _ p => ⟨p.1.onTest (onTest_bindTest h' args t), fun s => ((onTest_bindTest h' args t).allCls s).trans (p.2 s)⟩) h1 ⟨u1, fun _ => rfl⟩
  have bown : ∀ t c m n0 G A, TestIs h0 h1 t c m n0 G A → (∃ x, n0 = "test" ++ x) → t ∈ suite →
      HalfBound h0 (suite.foldl (fun h t => h.bindTest args t) h1) t c m n0 (fun a => (args.get? a).or (G a)) G A := by
    intro t c m n0 G A i hx ht
    refine (fold_effect (fun (h : TestHeap V) t => h.bindTest args t) (fun h' => TestIs h0 h' t c m n0 G A ∧ Unchanged h0 h')
      (fun h' => HalfBound h0 h' t c m n0 (fun a => (args.get? a).or (G a)) G A ∧ Unchanged h0 h') t suite hn ht ?_ ?_ ?_ h1 ⟨i, u1⟩).1
    · rintro h' s _ hne ⟨i', u'⟩
      have o := onTest_bindTest h' args s
      exact ⟨i'.onTest u' o hne, u'.onTest o⟩
    · rintro h' s _ hne ⟨i', u'⟩
      have o := onTest_bindTest h' args s
      exact ⟨i'.frame u' (u'.onTest o) (o.tests t (Ne.symm hne)) (by rw [o.classes]), u'.onTest o⟩
    · rintro h' ⟨i', u'⟩
      exact ⟨bindTest_effect i' hx hw, u'.onTest (onTest_bindTest h' args t)⟩
  have both : ∀ t c m n0 G A, TestIs h0 h1 t c m n0 G A → t ∉ suite →
      TestIs h0 (suite.foldl (fun h t => h.bindTest args t) h1) t c m n0 G A := by
    intro t c m n0 G A i ht
    refine (fold_keep (fun (h : TestHeap V) t => h.bindTest args t) (fun h' => TestIs h0 h' t c m n0 G A ∧ Unchanged h0 h') suite ?_ h1 ⟨i, u1⟩).1
    rintro h' s hm ⟨i', u'⟩
    have o := onTest_bindTest h' args s
    exact ⟨i'.onTest u' o (fun e => ht (e ▸ hm)), u'.onTest o⟩
  generalize suite.foldl (fun h t => h.bindTest args t) h1 = h2 at b bown both ⊢
  obtain ⟨u2, e2⟩ := b
  have hcls : ∀ c ∈ h2.classesOf suite, h0.nextClass ≤ c ∧ ∃ s ∈ suite, K s = c := by
    intro c hc
    obtain ⟨s, hm, e⟩ := (mem_classesOf h2 suite c).1 hc
    obtain ⟨x1, x2⟩ := hs1 s hm
    rw [e2] at e
    exact ⟨by omega, s, hm, by rw [← x1]; exact e⟩
  have c3 := fold_keep (fun (h : TestHeap V) c => h.bindClass args c) (fun h' => Unchanged h0 h' ∧ h'.tests = h2.tests) (h2.classesOf suite)
    (fun h' c hc p => ⟨p.1.onClass (onClass_bindClass h' args c) (hcls c hc).1, (onClass_bindClass h' args c).tests.trans p.2⟩) h2 ⟨u2, rfl⟩
  refine ⟨c3.1, fun t => by rw [c3.2, e2, e1], fun t c m n0 G A i hx => ⟨fun ht => ?_, fun ht hk => ?_⟩⟩
  · have i1 := (a1 t c m n0 G A i).1 ht
    have i2 := bown t c m n0 G _ i1 hx ht
    have hk : (h2.tests t).cls ∈ h2.classesOf suite := (mem_classesOf h2 suite _).2 ⟨t, ht, rfl⟩
    refine (fold_effect (fun (h : TestHeap V) c => h.bindClass args c)
      (fun h' => HalfBound h0 h' t c m n0 (fun a => (args.get? a).or (G a)) G (fun n => (attributes.get? n).or (A n)) ∧ Unchanged h0 h' ∧ h'.tests = h2.tests)
      (fun h' => TestIs h0 h' t c m n0 (fun a => (args.get? a).or (G a)) (fun n => (attributes.get? n).or (A n)) ∧ Unchanged h0 h' ∧ h'.tests = h2.tests)
      (h2.tests t).cls (h2.classesOf suite) (nodup_classesOf h2 suite) hk ?_ ?_ ?_ h2 ⟨i2, u2, rfl⟩).1
    · rintro h' c' hc' hne ⟨i', u', e'⟩
      have o := onClass_bindClass h' args c'
      have u'' := u'.onClass o (hcls c' hc').1
      exact ⟨i'.frame u' u'' (by rw [o.tests]) (o.classes _ (by rw [e']; exact Ne.symm hne)), u'', o.tests.trans e'⟩
    · rintro h' c' hc' hne ⟨i', u', e'⟩
      have o := onClass_bindClass h' args c'
      exact ⟨i'.onClass u' o (by rw [e']; exact hne) (hcls c' hc').1, u'.onClass o (hcls c' hc').1, o.tests.trans e'⟩
    · rintro h' ⟨i', u', e'⟩
      have o := onClass_bindClass h' args (h2.tests t).cls
      refine ⟨?_, u'.onClass o (hcls _ hk).1, o.tests.trans e'⟩
      have := bindClass_effect i' u' hw rfl
      rw [e'] at this
      exact this
  · have i1 := (a1 t c m n0 G A i).2 hk
    have i2 := both t c m n0 G A i1 ht
    refine (fold_keep (fun (h : TestHeap V) c => h.bindClass args c) (fun h' => TestIs h0 h' t c m n0 G A ∧ Unchanged h0 h' ∧ h'.tests = h2.tests)
      (h2.classesOf suite) ?_ h2 ⟨i2, u2, rfl⟩).1
    rintro h' c' hc' ⟨i', u', e'⟩
    obtain ⟨x1, s, hm, x2⟩ := hcls c' hc'
    have o := onClass_bindClass h' args c'
    exact ⟨i'.onClass u' o (by rw [e', e2, e1, ← x2]; exact hk s hm) x1, u'.onClass o x1, o.tests.trans e'⟩

end TestHeap

end Verif
