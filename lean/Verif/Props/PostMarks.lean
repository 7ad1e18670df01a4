import Verif.Spec.PostMarks

namespace Verif

/-! ## C127 Which tests are run after shutdown -/

theorem runMarks_append (own : List (Nat × Bool)) (xs ys : List MarkOp) : runMarks own (xs ++ ys) = runMarks (runMarks own xs) ys := by
  induction xs generalizing own with
  | nil => rfl
  | cons x xs ih => exact ih _

theorem ownMark_quiet (c : Nat) : ∀ (ops : List MarkOp) (own : List (Nat × Bool)), (∀ o ∈ ops, ∀ b, ¬ o.Gives c b) → ownMark (runMarks own ops) c = ownMark own c
  | [], _, _ => rfl
  | op :: ops, own, h => by
    have h1 := ownMark_quiet c ops (markStep own op).1 fun o ho => h o (List.mem_cons_of_mem _ ho)
    show ownMark (runMarks (markStep own op).1 ops) c = _
    rw [h1]
    have h2 := h op (List.mem_cons_self ..)
    cases op with
    | decorateOther => rfl
    | decorate d =>
      have hd : (c == d) = false := by
        cases hcd : c == d
        · rfl
        · exact absurd (.inl ⟨by rw [eq_of_beq hcd], rfl⟩) (h2 true)
      simp [markStep, ownMark, List.lookup, hd]
    | assign d b =>
      have hd : (c == d) = false := by
        cases hcd : c == d
        · rfl
        · exact absurd (.inr (by rw [eq_of_beq hcd])) (h2 b)
      simp [markStep, ownMark, List.lookup, hd]

theorem lastMark_or_none (c : Nat) (ops : List MarkOp) : (∃ b, LastMark ops c b) ∨ ∀ o ∈ ops, ∀ b, ¬ o.Gives c b := by
  induction ops with
  | nil => exact .inr (by simp)
  | cons op ops ih =>
    rcases ih with ⟨b, before, o, after, rfl, hg, hq⟩ | hn
    · exact .inl ⟨b, op :: before, o, after, rfl, hg, hq⟩
    · by_cases hg : ∃ b, op.Gives c b
      · obtain ⟨b, hg⟩ := hg
        exact .inl ⟨b, [], op, ops, rfl, hg, hn⟩
      · refine .inr fun o ho b' hb => ?_
        rcases List.mem_cons.mp ho with rfl | ho
        · exact hg ⟨b', hb⟩
        · exact hn o ho b' hb

theorem ownMark_last {ops : List MarkOp} {c : Nat} {b : Bool} : LastMark ops c b → ownMark (runMarks [] ops) c = some b := by
  rintro ⟨before, op, after, rfl, hg, hq⟩
  rw [runMarks_append]
  show ownMark (runMarks (markStep _ op).1 after) c = _
  rw [ownMark_quiet c after _ hq]
  rcases hg with ⟨rfl, rfl⟩ | rfl <;> simp [markStep, ownMark]

theorem ownMark_iff (ops : List MarkOp) (c : Nat) (b : Bool) : ownMark (runMarks [] ops) c = some b ↔ LastMark ops c b := by
  refine ⟨fun h => ?_, ownMark_last⟩
  rcases lastMark_or_none c ops with ⟨b', hb'⟩ | hn
  · rw [ownMark_last hb'] at h
    cases h
    exact hb'
  · rw [ownMark_quiet c ops [] hn] at h
    cases h

theorem ownMark_none (ops : List MarkOp) (c : Nat) : ownMark (runMarks [] ops) c = none ↔ ∀ op ∈ ops, ∀ b, ¬ op.Gives c b := by
  constructor
  · intro h
    rcases lastMark_or_none c ops with ⟨b', hb'⟩ | hn
    · rw [ownMark_last hb'] at h
      cases h
    · exact hn
  · intro h
    rw [ownMark_quiet c ops [] h]
    rfl

theorem findSome_iff {f : Nat → Option Bool} {b : Bool} : ∀ l : List Nat, l.findSome? f = some b ↔ ∃ nearer d further, l = nearer ++ d :: further ∧ f d = some b ∧ ∀ x ∈ nearer, f x = none
  | [] => by simp
  | x :: l => by
    rw [List.findSome?_cons]
    cases hx : f x with
    | some b' =>
      dsimp only
      constructor
      · intro h; cases h; exact ⟨[], x, l, rfl, hx, by simp⟩
      · rintro ⟨nearer, d, further, he, hd, hn⟩
        cases nearer with
        | nil => cases he; rw [hx] at hd; exact hd
        | cons y ys =>
          cases he
          rw [hn x (by simp)] at hx
          cases hx
    | none =>
      dsimp only
      rw [findSome_iff l]
      constructor
      · rintro ⟨nearer, d, further, rfl, hd, hn⟩
        refine ⟨x :: nearer, d, further, rfl, hd, ?_⟩
        intro y hy
        rcases List.mem_cons.mp hy with rfl | hy
        · exact hx
        · exact hn y hy
      · rintro ⟨nearer, d, further, he, hd, hn⟩
        cases nearer with
        | nil => cases he; rw [hx] at hd; cases hd
        | cons y ys => cases he; exact ⟨ys, d, further, rfl, hd, fun z hz => hn z (by simp [hz])⟩

/-- C127.  A class is for tests after shutdown exactly if the nearest class it inherits from that has a mark, itself included, was marked so last. -/
theorem C127_nearest (mro : Nat → List Nat) (ops : List MarkOp) (c : Nat) : postAttr mro (runMarks [] ops) c = true ↔ NearestMark mro ops c true := by
  have h : postAttr mro (runMarks [] ops) c = true ↔ (mro c).findSome? (ownMark (runMarks [] ops)) = some true := by
    unfold postAttr
    cases (mro c).findSome? (ownMark (runMarks [] ops)) with
    | none => simp
    | some b => simp
  rw [h, findSome_iff]
  constructor
  · rintro ⟨n, d, f, he, hd, hn⟩
    exact ⟨n, d, f, he, (ownMark_iff ops d true).mp hd, fun x hx => (ownMark_none ops x).mp (hn x hx)⟩
  · rintro ⟨n, d, f, he, hd, hn⟩
    exact ⟨n, d, f, he, (ownMark_iff ops d true).mpr hd, fun x hx => (ownMark_none ops x).mpr (hn x hx)⟩

/-- C127.  If marks are made by the decorator only, these are the classes that were decorated and all that inherit from them. -/
theorem C127_decorated (mro : Nat → List Nat) (ops : List MarkOp) (ho : ∀ c b, .assign c b ∉ ops) (c : Nat) :
    postAttr mro (runMarks [] ops) c = true ↔ ∃ d ∈ mro c, .decorate d ∈ ops := by
  have hm : ∀ d b, LastMark ops d b → b = true ∧ .decorate d ∈ ops := by
    rintro d b ⟨before, op, after, rfl, hg, -⟩
    rcases hg with ⟨rfl, rfl⟩ | rfl
    · exact ⟨rfl, by simp⟩
    · exact absurd (by simp) (ho d b)
  rw [C127_nearest]
  constructor
  · rintro ⟨n, d, f, he, hd, -⟩
    exact ⟨d, by rw [he]; simp, (hm d true hd).2⟩
  · rintro ⟨d, hd, hdec⟩
    rw [← C127_nearest]
    unfold postAttr
    cases hf : (mro c).findSome? (ownMark (runMarks [] ops)) with
    | none =>
      have := List.findSome?_eq_none_iff.mp hf d hd
      exact absurd (.inl ⟨rfl, rfl⟩) ((ownMark_none ops d).mp this (.decorate d) hdec true)
    | some b =>
      obtain ⟨n, x, f, -, hx, -⟩ := (findSome_iff _).mp hf
      rw [(hm x b ((ownMark_iff ops x b).mp hx)).1]
      rfl

/-- C127.  Every test of the module is run once with its class: before or after shutdown, according to the mark, and never both. -/
theorem C127_tests (mro : Nat → List Nat) (ops : List MarkOp) (classes : List (Nat × List String)) (c : Nat) (m : String) :
    ((c, m) ∈ markedTests mro (runMarks [] ops) true classes ↔ (∃ ms, (c, ms) ∈ classes ∧ m ∈ ms) ∧ NearestMark mro ops c true) ∧
    ((c, m) ∈ markedTests mro (runMarks [] ops) false classes ↔ (∃ ms, (c, ms) ∈ classes ∧ m ∈ ms) ∧ ¬ NearestMark mro ops c true) := by
  have key : ∀ b, (c, m) ∈ markedTests mro (runMarks [] ops) b classes ↔ (∃ ms, (c, ms) ∈ classes ∧ m ∈ ms) ∧ postAttr mro (runMarks [] ops) c = b := by
    intro b
    unfold markedTests loadTests
    rw [List.mem_flatMap]
    constructor
    · rintro ⟨⟨d, ms⟩, hd, hm⟩
      dsimp only at hm
      split at hm
      · rename_i hp
        obtain ⟨m', hm', he⟩ := List.mem_map.mp hm
        cases he
        exact ⟨⟨ms, hd, hm'⟩, hp⟩
      · cases hm
    · rintro ⟨⟨ms, h1, h2⟩, hp⟩
      refine ⟨(c, ms), h1, ?_⟩
      dsimp only
      rw [if_pos hp]
      exact List.mem_map.mpr ⟨m, h2, rfl⟩
  rw [key, key, ← C127_nearest]
  simp

/-- C127.  Decorating anything but a class, and only that, raises TypeError, and such attempts make no difference for any class. -/
theorem C127_not_class (mro : Nat → List Nat) (ops : List MarkOp) (c : Nat) :
    (∀ own op, (markStep own op).2 = .error .typeError ↔ op = .decorateOther) ∧
    postAttr mro (runMarks [] ops) c = postAttr mro (runMarks [] (ops.filter fun op => op ≠ .decorateOther)) c := by
  constructor
  · intro own op
    cases op <;> simp [markStep]
  · have : ∀ own, runMarks own ops = runMarks own (ops.filter fun op => op ≠ .decorateOther) := by
      induction ops with
      | nil => intro own; rfl
      | cons op ops ih =>
        intro own
        cases op with
        | decorateOther => simpa [runMarks, markStep] using ih own
        | decorate d => simpa [runMarks, markStep] using ih ((d, true) :: own)
        | assign d b => simpa [runMarks, markStep] using ih ((d, b) :: own)
    rw [this]

/-- C127.  Decorating a class changes nothing for the classes that do not inherit from it. -/
theorem C127_others (mro : Nat → List Nat) (own : List (Nat × Bool)) (c d : Nat) (h : d ∉ mro c) : postAttr mro (markStep own (.decorate d)).1 c = postAttr mro own c := by
  unfold postAttr
  congr 1
  have : ∀ l : List Nat, d ∉ l → l.findSome? (ownMark ((d, true) :: own)) = l.findSome? (ownMark own) := by
    intro l
    induction l with
    | nil => intro _; rfl
    | cons x l ih =>
      intro hn
      have hx : (x == d) = false := by
        cases hxd : x == d
        · rfl
        · exact absurd (by rw [eq_of_beq hxd]; simp) hn
      rw [List.findSome?_cons, List.findSome?_cons, ih fun hm => hn (List.mem_cons_of_mem _ hm)]
      simp [ownMark, List.lookup, hx]
  exact this (mro c) h

/-- Class 1 inherits from 0, class 2 from 1; class 0 is decorated, and class 1 takes that back for itself and class 2. -/
def sampleMro : Nat → List Nat
  | 1 => [1, 0]
  | 2 => [2, 1, 0]
  | c => [c]

example : NearestMark sampleMro [.decorate 0] 2 true ∧ ¬ NearestMark sampleMro [.decorate 0, .decorateOther, .assign 1 false] 2 true ∧
    markedTests sampleMro (runMarks [] [.decorate 0, .assign 1 false]) true [(0, ["test_a"]), (1, ["test_a", "test_b"]), (2, ["test_c"])] = [(0, "test_a")] ∧ 1 ∉ sampleMro 0 := by
  refine ⟨?_, ?_, by decide +kernel, by decide⟩
  · rw [← C127_nearest]; decide +kernel
  · rw [← C127_nearest]; decide +kernel

end Verif
