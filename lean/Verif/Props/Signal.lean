import Verif.Spec.Signal

/-!
# Property C47: signal managers
-/

namespace Verif
open SigSt

/-- The file descriptor on top of a chain of managers whose end is `reg`. -/
def topFd (reg : Fd) : List Nat → Fd
  | [] => reg
  | m :: _ => .mgr m

/-- The managers are linked to each other. -/
def Linked (s : SigSt) (reg : Fd) : List Nat → Prop
  | [] => True
  | m :: st => (s.mgr m).parent = st.head? ∧ (s.mgr m).prev = topFd reg st ∧ Linked s reg st

/-- Invariant of nested use. -/
structure SigInv (s : SigSt) (st : List Nat) (reg : Fd) (rs : List Fd) : Prop where
  nodup : st.Nodup
  regExt : ∀ m, reg ≠ .mgr m
  fd : s.fd = topFd reg st
  current : s.current = st.head?
  override : s.override = st.getLast?
  linked : Linked s reg st
  returned : s.returned = rs
  failed : s.failed = 0

theorem Linked.congr {s s' : SigSt} {reg : Fd} : ∀ {st : List Nat},
    (∀ m ∈ st, (s'.mgr m).parent = (s.mgr m).parent ∧ (s'.mgr m).prev = (s.mgr m).prev) →
    Linked s reg st → Linked s' reg st
  | [], _, _ => trivial
  | m :: st, h, ⟨h1, h2, h3⟩ =>
    ⟨(h m (by simp)).1.trans h1, (h m (by simp)).2.trans h2,
      Linked.congr (fun x hx => h x (by simp [hx])) h3⟩

theorem Linked.relink {s s' : SigSt} {reg reg' : Fd} {o : Nat} : ∀ {st : List Nat}, st.Nodup →
    st.getLast? = some o → (∀ m, (s'.mgr m).parent = (s.mgr m).parent) →
    (∀ m, m ≠ o → (s'.mgr m).prev = (s.mgr m).prev) → (s'.mgr o).prev = reg' →
    Linked s reg st → Linked s' reg' st
  | [], _, h, _, _, _, _ => by simp at h
  | [m], _, h, hp, _, ho, ⟨h1, _, _⟩ => by
    simp at h; subst h
    exact ⟨(hp m).trans h1, ho, trivial⟩
  | m :: m' :: st, hn, h, hp, hprev, ho, ⟨h1, h2, h3⟩ => by
    have hl : (m' :: st).getLast? = some o := by rw [List.getLast?_cons_cons] at h; exact h
    have hne : m ≠ o := by
      rintro rfl
      exact (List.nodup_cons.mp hn).1 (List.mem_of_getLast? hl)
    exact ⟨(hp m).trans h1, (hprev m hne).trans h2,
      Linked.relink (List.nodup_cons.mp hn).2 hl hp hprev ho h3⟩

@[simp] theorem upd_mgr_self (s : SigSt) (m : Nat) (x : SigMgr) : (s.upd m x).mgr m = x := by simp [upd]
theorem upd_mgr_ne (s : SigSt) {m i : Nat} (x : SigMgr) (h : i ≠ m) : (s.upd m x).mgr i = s.mgr i := by
  simp [upd, h]

theorem write_frame (f : Fd) (data : List Nat) (s : SigSt) :
    (write f data s).fd = s.fd ∧ (write f data s).current = s.current ∧ (write f data s).override = s.override ∧
    (write f data s).returned = s.returned ∧ (write f data s).failed = s.failed ∧
    ∀ m, ((write f data s).mgr m).parent = (s.mgr m).parent ∧ ((write f data s).mgr m).prev = (s.mgr m).prev ∧
      ((write f data s).mgr m).handlers = (s.mgr m).handlers ∧ ((write f data s).mgr m).seen = (s.mgr m).seen := by
  cases f with
  | mgr k =>
    refine ⟨rfl, rfl, rfl, rfl, rfl, fun m => ?_⟩
    simp only [write, upd]
    split
    · next h => subst h; exact ⟨rfl, rfl, rfl, rfl⟩
    · exact ⟨rfl, rfl, rfl, rfl⟩
  | none => exact ⟨rfl, rfl, rfl, rfl, rfl, fun m => ⟨rfl, rfl, rfl, rfl⟩⟩
  | ext n => exact ⟨rfl, rfl, rfl, rfl, rfl, fun m => ⟨rfl, rfl, rfl, rfl⟩⟩

theorem upd_frame (s : SigSt) (k : Nat) (x : SigMgr) (h : x.parent = (s.mgr k).parent) (h' : x.prev = (s.mgr k).prev) :
    ∀ m, ((s.upd k x).mgr m).parent = (s.mgr m).parent ∧ ((s.upd k x).mgr m).prev = (s.mgr m).prev := by
  intro m
  simp only [upd]
  split
  · next e => subst e; exact ⟨h, h'⟩
  · exact ⟨rfl, rfl⟩

/-- Steps that keep the chain. -/
theorem SigInv.keep {s s' : SigSt} {st : List Nat} {reg : Fd} {rs : List Fd} (h : SigInv s st reg rs)
    (h1 : s'.fd = s.fd) (h2 : s'.current = s.current) (h3 : s'.override = s.override) (h4 : s'.returned = s.returned)
    (h5 : s'.failed = s.failed)
    (h6 : ∀ m, (s'.mgr m).parent = (s.mgr m).parent ∧ (s'.mgr m).prev = (s.mgr m).prev) : SigInv s' st reg rs :=
  ⟨h.nodup, h.regExt, h1.trans h.fd, h2.trans h.current, h3.trans h.override, h.linked.congr fun m _ => h6 m,
    h4.trans h.returned, h5.trans h.failed⟩

theorem SigInv.enter {s : SigSt} {st : List Nat} {reg : Fd} {rs : List Fd} (h : SigInv s st reg rs) {m : Nat}
    (hm : m ∉ st) : SigInv (s.enter m) (m :: st) reg rs := by
  refine ⟨List.nodup_cons.mpr ⟨hm, h.nodup⟩, h.regExt, rfl, rfl, ?_, ⟨?_, ?_, ?_⟩, h.returned, h.failed⟩
  · simp only [SigSt.enter, chainHandle, upd]
    rw [h.current, h.override]
    cases st with
    | nil => rfl
    | cons a st => simp [List.getLast?_cons_cons]
  · simp [SigSt.enter, chainHandle, upd, h.current]
  · simp [SigSt.enter, chainHandle, upd, h.fd]
  · refine h.linked.congr fun x hx => ?_
    have : x ≠ m := fun e => hm (e ▸ hx)
    simp [SigSt.enter, chainHandle, upd, this]

theorem SigInv.leave {s : SigSt} {st : List Nat} {reg : Fd} {rs : List Fd} {m : Nat} (h : SigInv s (m :: st) reg rs) :
    SigInv (s.leave m) st reg rs := by
  have hn := List.nodup_cons.mp h.nodup
  obtain ⟨hp, hv, hl⟩ := h.linked
  refine ⟨hn.2, h.regExt, ?_, ?_, ?_, ?_, h.returned, ?_⟩
  · simp [SigSt.leave, chainHandle, upd, hv]
  · simp [SigSt.leave, chainHandle, upd, hp]
  · simp only [SigSt.leave, chainHandle, upd, if_true, hp, h.override]
    cases st with
    | nil => rfl
    | cons a st => simp [List.getLast?_cons_cons]
  · refine hl.congr fun x hx => ?_
    have : x ≠ m := fun e => hn.1 (e ▸ hx)
    simp [SigSt.leave, chainHandle, upd, this]
  · simp [SigSt.leave, chainHandle, upd, h.fd, topFd, h.failed]

theorem SigInv.setFd {s : SigSt} {st : List Nat} {reg : Fd} {rs : List Fd} (h : SigInv s st reg rs) (f : Fd)
    (hf : ∀ m, f ≠ .mgr m) : SigInv (s.setFd f) st f (rs ++ [reg]) := by
  cases hst : st.getLast? with
  | none =>
    have : st = [] := List.getLast?_eq_none_iff.mp hst
    subst this
    have ho : s.override = none := by rw [h.override]; rfl
    have hfd := h.fd
    simp only [SigSt.setFd, ho]
    exact ⟨List.nodup_nil, hf, rfl, h.current, by rw [← hst, ← h.override], trivial, by
      simp only; rw [h.returned, hfd]; rfl, h.failed⟩
  | some o =>
    have ho : s.override = some o := by rw [h.override, hst]
    simp only [SigSt.setFd, ho, chainHandle]
    have hprev : ∀ {st : List Nat}, Linked s reg st → st.getLast? = some o → (s.mgr o).prev = reg := by
      intro st
      induction st with
      | nil => intro _ h; simp at h
      | cons a st ih =>
        rintro ⟨_, h2, h3⟩ hl
        cases st with
        | nil => simp at hl; subst hl; exact h2
        | cons b st => rw [List.getLast?_cons_cons] at hl; exact ih h3 hl
    have hne : st ≠ [] := by rintro rfl; simp at hst
    refine ⟨h.nodup, hf, ?_, h.current, by rw [← h.override]; rfl, ?_, ?_, h.failed⟩
    · show s.fd = _
      rw [h.fd]
      cases st with
      | nil => exact absurd rfl hne
      | cons a st => rfl
    · refine h.linked.relink h.nodup hst ?_ ?_ ?_
      · intro m; simp only [upd]; split
        · next e => subst e; rfl
        · rfl
      · intro m hm; simp [upd, hm]
      · simp [upd]
    · simp only; rw [hprev h.linked hst]; show s.returned ++ _ = _; rw [h.returned]

/-- The invariant after a nested history. -/
theorem SigInv.run (raises : Nat → Bool) : ∀ (ls : List SigLabel) {s : SigSt} {st st' : List Nat} {reg : Fd}
    {rs : List Fd}, SigInv s st reg rs → nested st ls = some st' →
    SigInv (s.run raises ls) st' (plainFd (reg, rs) ls).1 (plainFd (reg, rs) ls).2
  | [], s, st, st', reg, rs, h, hn => by simp [nested] at hn; subst hn; exact h
  | l :: ls, s, st, st', reg, rs, h, hn => by
    cases l with
    | enter m =>
      simp only [nested] at hn
      split at hn
      · cases hn
      · next hm => exact SigInv.run raises ls (h.enter hm) hn
    | leave m =>
      simp only [nested] at hn
      split at hn
      · next hm =>
        cases st with
        | nil => simp at hm
        | cons a st => simp at hm; subst hm; exact SigInv.run raises ls h.leave hn
      · cases hn
    | register m sig hd =>
      exact SigInv.run raises ls (h.keep rfl rfl rfl rfl rfl (upd_frame s m _ rfl rfl)) hn
    | setFd n =>
      cases n with
      | none => exact SigInv.run raises ls (h.setFd .none (by simp)) hn
      | some n => exact SigInv.run raises ls (h.setFd (.ext n) (by simp)) hn
    | signal x =>
      obtain ⟨a, b, c, d, e, f⟩ := write_frame s.fd [x] s
      exact SigInv.run raises ls (h.keep a b c d e fun m => ⟨(f m).1, (f m).2.1⟩) hn
    | read m k =>
      refine SigInv.run raises ls (s := s.read raises m k) ?_ hn
      simp only [SigSt.read]
      split
      · have h1 := h.keep (s' := s.upd m { s.mgr m with
          buf := (s.mgr m).buf.drop k
          seen := (s.mgr m).seen ++ (callHandlers raises (s.mgr m).handlers ((s.mgr m).buf.take k)).1 })
          rfl rfl rfl rfl rfl (upd_frame s m _ rfl rfl)
        exact h1.keep
          (write_frame _ _ _).1 (write_frame _ _ _).2.1 (write_frame _ _ _).2.2.1 (write_frame _ _ _).2.2.2.1
          (write_frame _ _ _).2.2.2.2.1 fun i =>
            ⟨((write_frame _ _ _).2.2.2.2.2 i).1, ((write_frame _ _ _).2.2.2.2.2 i).2.1⟩
      · exact h.keep rfl rfl rfl rfl rfl (upd_frame s m _ rfl rfl)

theorem Idle.inv {s : SigSt} (h : Idle s) (hf : s.failed = 0) : SigInv s [] s.fd s.returned :=
  ⟨List.nodup_nil, h.noManager, rfl, h.current, h.override, trivial, rfl, hf⟩

/-- C47: managers used in a nested way are transparent: whatever is done in between, every call of `signal.set_wakeup_fd`
by somebody else returns what it would return without managers, no assertion fails, and when all managers are left, the wakeup file
descriptor of the process is what it would be without managers and `signal.set_wakeup_fd` is the original function. -/
theorem C47_transparent (raises : Nat → Bool) (s : SigSt) (hs : Idle s) (hf : s.failed = 0) (ls : List SigLabel)
    (st : List Nat) (hn : nested [] ls = some st) :
    (s.run raises ls).returned = (plainFd (s.fd, s.returned) ls).2 ∧ (s.run raises ls).failed = 0 ∧
    (st = [] → (s.run raises ls).fd = (plainFd (s.fd, s.returned) ls).1 ∧ (s.run raises ls).override = none ∧
      (s.run raises ls).current = none) := by
  have h := SigInv.run raises ls (hs.inv hf) hn
  refine ⟨h.returned, h.failed, ?_⟩
  rintro rfl
  exact ⟨h.fd, h.override, h.current⟩

theorem plainFd_quiet : ∀ (ls : List SigLabel) (p : Fd × List Fd), (∀ n, .setFd n ∉ ls) → plainFd p ls = p
  | [], p, _ => by cases p; rfl
  | l :: ls, (f, rs), h => by
    have ih := plainFd_quiet ls (f, rs) fun n hn => h n (by simp [hn])
    cases l with
    | setFd n => exact absurd (by simp) (h n)
    | _ => exact ih

/-- C47: in particular the wakeup file descriptor is the one from before if nobody else sets it. -/
theorem C47_restored (raises : Nat → Bool) (s : SigSt) (hs : Idle s) (hf : s.failed = 0) (ls : List SigLabel)
    (hn : nested [] ls = some []) (hq : ∀ n, .setFd n ∉ ls) : (s.run raises ls).fd = s.fd := by
  rw [((C47_transparent raises s hs hf ls [] hn).2.2 rfl).1, plainFd_quiet ls _ hq]

/-! ## Delivery -/

/-- What has been seen by the managers in use and what is under way. -/
structure Delivery (s : SigSt) (st : List Nat) (all : List Nat) (since : Nat → List Nat) : Prop where
  total : s.out.map (·.2) ++ unread s st = all
  each : ∀ inner m outer, st = inner ++ m :: outer →
    (s.mgr m).seen.map (·.1) ++ unread s (inner ++ [m]) = since m
  idle : ∀ m, m ∉ st → (s.mgr m).buf = []

theorem unread_congr {s s' : SigSt} : ∀ {st : List Nat}, (∀ m ∈ st, (s'.mgr m).buf = (s.mgr m).buf) →
    unread s' st = unread s st
  | [], _ => rfl
  | m :: st, h => by
    simp only [unread]
    rw [unread_congr fun x hx => h x (by simp [hx]), h m (by simp)]

theorem unread_append (s : SigSt) : ∀ (xs ys : List Nat), unread s (xs ++ ys) = unread s ys ++ unread s xs
  | [], ys => by simp [unread]
  | x :: xs, ys => by simp [unread, unread_append s xs ys]

theorem callHandlers_all {raises : Nat → Bool} {hs : Nat → Option Nat} : ∀ {data : List Nat},
    (∀ x ∈ data, ∀ h, hs x = some h → raises h = false) →
    callHandlers raises hs data = (data.map fun x => (x, hs x), true)
  | [], _ => rfl
  | x :: xs, hx => by
    have ih := callHandlers_all (raises := raises) (hs := hs) fun y (hy : y ∈ xs) => hx y (by simp [hy])
    simp only [callHandlers, ih]
    cases hh : hs x with
    | none => simp [hh]
    | some g => simp [hh, hx x (by simp) g hh]

theorem linked_prev {s : SigSt} {reg : Fd} {m : Nat} {outer : List Nat} : ∀ {xs : List Nat},
    Linked s reg (xs ++ m :: outer) → (s.mgr m).prev = topFd reg outer
  | [], h => h.2.1
  | _ :: _, h => linked_prev h.2.2

/-- Moving data from a manager to the next one outwards. -/
theorem Delivery.read {raises : Nat → Bool} {s : SigSt} {st : List Nat} {reg : Fd} {rs : List Fd} {all : List Nat}
    {since : Nat → List Nat} (hi : SigInv s st reg rs) (h : Delivery s st all since) (m k : Nat)
    (hr : ∀ x ∈ (s.mgr m).buf.take k, ∀ h, (s.mgr m).handlers x = some h → raises h = false) :
    Delivery (s.read raises m k) st all since := by
  simp only [SigSt.read, callHandlers_all hr, if_true]
  generalize hdata : (s.mgr m).buf.take k = data at *
  have hsplit : (s.mgr m).buf = data ++ (s.mgr m).buf.drop k := by rw [← hdata, List.take_append_drop]
  generalize hs1 : s.upd m
      { s.mgr m with
        buf := (s.mgr m).buf.drop k
        seen := (s.mgr m).seen ++ data.map (fun x => (x, (s.mgr m).handlers x)) } = s1
  have b1 : (s1.mgr m).buf = (s.mgr m).buf.drop k := by rw [← hs1]; simp
  have p1 : (s1.mgr m).prev = (s.mgr m).prev := by rw [← hs1]; simp
  have n1 : (s1.mgr m).seen.map (·.1) = (s.mgr m).seen.map (·.1) ++ data := by
    rw [← hs1]; simp [Function.comp_def]
  have o1 : ∀ i, i ≠ m → s1.mgr i = s.mgr i := by intro i hne; rw [← hs1]; exact upd_mgr_ne _ _ hne
  have out1 : s1.out = s.out := by rw [← hs1]; rfl
  by_cases hm : m ∈ st
  · obtain ⟨I, O, rfl⟩ := List.append_of_mem hm
    have hnd := hi.nodup
    rw [List.nodup_append] at hnd
    obtain ⟨hndI, hndO, hdis⟩ := hnd
    obtain ⟨hmO, hndO⟩ := List.nodup_cons.mp hndO
    have hmI : m ∉ I := fun hx => hdis m hx m (by simp) rfl
    have hprev := linked_prev hi.linked
    rw [p1, hprev]
    cases O with
    | nil =>
      have hw : write (topFd reg []) data s1 = { s1 with out := s1.out ++ data.map fun x => (reg, x) } := by
        simp only [topFd]
        cases hreg : reg with
        | mgr i => exact absurd hreg (hi.regExt i)
        | none => rfl
        | ext n => rfl
      rw [hw]
      generalize hs2 : ({ s1 with out := s1.out ++ data.map fun x => (reg, x) } : SigSt) = s2
      have g2 : s2.mgr = s1.mgr := by rw [← hs2]
      have u2 : ∀ xs, m ∉ xs → unread s2 xs = unread s xs := fun xs hx =>
        unread_congr fun i hi => by rw [g2, o1 i fun e => hx (e ▸ hi)]
      refine ⟨?_, ?_, ?_⟩
      · rw [← h.total, unread_append, unread_append, u2 _ hmI, ← hs2]
        simp only [unread, List.map_append, List.map_map, List.nil_append, out1, b1]
        conv => rhs; rw [hsplit]
        simp [Function.comp_def]
      · intro inner m' outer e
        rw [← h.each inner m' outer e]
        rcases List.append_eq_append_iff.mp e with ⟨a, rfl, ha⟩ | ⟨b, rfl, hb⟩
        · cases a with
          | nil =>
            simp at ha; obtain ⟨rfl, _⟩ := ha
            rw [List.append_nil, unread_append, unread_append, u2 _ hmI]
            simp only [unread, List.nil_append, g2, n1, b1]
            conv => rhs; rw [hsplit]
            simp
          | cons x xs => simp at ha
        · cases b with
          | nil =>
            simp at hb; obtain ⟨rfl, _⟩ := hb
            simp only [List.append_nil] at *
            rw [unread_append, unread_append, u2 _ hmI]
            simp only [unread, List.nil_append, g2, n1, b1]
            conv => rhs; rw [hsplit]
            simp
          | cons x xs =>
            simp at hb; obtain ⟨rfl, _⟩ := hb
            have hx : m ∉ inner ++ [m'] := fun hx => hmI (by simp at hx ⊢; rcases hx with hx | hx <;> simp [hx])
            have hne : m' ≠ m := fun e => hx (by simp [e])
            rw [u2 _ hx, g2, o1 _ hne]
      · intro i hx
        rw [g2, o1 i fun e => hx (e ▸ hm)]
        exact h.idle i hx
    | cons o O =>
      have hmo : m ≠ o := fun e => hmO (by simp [e])
      have hoI : o ∉ I := fun hx => hdis o hx o (by simp) rfl
      have hoO : o ∉ O := (List.nodup_cons.mp hndO).1
      simp only [topFd, write]
      generalize hs2 : s1.upd o { s1.mgr o with buf := (s1.mgr o).buf ++ data } = s2
      have bm : (s2.mgr m).buf = (s.mgr m).buf.drop k := by rw [← hs2, upd_mgr_ne _ _ hmo, b1]
      have sm : (s2.mgr m).seen.map (·.1) = (s.mgr m).seen.map (·.1) ++ data := by
        rw [← hs2, upd_mgr_ne _ _ hmo, n1]
      have bo : (s2.mgr o).buf = (s.mgr o).buf ++ data := by
        rw [← hs2, upd_mgr_self, o1 o (Ne.symm hmo)]
      have so : (s2.mgr o).seen = (s.mgr o).seen := by
        rw [← hs2, upd_mgr_self, o1 o (Ne.symm hmo)]
      have oth : ∀ i, i ≠ m → i ≠ o → s2.mgr i = s.mgr i := by
        intro i h1 h2; rw [← hs2, upd_mgr_ne _ _ h2, o1 i h1]
      have out2 : s2.out = s.out := by rw [← hs2, ← out1]; rfl
      have u2 : ∀ xs, m ∉ xs → o ∉ xs → unread s2 xs = unread s xs := fun xs hx hy =>
        unread_congr fun i hi => by rw [oth i (fun e => hx (e ▸ hi)) fun e => hy (e ▸ hi)]
      have pass : ∀ Y, m ∉ Y → o ∉ Y → unread s2 (I ++ m :: o :: Y) = unread s (I ++ m :: o :: Y) := by
        intro Y hY hY'
        rw [unread_append, unread_append, u2 _ hmI hoI]
        simp only [unread, u2 _ hY hY', bm, bo]
        conv => rhs; rw [hsplit]
        simp
      have hmO' : m ∉ O := fun hx => hmO (by simp [hx])
      refine ⟨?_, ?_, ?_⟩
      · rw [← h.total, out2, pass O hmO' hoO]
      · intro inner m' outer e
        rw [← h.each inner m' outer e]
        rcases List.append_eq_append_iff.mp e with ⟨a, rfl, ha⟩ | ⟨b, rfl, hb⟩
        · cases a with
          | nil =>
            simp at ha; obtain ⟨rfl, _⟩ := ha
            rw [List.append_nil, unread_append, unread_append, u2 _ hmI hoI]
            simp only [unread, List.nil_append, sm, bm]
            conv => rhs; rw [hsplit]
            simp
          | cons x xs =>
            simp at ha
            obtain ⟨rfl, ha⟩ := ha
            obtain ⟨Y, hY⟩ : ∃ Y, xs ++ [m'] = o :: Y := by
              cases xs with
              | nil => simp at ha; exact ⟨[], by simp [ha.1]⟩
              | cons y ys => simp at ha; exact ⟨ys ++ [m'], by simp [ha.1]⟩
            have hsub : ∀ i ∈ Y, i ∈ O := by
              intro i hiY
              have : o :: O = o :: Y ++ outer := by rw [ha, ← hY]; simp
              simp at this
              rw [this]; simp [hiY]
            have hm' : m' ≠ m := by
              rintro rfl
              exact hmO (by rw [ha]; simp)
            have hseen : (s2.mgr m').seen = (s.mgr m').seen := by
              by_cases ho : m' = o
              · rw [ho, so]
              · rw [oth m' hm' ho]
            rw [hseen, List.append_assoc, List.cons_append, hY, pass Y (fun hx => hmO' (hsub _ hx)) fun hx => hoO (hsub _ hx)]
        · cases b with
          | nil =>
            simp at hb; obtain ⟨rfl, _⟩ := hb
            simp only [List.append_nil] at *
            rw [unread_append, unread_append, u2 _ hmI hoI]
            simp only [unread, List.nil_append, sm, bm]
            conv => rhs; rw [hsplit]
            simp
          | cons x xs =>
            simp at hb; obtain ⟨rfl, _⟩ := hb
            have hx : m ∉ inner ++ [m'] := fun hx => hmI (by simp at hx ⊢; rcases hx with hx | hx <;> simp [hx])
            have hy : o ∉ inner ++ [m'] := fun hx => hoI (by simp at hx ⊢; rcases hx with hx | hx <;> simp [hx])
            have hne : m' ≠ m := fun e => hx (by simp [e])
            have hne' : m' ≠ o := fun e => hy (by simp [e])
            rw [u2 _ hx hy, oth _ hne hne']
      · intro i hx
        have h1 : i ≠ m := fun e => hx (by simp [e])
        have h2 : i ≠ o := fun e => hx (by simp [e])
        rw [oth i h1 h2]
        exact h.idle i hx
  · have hb := h.idle m hm
    have hd : data = [] := by rw [← hdata, hb]; simp
    subst hd
    have hw : ∀ i, ((write (s1.mgr m).prev [] s1).mgr i).buf = (s1.mgr i).buf := by
      intro i
      unfold write
      split
      · simp only [upd]; split
        · next e => subst e; simp
        · rfl
      · rfl
    have hwo : (write (s1.mgr m).prev [] s1).out = s1.out := by
      unfold write
      split
      · rfl
      · simp
    have hs : ∀ i, (s1.mgr i).buf = (s.mgr i).buf := by
      intro i
      by_cases e : i = m
      · subst e; rw [b1, hb]; simp
      · rw [o1 i e]
    have hu : ∀ xs, unread (write (s1.mgr m).prev [] s1) xs = unread s xs := fun xs =>
      unread_congr fun i _ => by rw [hw, hs]
    have hseen : ∀ i, ((write (s1.mgr m).prev [] s1).mgr i).seen.map (·.1) = (s.mgr i).seen.map (·.1) := by
      intro i
      rw [((write_frame _ _ _).2.2.2.2.2 i).2.2.2]
      by_cases e : i = m
      · subst e; rw [n1]; simp
      · rw [o1 i e]
    refine ⟨?_, ?_, ?_⟩
    · rw [hu, hwo, out1]; exact h.total
    · intro inner m' outer e; rw [hseen, hu]; exact h.each inner m' outer e
    · intro i hx; rw [hw, hs]; exact h.idle i hx

/-- A signal arrives. -/
theorem Delivery.signal {s : SigSt} {st : List Nat} {reg : Fd} {rs : List Fd} {all : List Nat}
    {since : Nat → List Nat} (hi : SigInv s st reg rs) (h : Delivery s st all since) (x : Nat) :
    Delivery (write s.fd [x] s) st (all ++ [x]) (fun m => since m ++ [x]) := by
  rw [hi.fd]
  cases st with
  | nil =>
    have hw : write (topFd reg []) [x] s = { s with out := s.out ++ [(reg, x)] } := by
      simp only [topFd]
      cases hreg : reg with
      | mgr i => exact absurd hreg (hi.regExt i)
      | none => rfl
      | ext n => rfl
    rw [hw]
    refine ⟨?_, fun inner m outer e => by simp at e, h.idle⟩
    rw [← h.total]; simp [unread]
  | cons t st =>
    have hnd := List.nodup_cons.mp hi.nodup
    simp only [topFd, write]
    generalize hs1 : s.upd t { s.mgr t with buf := (s.mgr t).buf ++ [x] } = s1
    have b1 : (s1.mgr t).buf = (s.mgr t).buf ++ [x] := by rw [← hs1]; simp
    have o1 : ∀ i, i ≠ t → s1.mgr i = s.mgr i := by intro i hne; rw [← hs1]; exact upd_mgr_ne _ _ hne
    have n1 : ∀ i, (s1.mgr i).seen = (s.mgr i).seen := by
      intro i
      by_cases e : i = t
      · subst e; rw [← hs1]; simp
      · rw [o1 i e]
    have u1 : ∀ xs, t ∉ xs → unread s1 xs = unread s xs := fun xs hx =>
      unread_congr fun i hi => by rw [o1 i fun e => hx (e ▸ hi)]
    have out1 : s1.out = s.out := by rw [← hs1]; rfl
    refine ⟨?_, ?_, ?_⟩
    · rw [← h.total, out1]
      simp only [unread, u1 _ hnd.1, b1]
      simp
    · intro inner m outer e
      rw [n1, ← h.each inner m outer e]
      cases inner with
      | nil =>
        simp at e; obtain ⟨rfl, _⟩ := e
        simp [unread, b1]
      | cons y ys =>
        simp at e; obtain ⟨rfl, rfl⟩ := e
        have : t ∉ ys ++ [m] := fun hx => hnd.1 (by
          simp at hx ⊢; rcases hx with hx | hx
          · exact .inl hx
          · exact .inr (.inl hx))
        simp only [List.cons_append, unread, u1 _ this, b1]
        simp
    · intro i hx
      have : i ≠ t := fun e => hx (by simp [e])
      rw [o1 i this]; exact h.idle i hx

theorem Delivery.congr {s s' : SigSt} {st : List Nat} {all : List Nat} {since : Nat → List Nat}
    (h : Delivery s st all since) (ho : s'.out = s.out) (hb : ∀ m, (s'.mgr m).buf = (s.mgr m).buf)
    (hs : ∀ m, (s'.mgr m).seen = (s.mgr m).seen) : Delivery s' st all since :=
  ⟨by rw [ho, unread_congr fun m _ => hb m]; exact h.total,
    fun inner m outer e => by rw [hs, unread_congr fun m _ => hb m]; exact h.each inner m outer e,
    fun m hm => by rw [hb]; exact h.idle m hm⟩

theorem Delivery.enter {s : SigSt} {st : List Nat} {all : List Nat} {since : Nat → List Nat}
    (h : Delivery s st all since) {m : Nat} (hm : m ∉ st) :
    Delivery (s.enter m) (m :: st) all (fun i => if m = i then [] else since i) := by
  have bm : ((s.enter m).mgr m).buf = [] := by simp [SigSt.enter, chainHandle, upd]
  have sm : ((s.enter m).mgr m).seen = [] := by simp [SigSt.enter, chainHandle, upd]
  have oth : ∀ i, i ≠ m → (s.enter m).mgr i = s.mgr i := by
    intro i hi; simp [SigSt.enter, chainHandle, upd, hi]
  have u : ∀ xs, m ∉ xs → unread (s.enter m) xs = unread s xs := fun xs hx =>
    unread_congr fun i hi => by rw [oth i fun e => hx (e ▸ hi)]
  refine ⟨?_, ?_, ?_⟩
  · simp only [unread, u _ hm, bm, List.append_nil]; exact h.total
  · intro inner m' outer e
    cases inner with
    | nil => simp at e; obtain ⟨rfl, _⟩ := e; simp [unread, bm, sm]
    | cons y ys =>
      simp at e; obtain ⟨rfl, rfl⟩ := e
      have hne : m' ≠ m := fun e => hm (by simp [e])
      have hx : m ∉ ys ++ [m'] := fun hx => hm (by
        simp at hx ⊢; rcases hx with hx | hx
        · exact .inl hx
        · exact .inr (.inl hx))
      rw [if_neg (Ne.symm hne), oth _ hne]
      simp only [List.cons_append, unread, u _ hx, bm, List.append_nil]
      exact h.each ys m' outer rfl
  · intro i hx
    have hne : i ≠ m := fun e => hx (by simp [e])
    rw [oth i hne]
    exact h.idle i fun hi => hx (by simp [hi])

theorem Delivery.leave {s : SigSt} {st : List Nat} {all : List Nat} {since : Nat → List Nat} {m : Nat}
    (h : Delivery s (m :: st) all since) (hb : (s.mgr m).buf = []) : Delivery (s.leave m) st all since := by
  have hbuf : ∀ i, ((s.leave m).mgr i).buf = (s.mgr i).buf := by
    intro i
    by_cases e : i = m
    · subst e; simp [SigSt.leave, chainHandle, upd, hb]
    · simp [SigSt.leave, chainHandle, upd, e]
  have hseen : ∀ i, ((s.leave m).mgr i).seen = (s.mgr i).seen := by
    intro i
    by_cases e : i = m
    · subst e; simp [SigSt.leave, chainHandle, upd]
    · simp [SigSt.leave, chainHandle, upd, e]
  have := h.congr (s' := s.leave m) rfl hbuf hseen
  refine ⟨?_, ?_, ?_⟩
  · have ht := this.total
    simp only [unread, hbuf, hb, List.append_nil] at ht
    exact ht
  · intro inner m' outer e
    have he := this.each (m :: inner) m' outer (by rw [e]; rfl)
    simp only [List.cons_append, unread, hbuf, hb, List.append_nil] at he
    exact he
  · intro i hi
    by_cases e : i = m
    · rw [hbuf, e, hb]
    · exact this.idle i (by simp [e, hi])

theorem Delivery.run (raises : Nat → Bool) : ∀ (ls : List SigLabel) {s : SigSt} {st st' : List Nat} {reg : Fd}
    {rs : List Fd} {all : List Nat} {since : Nat → List Nat}, SigInv s st reg rs → Delivery s st all since →
    nested st ls = some st' → Lossless raises s ls →
    Delivery (s.run raises ls) st' (all ++ arrived ls) fun m => arrivedSince m (since m) ls
  | [], s, st, st', reg, rs, all, since, hi, h, hn, _ => by
    simp [nested] at hn; subst hn; simpa [arrived, arrivedSince, SigSt.run] using h
  | l :: ls, s, st, st', reg, rs, all, since, hi, h, hn, hl => by
    have hstep : ∀ {st1 : List Nat}, nested st [l] = some st1 →
        SigInv (s.step raises l) st1 (plainFd (reg, rs) [l]).1 (plainFd (reg, rs) [l]).2 := fun h1 =>
      SigInv.run raises [l] hi h1
    obtain ⟨hl1, hl2⟩ := hl
    cases l with
    | enter m =>
      simp only [nested] at hn
      split at hn
      · cases hn
      · next hm =>
        have := Delivery.run raises ls (hi.enter hm) (h.enter hm) hn hl2
        exact this
    | leave m =>
      simp only [nested] at hn
      split at hn
      · next hm =>
        cases st with
        | nil => simp at hm
        | cons a st => simp at hm; subst hm; exact Delivery.run raises ls hi.leave (h.leave hl1) hn hl2
      · cases hn
    | register m sig hd =>
      have hb : ∀ i, ((s.register m sig hd).mgr i).buf = (s.mgr i).buf ∧
          ((s.register m sig hd).mgr i).seen = (s.mgr i).seen := by
        intro i; simp only [SigSt.register, upd]; split
        · next e => subst e; exact ⟨rfl, rfl⟩
        · exact ⟨rfl, rfl⟩
      exact Delivery.run raises ls (hstep rfl) (h.congr rfl (fun i => (hb i).1) fun i => (hb i).2) hn hl2
    | setFd n =>
      have hb : ∀ f i, ((s.setFd f).mgr i).buf = (s.mgr i).buf ∧ ((s.setFd f).mgr i).seen = (s.mgr i).seen := by
        intro f i
        unfold SigSt.setFd
        cases s.override with
        | none => exact ⟨rfl, rfl⟩
        | some o =>
          simp only [chainHandle, upd]; split
          · next e => subst e; exact ⟨rfl, rfl⟩
          · exact ⟨rfl, rfl⟩
      have ho : ∀ f, (s.setFd f).out = s.out := by
        intro f; unfold SigSt.setFd; cases s.override <;> rfl
      exact Delivery.run raises ls (hstep rfl) (h.congr (ho _) (fun i => (hb _ i).1) fun i => (hb _ i).2) hn hl2
    | signal x =>
      have := Delivery.run raises ls (hstep rfl) (h.signal hi x) hn hl2
      simp only [arrived, arrivedSince]
      rw [List.append_assoc] at this
      exact this
    | read m k => exact Delivery.run raises ls (hstep rfl) (h.read hi m k hl1) hn hl2

/-- C47 (partial): as long as no data is dropped, every signal is delivered to each manager in use exactly once and in
order: what a manager has seen since it was entered, followed by what is still under way to it, is what the process got since then; and
what was passed on to file descriptors of somebody else, followed by what is still under way, is everything
the process got.  Missing: data is dropped when a manager is left before its loop has read it, and when a handler
raises, see `C47_unread_lost_violated` and `C47_raising_handler_violated`. -/
theorem C47_delivery_partial (raises : Nat → Bool) (s : SigSt) (hs : Idle s) (hf : s.failed = 0) (hout : s.out = [])
    (ls : List SigLabel) (st : List Nat) (hn : nested [] ls = some st) (hl : Lossless raises s ls) :
    ((s.run raises ls).out.map (·.2) ++ unread (s.run raises ls) st = arrived ls) ∧
    ∀ inner m outer, st = inner ++ m :: outer →
      ((s.run raises ls).mgr m).seen.map (·.1) ++ unread (s.run raises ls) (inner ++ [m]) = arrivedSince m [] ls := by
  have h0 : Delivery s [] [] fun _ => [] :=
    ⟨by simp [hout, unread], fun inner m outer e => by simp at e, fun m _ => hs.buf m⟩
  have h := Delivery.run raises ls (hs.inv hf) h0 hn hl
  exact ⟨by simpa using h.total, h.each⟩

theorem handlers_run (raises : Nat → Bool) (m sig : Nat) : ∀ (ls : List SigLabel) (s : SigSt),
    ((s.run raises ls).mgr m).handlers sig = registeredFor m sig ((s.mgr m).handlers sig) ls
  | [], s => rfl
  | l :: ls, s => by
    have ih := handlers_run raises m sig ls (s.step raises l)
    show (((s.step raises l).run raises ls).mgr m).handlers sig = _
    rw [ih]
    cases l with
    | enter k =>
      simp only [registeredFor, step, SigSt.enter, chainHandle, upd]; split
      · next e => subst e; simp
      · rfl
    | leave k =>
      simp only [registeredFor, step, SigSt.leave, chainHandle, upd]; split
      · next e => subst e; simp
      · rfl
    | register k g h =>
      simp only [registeredFor, step, SigSt.register, upd]
      by_cases e : m = k
      · subst e
        by_cases e2 : sig = g
        · subst e2; simp
        · simp [e2, Ne.symm e2]
      · have : k ≠ m := fun h => e h.symm
        simp [e, this]
    | setFd n =>
      have : ∀ f, ((s.setFd f).mgr m).handlers = (s.mgr m).handlers := by
        intro f
        unfold SigSt.setFd
        cases s.override with
        | none => rfl
        | some o => simp only [chainHandle, upd]; split
                    · next e => subst e; rfl
                    · rfl
      simp only [registeredFor, step, this]
    | signal x => simp only [registeredFor, step, ((write_frame _ _ _).2.2.2.2.2 m).2.2.1]
    | read k n =>
      have : ((s.read raises k n).mgr m).handlers = (s.mgr m).handlers := by
        simp only [SigSt.read]
        split
        · rw [((write_frame _ _ _).2.2.2.2.2 m).2.2.1]
          simp only [upd]; split
          · next e => subst e; rfl
          · rfl
        · simp only [upd]; split
          · next e => subst e; rfl
          · rfl
      simp only [registeredFor, step, this]

/-- C47: when a manager reads signals, it calls for each of them, in order, exactly the handler registered last for it with this
manager, if there is one (and stops only if one raises); registrations are independent of entering, leaving and other managers. -/
theorem C47_handlers (raises : Nat → Bool) (s : SigSt) (hs : ∀ m sig, (s.mgr m).handlers sig = none)
    (ls : List SigLabel) (m k : Nat)
    (hr : ∀ x ∈ ((s.run raises ls).mgr m).buf.take k, ∀ h, registeredFor m x none ls = some h → raises h = false) :
    (((s.run raises ls).read raises m k).mgr m).seen = ((s.run raises ls).mgr m).seen ++
      (((s.run raises ls).mgr m).buf.take k).map fun x => (x, registeredFor m x none ls) := by
  have hh : ∀ sig, ((s.run raises ls).mgr m).handlers sig = registeredFor m sig none ls := by
    intro sig; rw [handlers_run, hs]
  have hfun : ((s.run raises ls).mgr m).handlers = fun sig => registeredFor m sig none ls := funext hh
  simp only [SigSt.read]
  rw [callHandlers_all fun x hx h e => hr x hx h (by rw [← hh]; exact e)]
  simp only [if_true]
  rw [((write_frame _ _ _).2.2.2.2.2 m).2.2.2]
  simp [hh]

/-- C47 is violated when a manager is left before its loop has read a signal: the outer manager never gets it
(signal_management.py:116-127: the sockets are closed with what is in them). -/
theorem C47_unread_lost_violated (raises : Nat → Bool) :
    let ls : List SigLabel := [.enter 0, .enter 1, .signal 2, .leave 1, .read 0 4096]
    nested [] ls = some [0] ∧ arrivedSince 0 [] ls = [2] ∧
      ((({} : SigSt).run raises ls).mgr 0).seen = [] ∧ unread (({} : SigSt).run raises ls) [0] = [] :=
  ⟨rfl, rfl, rfl, rfl⟩

/-- C47 is violated when a handler raises: the outer managers never get this and the other signals read at once
(signal_management.py:201-221: the exception leaves the method before the data is passed on). -/
theorem C47_raising_handler_violated :
    let ls : List SigLabel := [.register 1 2 (some 7), .enter 0, .enter 1, .signal 2, .signal 15, .read 1 4096, .read 0 4096]
    nested [] ls = some [1, 0] ∧ arrivedSince 0 [] ls = [2, 15] ∧
      ((({} : SigSt).run (fun h => h == 7) ls).mgr 0).seen = [] ∧
      unread (({} : SigSt).run (fun h => h == 7) ls) [1, 0] = [] :=
  ⟨rfl, rfl, rfl, rfl⟩

/-- A process that has not used managers yet. -/
theorem idle_init : Idle {} := ⟨by simp, rfl, rfl, fun _ => rfl, fun _ => rfl⟩

/-- A history with two nested managers, a call of `set_wakeup_fd` by somebody else, and signals, meeting all hypotheses. -/
def sampleSignals : List SigLabel :=
  [.setFd (some 3), .register 0 2 (some 9), .enter 0, .signal 2, .enter 1, .setFd (some 4), .signal 15, .read 1 4096,
    .read 0 1, .leave 1, .read 0 4096]

example : nested [] sampleSignals = some [0] := rfl
example : Lossless (fun _ => false) {} sampleSignals := by
  simp [sampleSignals, Lossless, step, SigSt.enter, SigSt.setFd, SigSt.register, SigSt.read, chainHandle, upd, write, callHandlers]
example : ((({} : SigSt).run (fun _ => false) sampleSignals).mgr 0).seen = [(2, some 9), (15, none)] := rfl
example : (({} : SigSt).run (fun _ => false) sampleSignals).out = [(.ext 4, 2), (.ext 4, 15)] := rfl
example : (({} : SigSt).run (fun _ => false) (sampleSignals ++ [.leave 0])).fd = .ext 4 := rfl
example : (({} : SigSt).run (fun _ => false) sampleSignals).returned = [.none, .ext 3] := rfl

end Verif
