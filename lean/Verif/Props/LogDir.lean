import Verif.Spec.LogDir

/-!
# Log directories: C100
-/

namespace Verif

/-! ## Names -/

theorem toDigits_inj {m n : Nat} (h : Nat.toDigits 10 m = Nat.toDigits 10 n) : m = n := by
  have h3 := congrArg (fun l => Nat.ofDigitChars 10 l 0) h
  simpa [Nat.ofDigitChars_ten_toDigits] using h3

theorem ofDigitChars_zeros (k : Nat) (l : List Char) : Nat.ofDigitChars 10 (List.replicate k '0' ++ l) 0 = Nat.ofDigitChars 10 l 0 := by
  induction k with
  | zero => rfl
  | succ k ih =>
    rw [List.replicate_succ, List.cons_append]
    simpa [Nat.ofDigitChars] using ih

theorem padded_inj {w m n : Nat} (h : padded w m = padded w n) : m = n := by
  have h3 := congrArg (fun l => Nat.ofDigitChars 10 l 0) h
  simpa [padded, ofDigitChars_zeros, Nat.ofDigitChars_ten_toDigits] using h3

theorem digit_ne_dash {n : Nat} : '-' ∉ Nat.toDigits 10 n := by
  intro h
  have := Nat.isDigit_of_mem_toDigits (by omega) (by omega) h
  revert this
  decide

theorem dash_padded {w n : Nat} : '-' ∉ padded w n := by
  unfold padded
  rw [List.mem_append]
  rintro (h | h)
  · have := (List.mem_replicate.1 h).2
    cases this
  · exact digit_ne_dash h

/-- What is before the first dash, and what is after it. -/
theorem dash_split {a b c d : List Char} (ha : '-' ∉ a) (hc : '-' ∉ c) (h : a ++ '-' :: b = c ++ '-' :: d) : a = c ∧ b = d := by
  induction a generalizing c with
  | nil =>
    cases c with
    | nil => simpa using h
    | cons x c =>
      simp only [List.nil_append, List.cons_append, List.cons.injEq] at h
      exact absurd (by rw [← h.1]; exact List.mem_cons_self) hc
  | cons x a ih =>
    cases c with
    | nil =>
      simp only [List.nil_append, List.cons_append, List.cons.injEq] at h
      exact absurd (by rw [h.1]; exact List.mem_cons_self) ha
    | cons y c =>
      simp only [List.cons_append, List.cons.injEq] at h
      obtain ⟨h1, h2⟩ := ih (fun hx => ha (List.mem_cons_of_mem _ hx)) (fun hx => hc (List.mem_cons_of_mem _ hx)) h.2
      exact ⟨by rw [h.1, h1], h2⟩

/-- The same for the last dash. -/
theorem dash_split_last {a b c d : List Char} (hb : '-' ∉ b) (hd : '-' ∉ d) (h : a ++ '-' :: b = c ++ '-' :: d) : a = c ∧ b = d := by
  have h2 := congrArg List.reverse h
  simp only [List.reverse_append, List.reverse_cons, List.append_assoc, List.singleton_append] at h2
  obtain ⟨h3, h4⟩ := dash_split (by simpa using hb) (by simpa using hd) h2
  exact ⟨List.reverse_inj.1 h4, List.reverse_inj.1 h3⟩

/-- C100.  The name of a log directory determines the time, the host and the process it was made for, even if the name of the host contains dashes. -/
theorem C100_names (t u : Stamp) (host host' : List Char) (pid pid' : Nat) (h : logDirName t host pid = logDirName u host' pid') : t = u ∧ host = host' ∧ pid = pid' := by
  simp only [logDirName, Stamp.text, List.append_assoc, List.cons_append] at h
  obtain ⟨h1, h⟩ := dash_split dash_padded dash_padded h
  obtain ⟨h2, h⟩ := dash_split dash_padded dash_padded h
  obtain ⟨h3, h⟩ := dash_split dash_padded dash_padded h
  obtain ⟨h4, h⟩ := dash_split dash_padded dash_padded h
  obtain ⟨h5, h⟩ := dash_split dash_padded dash_padded h
  obtain ⟨h6, h⟩ := dash_split dash_padded dash_padded h
  obtain ⟨h7, h⟩ := dash_split dash_padded dash_padded h
  obtain ⟨h8, h9⟩ := dash_split_last digit_ne_dash digit_ne_dash h
  refine ⟨?_, h8, toDigits_inj h9⟩
  cases t; cases u
  simp only [Stamp.mk.injEq]
  exact ⟨padded_inj h1, padded_inj h2, padded_inj h3, padded_inj h4, padded_inj h5, padded_inj h6, padded_inj h7⟩

theorem name_ne_latest (t : Stamp) (host : List Char) (pid : Nat) : logDirName t host pid ≠ "latest".toList := by
  intro h
  have : '-' ∈ logDirName t host pid := by simp [logDirName]
  rw [h] at this
  revert this
  decide

example : String.ofList (logDirName ⟨2024, 5, 1, 9, 30, 0, 42⟩ "my-host".toList 17) = "2024-05-01-09-30-00-000042-my-host-17" := by decide +kernel

/-! ## Directories are not shared -/

namespace LdState

/-- The directory is that of the worker. -/
def Belongs (who : LdWho) (w : Nat) (d : LPath) : Prop := ∃ t, d = (who.base w, logDirName t (who.host w) (who.pid w))

theorem Belongs.ne_latest {who : LdWho} {w : Nat} {d e : LPath} (h : Belongs who w d) : d ≠ latest e := by
  obtain ⟨t, rfl⟩ := h
  intro he
  exact name_ne_latest _ _ _ (congrArg Prod.snd he)

theorem Belongs.same {who : LdWho} {v w : Nat} {d : LPath} (hv : Belongs who v d) (hw : Belongs who w d) : who.Same v w := by
  obtain ⟨t, rfl⟩ := hv
  obtain ⟨u, h⟩ := hw
  simp only [Prod.mk.injEq] at h
  obtain ⟨_, h2, h3⟩ := C100_names _ _ _ _ _ _ h.2
  exact ⟨h.1, h2, h3⟩

theorem phase_setPhase (s : LdState) (w v : Nat) (ph : LdPhase) : (s.setPhase w ph).phase v = if v = w then ph else s.phase v := rfl

/-- The directory of the phase. -/
def _root_.Verif.LdPhase.dir? : LdPhase → Option LPath
  | .made d | .there d | .isLink d | .free d | .done d _ => some d
  | .dead d => d
  | _ => none

/-- What is always true of the phases and the directories made. -/
structure Inv (who : LdWho) (s : LdState) : Prop where
  checked : ∀ w d, s.phase w = .checked d → Belongs who w d
  holds : ∀ w d, (s.phase w).dir? = some d → (w, d) ∈ s.made
  made : ∀ w d, (w, d) ∈ s.made → Belongs who w d

theorem inv_setPhase {who : LdWho} {s : LdState} (h : Inv who s) (w : Nat) (ph : LdPhase) (h1 : ∀ d, ph = .checked d → Belongs who w d)
    (h2 : ∀ d, ph.dir? = some d → (w, d) ∈ s.made) : Inv who (s.setPhase w ph) := by
  refine ⟨?_, ?_, h.made⟩
  · intro v d hv
    rw [phase_setPhase] at hv
    split at hv
    · rename_i e; subst e; exact h1 d hv
    · exact h.checked v d hv
  · intro v d hv
    rw [phase_setPhase] at hv
    split at hv
    · rename_i e; subst e; exact h2 d hv
    · exact h.holds v d hv

theorem inv_setNode {who : LdWho} {s : LdState} (h : Inv who s) (p : LPath) (n : Option LdNode) : Inv who (s.setNode p n) := ⟨h.checked, h.holds, h.made⟩

theorem inv_make {who : LdWho} {s : LdState} (h : Inv who s) (w : Nat) (d : LPath) (hd : Belongs who w d) :
    Inv who { s.setPhase w (.made d) with made := s.made ++ [(w, d)] } := by
  refine ⟨?_, ?_, ?_⟩
  · intro v e hv
    change (if v = w then _ else _) = _ at hv
    split at hv
    · cases hv
    · exact h.checked v e hv
  · intro v e hv
    change (if v = w then LdPhase.made d else s.phase v).dir? = _ at hv
    split at hv
    · rename_i he; subst he
      simp only [LdPhase.dir?, Option.some.injEq] at hv
      subst hv
      simp
    · exact List.mem_append_left _ (h.holds v e hv)
  · intro v e hv
    rcases List.mem_append.1 hv with hv | hv
    · exact h.made v e hv
    · simp only [List.mem_cons, Prod.mk.injEq, List.not_mem_nil, or_false] at hv
      obtain ⟨rfl, rfl⟩ := hv
      exact hd

theorem Inv.step {who : LdWho} {s s' : LdState} {l : LdLabel} (h : Inv who s) (hs : s.step who l = some s') : Inv who s' := by
  cases l with
  | look w t =>
    simp only [LdState.step] at hs
    split at hs
    · split at hs
      · cases hs; exact h
      · cases hs
        refine inv_setPhase h w _ ?_ ?_
        · intro d hd; cases hd; exact ⟨t, rfl⟩
        · intro d hd; cases hd
    · cases hs
  | make w =>
    simp only [LdState.step] at hs
    split at hs
    · rename_i d hd
      split at hs
      · cases hs
        exact inv_make (inv_setNode h d _) w d (h.checked w d hd)
      · split at hs
        · cases hs; exact inv_make h w d (h.checked w d hd)
        · cases hs
          exact inv_setPhase h w _ (fun _ he => by cases he) (fun _ he => by cases he)
    · cases hs
  | lexists w =>
    simp only [LdState.step] at hs
    split at hs
    · rename_i d hd
      cases hs
      have hm := h.holds w d (by rw [hd]; rfl)
      refine inv_setPhase h w _ (fun e he => ?_) (fun e he => ?_)
      · split at he <;> cases he
      · split at he <;> (cases he; exact hm)
    · cases hs
  | islink w =>
    simp only [LdState.step] at hs
    split at hs
    · rename_i d hd
      have hm := h.holds w d (by rw [hd]; rfl)
      split at hs <;>
      · cases hs
        exact inv_setPhase h w _ (fun _ he => by cases he) (fun _ he => by cases he; exact hm)
    · cases hs
  | unlink w =>
    simp only [LdState.step] at hs
    split at hs
    · rename_i d hd
      have hm := h.holds w d (by rw [hd]; rfl)
      split at hs
      · cases hs
        exact inv_setPhase h w _ (fun _ he => by cases he) (fun _ he => by cases he; exact hm)
      · cases hs
        exact inv_setPhase h w _ (fun _ he => by cases he) (fun _ he => by cases he; exact hm)
      · cases hs
        exact inv_setPhase (inv_setNode h _ _) w _ (fun _ he => by cases he) (fun _ he => by cases he; exact hm)
    · cases hs
  | symlink w =>
    simp only [LdState.step] at hs
    split at hs
    · rename_i d hd
      have hm := h.holds w d (by rw [hd]; rfl)
      split at hs
      · cases hs
        exact inv_setPhase h w _ (fun _ he => by cases he) (fun _ he => by cases he; exact hm)
      · cases hs
        exact inv_setPhase (inv_setNode h _ _) w _ (fun _ he => by cases he) (fun _ he => by cases he; exact hm)
    · cases hs
  | kill w =>
    simp only [LdState.step, Option.some.injEq] at hs
    subst hs
    refine inv_setPhase h w _ (fun _ he => by cases he) (fun e he => ?_)
    simp only [LdPhase.dir?] at he
    split at he
    all_goals first
      | (rename_i hd; cases he; exact h.holds w _ (by rw [hd]; rfl))
      | cases he
  | other p n =>
    simp only [LdState.step, Option.some.injEq] at hs
    subst hs
    exact inv_setNode h p n

theorem Begins.inv {who : LdWho} {s : LdState} (h : s.Begins) : Inv who s := by
  refine ⟨?_, ?_, ?_⟩
  · intro w d hw; rw [h.1 w] at hw; cases hw
  · intro w d hw; rw [h.1 w] at hw; cases hw
  · intro w d hw; rw [h.2] at hw; cases hw

theorem Inv.run {who : LdWho} {s0 s : LdState} {ls : List LdLabel} (h0 : s0.Begins) (hr : runSteps (LdState.step who) s0 ls = some s) : Inv who s :=
  runSteps_induct (R := fun s => Inv who s) (fun _ _ _ h hs => h.step hs) ls s0 s h0.inv hr

end LdState

/-- C100.  Whatever the schedule, and whatever else happens to the file system, two workers of different processes (or of processes on different hosts) never use the
same log directory. -/
theorem C100_not_shared (who : LdWho) (s0 s : LdState) (ls : List LdLabel) (h0 : s0.Begins) (hr : runSteps (LdState.step who) s0 ls = some s) (v w : Nat) (d : LPath)
    (hv : (v, d) ∈ s.made) (hw : (w, d) ∈ s.made) : who.base v = who.base w ∧ who.host v = who.host w ∧ who.pid v = who.pid w :=
  ((LdState.Inv.run h0 hr).made v d hv).same ((LdState.Inv.run h0 hr).made w d hw)

/-- C100.  The directory a worker goes on with, or returns, is one it made or found in `makedirs`. -/
theorem C100_returned (who : LdWho) (s0 s : LdState) (ls : List LdLabel) (h0 : s0.Begins) (hr : runSteps (LdState.step who) s0 ls = some s) (w : Nat) (d : LPath) (b : Bool)
    (hw : s.phase w = .done d b) : (w, d) ∈ s.made :=
  (LdState.Inv.run h0 hr).holds w d (by rw [hw]; rfl)

namespace LdState

/-- Directories that exist stay, and those made exist. -/
structure Kept (who : LdWho) (s0 s : LdState) : Prop where
  inv : Inv who s
  links : ∀ p q, s.fs p = some (.link q) → p.2 = "latest".toList
  kept : ∀ p, p.2 ≠ "latest".toList → s0.fs p = some .dir → s.fs p = some .dir
  new : ∀ w d, (w, d) ∈ s.made → s.fs d = some .dir ∧ s0.fs d ≠ some .dir
  notYet : ∀ w d, s.phase w = .checked d → s0.fs d ≠ some .dir

theorem latest_snd (d : LPath) : (latest d).2 = "latest".toList := rfl

theorem Belongs.snd {who : LdWho} {w : Nat} {d : LPath} (h : Belongs who w d) : d.2 ≠ "latest".toList := by
  obtain ⟨t, rfl⟩ := h
  exact name_ne_latest _ _ _

/-- A change at `latest`, and of phases that have been there. -/
theorem Kept.latest_step {who : LdWho} {s0 s s' : LdState} (h : Kept who s0 s) (hi : Inv who s') (hm : s'.made = s.made) (hf : ∀ p, p.2 ≠ "latest".toList → s'.fs p = s.fs p)
    (hp : ∀ w d, s'.phase w = .checked d → s.phase w = .checked d) : Kept who s0 s' := by
  refine ⟨hi, ?_, ?_, ?_, fun w d hw => h.notYet w d (hp w d hw)⟩
  · intro p q hq
    by_cases h1 : p.2 = "latest".toList
    · exact h1
    · rw [hf p h1] at hq; exact h.links p q hq
  · intro p h1 h2
    rw [hf p h1]; exact h.kept p h1 h2
  · intro w d hw
    rw [hm] at hw
    have := (h.inv.made w d hw).snd
    rw [hf d this]; exact h.new w d hw

theorem Kept.step {who : LdWho} {s0 s s' : LdState} {l : LdLabel} (h : Kept who s0 s) (ht : l.Tame) (hs : s.step who l = some s') : Kept who s0 s' := by
  have hi := h.inv.step hs
  cases l with
  | look w t =>
    simp only [LdState.step] at hs
    split at hs
    · split at hs
      · cases hs; exact h
      · rename_i hd
        cases hs
        refine ⟨hi, h.links, h.kept, h.new, ?_⟩
        intro v d hv
        rw [phase_setPhase] at hv
        split at hv
        · cases hv
          intro h0
          apply hd
          unfold isdir
          rw [h.kept _ (name_ne_latest _ _ _) h0]
        · exact h.notYet v d hv
    · cases hs
  | make w =>
    simp only [LdState.step] at hs
    split at hs
    · rename_i d hd
      have hb := h.inv.checked w d hd
      have key : ∀ f : LPath → Option LdNode, (∀ p, p ≠ d → f p = s.fs p) → f d = some .dir →
          Kept who s0 { s.setPhase w (.made d) with fs := f, made := s.made ++ [(w, d)] } := by
        intro f hf hfd
        refine ⟨?_, ?_, ?_, ?_, ?_⟩
        · have := inv_make h.inv w d hb
          exact ⟨this.checked, this.holds, this.made⟩
        · intro p q hq
          by_cases hp : p = d
          · subst hp; change f p = _ at hq; rw [hfd] at hq; cases hq
          · change f p = _ at hq; rw [hf p hp] at hq; exact h.links p q hq
        · intro p h1 h2
          change f p = _
          by_cases hp : p = d
          · subst hp; exact hfd
          · rw [hf p hp]; exact h.kept p h1 h2
        · intro v e he
          change f e = _ ∧ _
          rcases List.mem_append.1 he with he | he
          · refine ⟨?_, (h.new v e he).2⟩
            by_cases hp : e = d
            · subst hp; exact hfd
            · rw [hf e hp]; exact (h.new v e he).1
          · simp only [List.mem_cons, Prod.mk.injEq, List.not_mem_nil, or_false] at he
            obtain ⟨rfl, rfl⟩ := he
            exact ⟨hfd, h.notYet _ _ hd⟩
        · intro v e he
          change (if v = w then _ else _) = _ at he
          split at he
          · cases he
          · exact h.notYet v e he
      split at hs
      · cases hs
        exact key _ (fun p hp => by simp [setNode, setPhase, hp]) (by simp [setNode, setPhase])
      · rename_i x hx
        split at hs
        · rename_i hdir
          cases hs
          refine key s.fs (fun _ _ => rfl) ?_
          unfold isdir at hdir
          rw [hx] at hdir ⊢
          cases x with
          | dir => rfl
          | other => cases hdir
          | link q => exact absurd (h.links d q hx) hb.snd
        · cases hs
          refine h.latest_step hi rfl (fun _ _ => rfl) ?_
          intro v e he
          rw [phase_setPhase] at he
          split at he
          · cases he
          · exact he
    · cases hs
  | other p n =>
    simp only [LdState.step, Option.some.injEq] at hs
    subst hs
    rcases ht with rfl | hp
    · refine ⟨hi, ?_, ?_, ?_, h.notYet⟩
      · intro q r hq
        change (if q = p then _ else _) = _ at hq
        split at hq
        · cases hq
        · exact h.links q r hq
      · intro q h1 h2
        change (if q = p then _ else _) = _
        split
        · rfl
        · exact h.kept q h1 h2
      · intro w d hd
        refine ⟨?_, (h.new w d hd).2⟩
        change (if d = p then _ else _) = _
        split
        · rfl
        · exact (h.new w d hd).1
    · refine h.latest_step hi rfl ?_ (fun _ _ he => he)
      intro q hq
      change (if q = p then _ else _) = _
      rw [if_neg (fun (e : q = p) => hq (by rw [e]; exact hp))]
  | lexists w =>
    simp only [LdState.step] at hs
    split at hs
    · cases hs
      refine h.latest_step hi rfl (fun _ _ => rfl) ?_
      intro v e he
      rw [phase_setPhase] at he
      split at he
      · split at he <;> cases he
      · exact he
    · cases hs
  | islink w =>
    simp only [LdState.step] at hs
    split at hs
    · split at hs <;>
      · cases hs
        refine h.latest_step hi rfl (fun _ _ => rfl) ?_
        intro v e he
        rw [phase_setPhase] at he
        split at he
        · cases he
        · exact he
    · cases hs
  | unlink w =>
    simp only [LdState.step] at hs
    split at hs
    · rename_i d hd
      split at hs <;>
      · cases hs
        refine h.latest_step hi rfl ?_ ?_
        · intro p hp
          first
            | rfl
            | (change (if p = latest d then _ else _) = _
               rw [if_neg (fun (e : p = latest d) => hp (by rw [e]; rfl))])
        · intro v e he
          rw [phase_setPhase] at he
          split at he
          · cases he
          · exact he
    · cases hs
  | symlink w =>
    simp only [LdState.step] at hs
    split at hs
    · rename_i d hd
      split at hs <;>
      · cases hs
        refine h.latest_step hi rfl ?_ ?_
        · intro p hp
          first
            | rfl
            | (change (if p = latest d then _ else _) = _
               rw [if_neg (fun (e : p = latest d) => hp (by rw [e]; rfl))])
        · intro v e he
          rw [phase_setPhase] at he
          split at he
          · cases he
          · exact he
    · cases hs
  | kill w =>
    simp only [LdState.step, Option.some.injEq] at hs
    subst hs
    refine h.latest_step hi rfl (fun _ _ => rfl) ?_
    intro v e he
    rw [phase_setPhase] at he
    split at he
    · cases he
    · exact he

theorem Begins.kept {who : LdWho} {s : LdState} (h : s.Begins) (hl : ∀ p q, s.fs p = some (.link q) → p.2 = "latest".toList) : Kept who s s :=
  ⟨h.inv, hl, fun _ _ h => h, (fun w d hw => by rw [h.2] at hw; cases hw), (fun w d hw => by rw [h.1 w] at hw; cases hw)⟩

theorem Kept.run {who : LdWho} {s0 s : LdState} {ls : List LdLabel} (h0 : s0.Begins) (hl : ∀ p q, s0.fs p = some (.link q) → p.2 = "latest".toList)
    (ht : ∀ l ∈ ls, l.Tame) (hr : runSteps (LdState.step who) s0 ls = some s) : Kept who s0 s :=
  runSteps_induct' (R := fun s => Kept who s0 s) (C := LdLabel.Tame) (fun _ _ _ ht h hs => h.step ht hs) ls s0 s ht (h0.kept hl) hr

end LdState

/-- C100.  Whatever else happens to the file system: right after a worker has made its log directory, there is a directory at that path, or a link to one. -/
theorem C100_is_directory (who : LdWho) (s s' : LdState) (w : Nat) (d : LPath) (hs : s.step who (.make w) = some s') (hw : s'.phase w = .made d) :
    s'.fs d = some .dir ∨ ∃ q, s'.fs d = some (.link q) ∧ s'.fs q = some .dir := by
  simp only [LdState.step] at hs
  split at hs
  · rename_i d' hph
    split at hs
    · simp only [Option.some.injEq] at hs
      subst hs
      simp only [LdState.setPhase, LdState.setNode, if_true, LdPhase.made.injEq] at hw ⊢
      subst hw
      simp
    · rename_i n hn
      split at hs
      · rename_i hdir
        simp only [Option.some.injEq] at hs
        subst hs
        simp only [LdState.setPhase, if_true, LdPhase.made.injEq] at hw ⊢
        subst hw
        unfold LdState.isdir at hdir
        split at hdir
        · rename_i h; exact .inl h
        · rename_i q h; exact .inr ⟨q, h, by simpa using hdir⟩
        · cases hdir
      · simp only [Option.some.injEq] at hs
        subst hs
        simp [LdState.setPhase] at hw
  · cases hs

/-- C100.  A path where a directory is, or a link to one, is not taken: the worker looks for another name. -/
theorem C100_not_taken (who : LdWho) (s s' : LdState) (w : Nat) (t : Stamp) (d : LPath) (hs : s.step who (.look w t) = some s') (hw : s'.phase w = .checked d) :
    s.fs d ≠ some .dir ∧ ∀ q, s.fs d = some (.link q) → s.fs q ≠ some .dir := by
  simp only [LdState.step] at hs
  split at hs
  · rename_i hph
    split at hs
    · simp only [Option.some.injEq] at hs
      subst hs
      rw [hph] at hw
      cases hw
    · rename_i hdir
      simp only [Option.some.injEq] at hs
      subst hs
      simp only [LdState.setPhase, if_true, LdPhase.checked.injEq] at hw
      subst hw
      unfold LdState.isdir at hdir
      constructor
      · intro h
        simp [h] at hdir
      · intro q h hq
        simp [h, hq] at hdir
  · cases hs

/-- A worker looks while a link to a directory is at the path, then at another time. -/
example : ((({ fs := fun p => if p = ("b".toList, logDirName ⟨2026, 1, 1, 0, 0, 0, 0⟩ "h".toList 1) then some (.link ("b".toList, "x".toList)) else
      if p = ("b".toList, "x".toList) then some .dir else none } : LdState).step ⟨fun _ => "b".toList, fun _ => "h".toList, fun _ => 1⟩ (.look 0 ⟨2026, 1, 1, 0, 0, 0, 0⟩)).map
      (fun s => s.phase 0)) = some .start := by decide +kernel

/-- C100.  A log directory was not there before, and is there as long as nobody removes it. -/
theorem C100_new (who : LdWho) (s0 s : LdState) (ls : List LdLabel) (h0 : s0.Begins) (hl : ∀ p q, s0.fs p = some (.link q) → p.2 = "latest".toList)
    (ht : ∀ l ∈ ls, l.Tame) (hr : runSteps (LdState.step who) s0 ls = some s) (w : Nat) (d : LPath) (hw : (w, d) ∈ s.made) :
    s0.fs d ≠ some .dir ∧ s.fs d = some .dir :=
  ⟨((LdState.Kept.run h0 hl ht hr).new w d hw).2, ((LdState.Kept.run h0 hl ht hr).new w d hw).1⟩

/-- A directory that was looked for is not one that was made. -/
def LdState.Unmade (s : LdState) : Prop := (s.made.map Prod.snd).Nodup ∧ ∀ w d, s.phase w = .checked d → d ∉ s.made.map Prod.snd

theorem LdState.Unmade.step {who : LdWho} {s0 s s' : LdState} {l : LdLabel} (h : s.Unmade) (hk : LdState.Kept who s0 s) (hs : s.step who l = some s')
    (hser : ∀ v w, v ≠ w → who.Same v w → ¬ ((∃ d, s.phase v = .checked d) ∧ ∃ d, s.phase w = .checked d)) : s'.Unmade := by
  have frame : ∀ s' : LdState, s'.made = s.made → (∀ w d, s'.phase w = .checked d → s.phase w = .checked d) → s'.Unmade := by
    intro s' h1 h2
    refine ⟨by rw [h1]; exact h.1, fun w d hw => by rw [h1]; exact h.2 w d (h2 w d hw)⟩
  have setp : ∀ (t : LdState) (w : Nat) (ph : LdPhase), t.phase = s.phase → (∀ d, ph ≠ .checked d) → ∀ v d, (t.setPhase w ph).phase v = .checked d → s.phase v = .checked d := by
    intro t w ph ht hp v d hv
    rw [phase_setPhase] at hv
    split at hv
    · exact absurd hv (hp d)
    · rw [← ht]; exact hv
  cases l with
  | look w t =>
    simp only [LdState.step] at hs
    split at hs
    · split at hs
      · cases hs; exact h
      · rename_i hd
        cases hs
        refine ⟨h.1, ?_⟩
        intro v d hv
        rw [phase_setPhase] at hv
        split at hv
        · cases hv
          intro hm
          obtain ⟨⟨v', d'⟩, h1, h2⟩ := List.mem_map.1 hm
          cases h2
          apply hd
          unfold isdir
          rw [(hk.new v' _ h1).1]
        · exact h.2 v d hv
    · cases hs
  | make w =>
    simp only [LdState.step] at hs
    split at hs
    · rename_i d hd
      have key : ∀ f : LPath → Option LdNode, LdState.Unmade { s.setPhase w (.made d) with fs := f, made := s.made ++ [(w, d)] } := by
        intro f
        refine ⟨?_, ?_⟩
        · simp only [List.map_append, List.map_cons, List.map_nil]
          rw [List.nodup_append]
          refine ⟨h.1, by simp, ?_⟩
          intro a ha b hb
          simp only [List.mem_cons, List.not_mem_nil, or_false] at hb
          subst hb
          intro he
          subst he
          exact h.2 w _ hd ha
        · intro v e he
          change (if v = w then _ else _) = _ at he
          split at he
          · cases he
          · rename_i hne
            simp only [List.map_append, List.map_cons, List.map_nil, List.mem_append, List.mem_cons, List.not_mem_nil, or_false, not_or]
            refine ⟨h.2 v e he, ?_⟩
            intro hed
            subst hed
            exact hser v w hne ((hk.inv.checked v e he).same (hk.inv.checked w e hd)) ⟨⟨e, he⟩, ⟨e, hd⟩⟩
      split at hs
      · cases hs; exact key _
      · split at hs
        · cases hs; exact key s.fs
        · cases hs
          exact frame _ rfl (setp s w _ rfl (by simp))
    · cases hs
  | lexists w =>
    simp only [LdState.step] at hs
    split at hs
    · cases hs
      refine frame _ rfl (setp s w _ rfl ?_)
      intro e he
      split at he <;> cases he
    · cases hs
  | islink w =>
    simp only [LdState.step] at hs
    split at hs
    · split at hs <;>
      · cases hs
        exact frame _ rfl (setp s w _ rfl (by simp))
    · cases hs
  | unlink w =>
    simp only [LdState.step] at hs
    split at hs
    · split at hs <;>
      · cases hs
        first
          | exact frame _ rfl (setp s w _ rfl (by simp))
          | exact frame _ rfl (setp (s.setNode _ _) w _ rfl (by simp))
    · cases hs
  | symlink w =>
    simp only [LdState.step] at hs
    split at hs
    · split at hs <;>
      · cases hs
        first
          | exact frame _ rfl (setp s w _ rfl (by simp))
          | exact frame _ rfl (setp (s.setNode _ _) w _ rfl (by simp))
    · cases hs
  | kill w =>
    simp only [LdState.step, Option.some.injEq] at hs
    subst hs
    exact frame _ rfl (setp s w _ rfl (by simp))
  | other p n =>
    simp only [LdState.step, Option.some.injEq] at hs
    subst hs
    exact frame _ rfl (fun _ _ he => he)

/-- C100 (partial).  No directory is used twice, if no two threads of a process make their log directories at the same time (see `C100_race_violated`). -/
theorem C100_unique_partial (who : LdWho) (s0 s : LdState) (ls : List LdLabel) (h0 : s0.Begins) (hl : ∀ p q, s0.fs p = some (.link q) → p.2 = "latest".toList)
    (ht : ∀ l ∈ ls, l.Tame) (hser : Serial who s0 ls) (hr : runSteps (LdState.step who) s0 ls = some s) : (s.made.map Prod.snd).Nodup := by
  suffices h : ∀ (post pre : List LdLabel) (s1 : LdState), ls = pre ++ post → runSteps (LdState.step who) s0 pre = some s1 → s1.Unmade →
      runSteps (LdState.step who) s1 post = some s → s.Unmade from
    (h ls [] s0 rfl rfl ⟨by rw [h0.2]; exact List.nodup_nil, fun w d hw => by rw [h0.1 w] at hw; cases hw⟩ hr).1
  intro post
  induction post with
  | nil => intro pre s1 _ _ hu hr1; simp only [runSteps, Option.some.injEq] at hr1; exact hr1 ▸ hu
  | cons l post ih =>
    intro pre s1 he hp hu hr1
    obtain ⟨s2, h1, h2⟩ := runSteps_cons hr1
    have hk : LdState.Kept who s0 s1 := LdState.Kept.run h0 hl (fun x hx => ht x (by rw [he]; exact List.mem_append_left _ hx)) hp
    refine ih (pre ++ [l]) s2 (by rw [he]; simp) ?_ (hu.step hk h1 (hser pre (l :: post) s1 he hp)) h2
    rw [runSteps_append, hp]
    simp [runSteps, h1]

/-! ## The link to the latest directory -/

namespace LdState

/-- What there can be at `latest` if only launch changes it: nothing, what was there, or a link to a directory that was made. -/
structure Linked (who : LdWho) (s0 s : LdState) : Prop where
  inv : Inv who s
  node : ∀ b, s.fs (b, "latest".toList) = s0.fs (b, "latest".toList) ∨ ¬ s0.Blocked b ∧ (s.fs (b, "latest".toList) = none ∨
    ∃ w d, (w, d) ∈ s.made ∧ d.1 = b ∧ s.fs (b, "latest".toList) = some (.link d))
  phase : ∀ w d, s.phase w = .isLink d ∨ s.phase w = .free d → ¬ s0.Blocked d.1

theorem fs_setPhase (s : LdState) (w : Nat) (ph : LdPhase) : (s.setPhase w ph).fs = s.fs := rfl

theorem made_setPhase (s : LdState) (w : Nat) (ph : LdPhase) : (s.setPhase w ph).made = s.made := rfl

theorem Linked.setPhase {who : LdWho} {s0 s : LdState} (h : Linked who s0 s) (w : Nat) (ph : LdPhase) (hi : Inv who (s.setPhase w ph))
    (hp : ∀ d, ph = .isLink d ∨ ph = .free d → ¬ s0.Blocked d.1) : Linked who s0 (s.setPhase w ph) := by
  refine ⟨hi, h.node, ?_⟩
  intro v d hv
  rw [phase_setPhase] at hv
  split at hv
  · exact hp d hv
  · exact h.phase v d hv

theorem Linked.step {who : LdWho} {s0 s s' : LdState} {l : LdLabel} (h : Linked who s0 s) (ht : l.Alone) (hs : s.step who l = some s') : Linked who s0 s' := by
  have hi := h.inv.step hs
  cases l with
  | look w t =>
    simp only [LdState.step] at hs
    split at hs
    · split at hs
      · cases hs; exact h
      · cases hs; exact h.setPhase w _ hi (by simp)
    · cases hs
  | make w =>
    simp only [LdState.step] at hs
    split at hs
    · rename_i d hd
      have hb := h.inv.checked w d hd
      have key : ∀ f : LPath → Option LdNode, (∀ p, p ≠ d → f p = s.fs p) → Inv who { s.setPhase w (.made d) with fs := f, made := s.made ++ [(w, d)] } →
          Linked who s0 { s.setPhase w (.made d) with fs := f, made := s.made ++ [(w, d)] } := by
        intro f hf hi
        refine ⟨hi, ?_, ?_⟩
        · intro b
          have : f (b, "latest".toList) = s.fs (b, "latest".toList) := hf _ (fun e => hb.snd (by rw [← e]))
          rcases h.node b with h1 | ⟨h1, h2 | ⟨v, e, h2, h3, h4⟩⟩
          · exact .inl (this.trans h1)
          · exact .inr ⟨h1, .inl (this.trans h2)⟩
          · exact .inr ⟨h1, .inr ⟨v, e, List.mem_append_left _ h2, h3, this.trans h4⟩⟩
        · intro v e he
          change (if v = w then _ else _) = _ ∨ (if v = w then _ else _) = _ at he
          split at he
          · rcases he with he | he <;> cases he
          · exact h.phase v e he
      split at hs
      · cases hs
        exact key _ (fun p hp => by simp [setNode, LdState.setPhase, hp]) hi
      · split at hs
        · cases hs
          exact key s.fs (fun _ _ => rfl) hi
        · cases hs
          exact h.setPhase w _ hi (by simp)
    · cases hs
  | lexists w =>
    simp only [LdState.step] at hs
    split at hs
    · rename_i d hd
      cases hs
      refine h.setPhase w _ hi ?_
      intro e he
      split at he
      · rcases he with he | he <;> cases he
      · rename_i hn
        rcases he with he | he
        · cases he
        · cases he
          have hn' : s.fs (d.1, "latest".toList) = none := by
            have : ¬ (s.fs (latest d)).isSome = true := hn
            simpa [latest] using this
          rcases h.node d.1 with h1 | ⟨h1, _⟩
          · intro hb
            rw [hn'] at h1
            rcases hb with hb | hb <;> (rw [← h1] at hb; cases hb)
          · exact h1
    · cases hs
  | islink w =>
    simp only [LdState.step] at hs
    split at hs
    · rename_i d hd
      split at hs
      · rename_i q hq
        cases hs
        refine h.setPhase w _ hi ?_
        intro e he
        rcases he with he | he
        · cases he
          have hq' : s.fs (d.1, "latest".toList) = some (.link q) := hq
          rcases h.node d.1 with h1 | ⟨h1, _⟩
          · intro hb
            rw [hq'] at h1
            rcases hb with hb | hb <;> (rw [← h1] at hb; cases hb)
          · exact h1
        · cases he
      · cases hs
        exact h.setPhase w _ hi (by simp)
    · cases hs
  | unlink w =>
    simp only [LdState.step] at hs
    split at hs
    · rename_i d hd
      have hnb := h.phase w d (.inl hd)
      split at hs
      · cases hs; exact h.setPhase w _ hi (by simp)
      · cases hs; exact h.setPhase w _ hi (by simp)
      · cases hs
        refine ⟨hi, ?_, ?_⟩
        · intro b
          change (if (b, "latest".toList) = latest d then _ else _) = _ ∨ _ ∧ ((if (b, "latest".toList) = latest d then _ else _) = _ ∨ ∃ v e, (v, e) ∈ s.made ∧ e.1 = b ∧
            (if (b, "latest".toList) = latest d then _ else _) = _)
          by_cases hbd : b = d.1
          · subst hbd
            exact .inr ⟨hnb, .inl (if_pos rfl)⟩
          · have hne : (b, "latest".toList) ≠ latest d := fun e => hbd (congrArg Prod.fst e)
            simp only [if_neg hne]
            exact h.node b
        · intro v e he
          rw [phase_setPhase] at he
          split at he
          · rcases he with he | he
            · cases he
            · cases he; exact hnb
          · exact h.phase v e he
    · cases hs
  | symlink w =>
    simp only [LdState.step] at hs
    split at hs
    · rename_i d hd
      have hnb := h.phase w d (.inr hd)
      have hm := h.inv.holds w d (by rw [hd]; rfl)
      split at hs
      · cases hs; exact h.setPhase w _ hi (by simp)
      · cases hs
        refine ⟨hi, ?_, ?_⟩
        · intro b
          change (if (b, "latest".toList) = latest d then _ else _) = _ ∨ _ ∧ ((if (b, "latest".toList) = latest d then _ else _) = _ ∨ ∃ v e, (v, e) ∈ s.made ∧ e.1 = b ∧
            (if (b, "latest".toList) = latest d then _ else _) = _)
          by_cases hbd : b = d.1
          · subst hbd
            exact .inr ⟨hnb, .inr ⟨w, d, hm, rfl, if_pos rfl⟩⟩
          · have hne : (b, "latest".toList) ≠ latest d := fun e => hbd (congrArg Prod.fst e)
            simp only [if_neg hne]
            exact h.node b
        · intro v e he
          rw [phase_setPhase] at he
          split at he
          · rcases he with he | he <;> cases he
          · exact h.phase v e he
    · cases hs
  | kill w =>
    simp only [LdState.step, Option.some.injEq] at hs
    subst hs
    exact h.setPhase w _ hi (by simp)
  | other p n => cases ht

theorem Linked.run {who : LdWho} {s0 s : LdState} {ls : List LdLabel} (h0 : s0.Begins) (ha : ∀ l ∈ ls, l.Alone) (hr : runSteps (LdState.step who) s0 ls = some s) :
    Linked who s0 s :=
  runSteps_induct' (R := fun s => Linked who s0 s) (C := LdLabel.Alone) (fun _ _ _ ht h hs => h.step ht hs) ls s0 s ha
    ⟨h0.inv, fun _ => .inl rfl, fun w d hw => by rw [h0.1 w] at hw; rcases hw with hw | hw <;> cases hw⟩ hr

end LdState

/-- C100.  However many launches run and are killed at the same time: what is called `latest` and is no link is never touched, and otherwise a link `latest`
is the one that was there before, or points to a log directory in the same place that was made by one of them. -/
theorem C100_latest_safe (who : LdWho) (s0 s : LdState) (ls : List LdLabel) (h0 : s0.Begins) (ha : ∀ l ∈ ls, l.Alone) (hr : runSteps (LdState.step who) s0 ls = some s)
    (base : List Char) :
    (s0.Blocked base → s.fs (base, "latest".toList) = s0.fs (base, "latest".toList)) ∧
    (∀ d, s.fs (base, "latest".toList) = some (.link d) → s0.fs (base, "latest".toList) = some (.link d) ∨ ∃ w, (w, d) ∈ s.made ∧ d.1 = base) := by
  have h := (LdState.Linked.run h0 ha hr).node base
  refine ⟨fun hb => ?_, fun d hd => ?_⟩
  · rcases h with h | ⟨h, _⟩
    · exact h
    · exact absurd hb h
  · rcases h with h | ⟨_, h | ⟨w, e, h1, h2, h3⟩⟩
    · exact .inl (h ▸ hd)
    · rw [h] at hd; cases hd
    · rw [h3] at hd; cases hd; exact .inr ⟨w, h1, h2⟩

namespace LdState

/-- Once somebody has looked at `latest`, it is there, or somebody is about to make it. -/
def Present (s : LdState) : Prop :=
  ∀ w d b, s.phase w = .there d ∨ s.phase w = .isLink d ∨ s.phase w = .done d b → (s.fs (latest d)).isSome ∨ ∃ v e, s.phase v = .free e ∧ e.1 = d.1

theorem Present.step {who : LdWho} {s s' : LdState} {l : LdLabel} (h : Present s) (hi : Inv who s) (ha : l.Alone) (hk : ∀ w, l ≠ .kill w) (hs : s.step who l = some s') : Present s' := by
  /- phases change in a way that is no news, and nobody leaves `free` -/
  have calm : ∀ (t : LdState) (w : Nat) (ph : LdPhase), t.phase = s.phase → (∀ b, t.fs (b, "latest".toList) = s.fs (b, "latest".toList)) → (∀ d, s.phase w ≠ .free d) →
      (∀ d b, ph = .there d ∨ ph = .isLink d ∨ ph = .done d b → (s.fs (latest d)).isSome ∨ ∃ v e, s.phase v = .free e ∧ e.1 = d.1) → Present (t.setPhase w ph) := by
    intro t w ph ht hf hw hp v d b hv
    have lift : ((s.fs (latest d)).isSome ∨ ∃ v e, s.phase v = .free e ∧ e.1 = d.1) → ((t.setPhase w ph).fs (latest d)).isSome ∨ ∃ v e, (t.setPhase w ph).phase v = .free e ∧ e.1 = d.1 := by
      rintro (h1 | ⟨x, e, h1, h2⟩)
      · left; rw [fs_setPhase]; rw [show t.fs (latest d) = s.fs (latest d) from hf d.1]; exact h1
      · right
        refine ⟨x, e, ?_, h2⟩
        rw [phase_setPhase, if_neg (fun (he : x = w) => hw e (by rw [← he]; exact h1)), ht]; exact h1
    rw [phase_setPhase] at hv
    split at hv
    · exact lift (hp d b hv)
    · rw [ht] at hv; exact lift (h v d b hv)
  have notFree : ∀ {w : Nat} {ph : LdPhase}, s.phase w = ph → (∀ d, ph ≠ .free d) → ∀ d, s.phase w ≠ .free d := by
    intro w ph h1 h2 d h3; exact h2 d (h1 ▸ h3)
  cases l with
  | look w t =>
    simp only [LdState.step] at hs
    split at hs
    · rename_i hw
      split at hs
      · cases hs; exact h
      · cases hs
        exact calm s w _ rfl (fun _ => rfl) (notFree hw (by simp)) (by simp)
    · cases hs
  | make w =>
    simp only [LdState.step] at hs
    split at hs
    · rename_i d hd
      have hb := hi.checked w d hd
      split at hs
      · cases hs
        have := calm (s.setNode d (some .dir)) w (.made d) rfl
          (fun b => by change (if (b, "latest".toList) = d then _ else _) = _; rw [if_neg (fun e => hb.snd (by rw [← e]))]) (notFree hd (by simp)) (by simp)
        exact this
      · split at hs
        · cases hs
          exact calm s w (.made d) rfl (fun _ => rfl) (notFree hd (by simp)) (by simp)
        · cases hs
          exact calm s w _ rfl (fun _ => rfl) (notFree hd (by simp)) (by simp)
    · cases hs
  | lexists w =>
    simp only [LdState.step] at hs
    split at hs
    · rename_i d hd
      cases hs
      refine calm s w _ rfl (fun _ => rfl) (notFree hd (by simp)) ?_
      intro e b he
      split at he
      · rename_i hx
        rcases he with he | he | he <;> cases he
        exact .inl hx
      · rcases he with he | he | he <;> cases he
    · cases hs
  | islink w =>
    simp only [LdState.step] at hs
    split at hs
    · rename_i d hd
      have h1 := h w d false (.inl hd)
      split at hs <;>
      · cases hs
        refine calm s w _ rfl (fun _ => rfl) (notFree hd (by simp)) ?_
        intro e b he
        rcases he with he | he | he <;> cases he
        exact h1
    · cases hs
  | unlink w =>
    simp only [LdState.step] at hs
    split at hs
    · rename_i d hd
      have h1 := h w d false (.inr (.inl hd))
      split at hs
      · cases hs
        refine calm s w _ rfl (fun _ => rfl) (notFree hd (by simp)) ?_
        intro e b he
        rcases he with he | he | he <;> cases he
        exact h1
      · cases hs
        refine calm s w _ rfl (fun _ => rfl) (notFree hd (by simp)) ?_
        intro e b he
        rcases he with he | he | he <;> cases he
        exact h1
      · cases hs
        intro v e b he
        by_cases hbd : e.1 = d.1
        · exact .inr ⟨w, d, by rw [phase_setPhase, if_pos rfl], hbd.symm⟩
        · have hne : latest e ≠ latest d := fun x => hbd (show (latest e).1 = (latest d).1 by rw [x])
          rw [phase_setPhase] at he
          split at he
          · rcases he with he | he | he <;> cases he
          · rcases h v e b he with h2 | ⟨x, y, h2, h3⟩
            · left
              rw [fs_setPhase]
              change Option.isSome (if latest e = latest d then _ else _) = true
              rw [if_neg hne]; exact h2
            · right
              refine ⟨x, y, ?_, h3⟩
              rw [phase_setPhase, if_neg]
              · exact h2
              · intro hx; subst hx
                have h2' : s.phase x = .free y := h2
                rw [hd] at h2'; cases h2'
    · cases hs
  | symlink w =>
    simp only [LdState.step] at hs
    split at hs
    · rename_i d hd
      have key : ∀ (t : LdState) (c : Bool), t.phase = s.phase → (t.fs (latest d)).isSome → (∀ b, b ≠ d.1 → t.fs (b, "latest".toList) = s.fs (b, "latest".toList)) →
          Present (t.setPhase w (.done d c)) := by
        intro t c ht h1 h2 v e b he
        by_cases hbd : e.1 = d.1
        · left
          rw [fs_setPhase]
          rw [show latest e = latest d from by unfold latest; rw [hbd]]
          exact h1
        · rw [phase_setPhase] at he
          split at he
          · rcases he with he | he | he <;> cases he
            exact absurd rfl hbd
          · rw [ht] at he
            rcases h v e b he with h3 | ⟨x, y, h3, h4⟩
            · left
              rw [fs_setPhase, show t.fs (latest e) = s.fs (latest e) from h2 e.1 hbd]; exact h3
            · right
              refine ⟨x, y, ?_, h4⟩
              rw [phase_setPhase, if_neg, ht]
              · exact h3
              · intro hx; subst hx
                rw [hd] at h3; cases h3
                exact hbd h4.symm
      split at hs
      · rename_i n hn
        cases hs
        exact key s true rfl (by rw [hn]; rfl) (fun _ _ => rfl)
      · cases hs
        refine key (s.setNode (latest d) (some (.link d))) false rfl ?_ ?_
        · change Option.isSome (if latest d = latest d then _ else _) = true
          rw [if_pos rfl]; rfl
        · intro b hb
          change (if (b, "latest".toList) = latest d then _ else _) = _
          rw [if_neg (fun e => hb (congrArg Prod.fst e))]
    · cases hs
  | kill w => exact absurd rfl (hk w)
  | other p n => cases ha

end LdState

/-- C100.  However many launches run at the same time, when they are through with their log directories and none of them was killed, there is a `latest` (a link to one
of the directories, or what was there before, by `C100_latest_safe`). -/
theorem C100_latest_present (who : LdWho) (s0 s : LdState) (ls : List LdLabel) (h0 : s0.Begins) (ha : ∀ l ∈ ls, l.Alone ∧ ∀ w, l ≠ .kill w)
    (hr : runSteps (LdState.step who) s0 ls = some s) (w : Nat) (d : LPath) (b : Bool) (hw : s.phase w = .done d b)
    (hq : ∀ v e, s.phase v ≠ .free e) : (s.fs (d.1, "latest".toList)).isSome := by
  have := runSteps_induct' (R := fun s => LdState.Inv who s ∧ LdState.Present s) (C := fun l => LdLabel.Alone l ∧ ∀ w, l ≠ .kill w) (fun s l s' hl h hs =>
    ⟨h.1.step hs, h.2.step h.1 hl.1 hl.2 hs⟩) ls s0 s ha ⟨h0.inv, fun w d b hw => by rw [h0.1 w] at hw; rcases hw with hw | hw | hw <;> cases hw⟩ hr
  rcases this.2 w d b (.inr (.inr hw)) with h | ⟨v, e, h, _⟩
  · exact h
  · exact absurd h (hq v e)

/-- C100.  A launch that is not disturbed by others makes `latest` point to its own log directory, and changes nothing else; if `latest` is no link, it
warns and changes nothing at all. -/
theorem C100_latest_alone (who : LdWho) (s s' : LdState) (w : Nat) (d : LPath) (b : Bool) (ls : List LdLabel) (hw : s.phase w = .made d) (ho : ∀ l ∈ ls, l.Of w)
    (hr : runSteps (LdState.step who) s ls = some s') (hd : s'.phase w = .done d b) :
    (s.Blocked d.1 → b = true ∧ s'.fs = s.fs) ∧
    (¬ s.Blocked d.1 → b = false ∧ ∀ p, s'.fs p = if p = (d.1, "latest".toList) then some (.link d) else s.fs p) := by
  /- nothing happens after `done` -/
  have stop : ∀ (t : LdState) (c : Bool) (ls : List LdLabel), t.phase w = .done d c → (∀ l ∈ ls, l.Of w) → runSteps (LdState.step who) t ls = some s' → s' = t := by
    intro t c ls ht ho hr
    cases ls with
    | nil => simp only [runSteps, Option.some.injEq] at hr; exact hr.symm
    | cons l ls =>
      exfalso
      obtain ⟨t1, h1, _⟩ := runSteps_cons hr
      have hl := ho l List.mem_cons_self
      cases l <;> simp only [LdLabel.Of] at hl <;> subst hl <;> simp [LdState.step, ht] at h1
  /- the last step -/
  have fin : ∀ (t : LdState) (ls : List LdLabel), t.phase w = .free d → t.fs (LdState.latest d) = none → (∀ l ∈ ls, l.Of w) → runSteps (LdState.step who) t ls = some s' →
      b = false ∧ ∀ p, s'.fs p = if p = (d.1, "latest".toList) then some (.link d) else t.fs p := by
    intro t ls ht hf ho hr
    cases ls with
    | nil => simp only [runSteps, Option.some.injEq] at hr; subst hr; rw [ht] at hd; cases hd
    | cons l ls =>
      obtain ⟨t1, h1, h2⟩ := runSteps_cons hr
      have hl := ho l List.mem_cons_self
      cases l <;> simp only [LdLabel.Of] at hl <;> subst hl <;> simp [LdState.step, ht, hf] at h1
      have hp : t1.phase w = .done d false := by rw [← h1]; simp [LdState.setPhase]
      have := stop t1 false ls hp (fun x hx => ho x (List.mem_cons_of_mem _ hx)) h2
      subst this
      rw [hp] at hd
      cases hd
      refine ⟨rfl, ?_⟩
      intro p
      rw [← h1]
      rfl
  cases ls with
  | nil => simp only [runSteps, Option.some.injEq] at hr; subst hr; rw [hw] at hd; cases hd
  | cons l ls =>
    obtain ⟨t1, h1, h2⟩ := runSteps_cons hr
    have hl := ho l List.mem_cons_self
    have ho1 : ∀ l ∈ ls, l.Of w := fun x hx => ho x (List.mem_cons_of_mem _ hx)
    cases l <;> simp only [LdLabel.Of] at hl <;> subst hl <;> simp only [LdState.step, hw, reduceCtorEq, if_false, Option.some.injEq] at h1
    cases hx : s.fs (LdState.latest d) with
    | none =>
      rw [hx] at h1
      simp only [Option.isSome_none, Bool.false_eq_true, if_false] at h1
      have hnb : ¬ s.Blocked d.1 := by
        intro hb
        have hx' : s.fs (d.1, "latest".toList) = none := hx
        rcases hb with hb | hb <;> (rw [hx'] at hb; cases hb)
      refine ⟨fun hb => absurd hb hnb, fun _ => ?_⟩
      have := fin t1 ls (by rw [← h1]; simp [LdState.setPhase]) (by rw [← h1]; exact hx) ho1 h2
      rw [← h1] at this
      exact this
    | some n =>
      rw [hx] at h1
      simp only [Option.isSome_some, if_true] at h1
      have hp1 : t1.phase w = .there d := by rw [← h1]; simp [LdState.setPhase]
      have hf1 : t1.fs = s.fs := by rw [← h1]; rfl
      cases ls with
      | nil => simp only [runSteps, Option.some.injEq] at h2; subst h2; rw [hp1] at hd; cases hd
      | cons l ls =>
        obtain ⟨t2, h3, h4⟩ := runSteps_cons h2
        have hl := ho1 l List.mem_cons_self
        have ho2 : ∀ l ∈ ls, l.Of w := fun x hx => ho1 x (List.mem_cons_of_mem _ hx)
        cases l <;> simp only [LdLabel.Of] at hl <;> subst hl <;> simp only [LdState.step, hp1, reduceCtorEq, if_false, hf1, hx] at h3
        cases n with
        | link q =>
          simp only [Option.some.injEq] at h3
          have hp2 : t2.phase w = .isLink d := by rw [← h3]; simp [LdState.setPhase]
          have hf2 : t2.fs = s.fs := by rw [← h3]; exact hf1
          have hnb : ¬ s.Blocked d.1 := by
            intro hb
            have hx' : s.fs (d.1, "latest".toList) = some (.link q) := hx
            rcases hb with hb | hb <;> (rw [hx'] at hb; cases hb)
          refine ⟨fun hb => absurd hb hnb, fun _ => ?_⟩
          cases ls with
          | nil => simp only [runSteps, Option.some.injEq] at h4; subst h4; rw [hp2] at hd; cases hd
          | cons l ls =>
            obtain ⟨t3, h5, h6⟩ := runSteps_cons h4
            have hl := ho2 l List.mem_cons_self
            have ho3 : ∀ l ∈ ls, l.Of w := fun x hx => ho2 x (List.mem_cons_of_mem _ hx)
            cases l <;> simp only [LdLabel.Of] at hl <;> subst hl <;> simp only [LdState.step, hp2, reduceCtorEq, if_false, hf2, hx, Option.some.injEq] at h5
            have hp3 : t3.phase w = .free d := by rw [← h5]; simp [LdState.setPhase]
            have hf3 : ∀ p, t3.fs p = if p = LdState.latest d then none else s.fs p := by
              intro p; rw [← h5]; simp only [LdState.setPhase, LdState.setNode, hf2]
            obtain ⟨k1, k2⟩ := fin t3 ls hp3 (by rw [hf3, if_pos rfl]) ho3 h6
            refine ⟨k1, fun p => ?_⟩
            rw [k2 p, hf3]
            by_cases he : p = (d.1, "latest".toList)
            · rw [if_pos he, if_pos he]
            · rw [if_neg he, if_neg he, if_neg (show ¬ p = LdState.latest d from he)]
        | dir =>
          simp only [Option.some.injEq] at h3
          have hp2 : t2.phase w = .done d true := by rw [← h3]; simp [LdState.setPhase]
          have hb : s.Blocked d.1 := .inl hx
          have := stop t2 true ls hp2 ho2 h4
          subst this
          rw [hp2] at hd
          cases hd
          exact ⟨fun _ => ⟨rfl, by rw [← h3]; exact hf1⟩, fun h => absurd hb h⟩
        | other =>
          simp only [Option.some.injEq] at h3
          have hp2 : t2.phase w = .done d true := by rw [← h3]; simp [LdState.setPhase]
          have hb : s.Blocked d.1 := .inr hx
          have := stop t2 true ls hp2 ho2 h4
          subst this
          rw [hp2] at hd
          cases hd
          exact ⟨fun _ => ⟨rfl, by rw [← h3]; exact hf1⟩, fun h => absurd hb h⟩

/-! ## Examples, and what does not hold -/

/-- Two processes on a host, and a second thread of the second process (number 2). -/
def sampleWho : LdWho := { base := fun _ => "/log".toList, host := fun _ => "h".toList, pid := fun w => if w = 0 then 7 else 8 }

def stampAt (n : Nat) : Stamp := ⟨2024, 1, 1, 0, 0, 0, n⟩

/-- Two launches at the same time. -/
def sampleRaces : List LdLabel :=
  [.look 0 (stampAt 1), .look 1 (stampAt 1), .make 1, .make 0, .lexists 0, .symlink 0, .lexists 1, .islink 1, .unlink 1, .symlink 1]

def dirOf (w n : Nat) : LPath := ("/log".toList, logDirName (stampAt n) "h".toList (if w = 0 then 7 else 8))

/-- The hypotheses of the theorems above are met by this run: both end with a directory, `latest` points to the second one. -/
example : ∃ s, runSteps (LdState.step sampleWho) {} sampleRaces = some s ∧ LdState.Begins {} ∧ s.made = [(1, dirOf 1 1), (0, dirOf 0 1)] ∧
    s.phase 0 = .done (dirOf 0 1) false ∧ s.phase 1 = .done (dirOf 1 1) false ∧ s.fs ("/log".toList, "latest".toList) = some (.link (dirOf 1 1)) :=
  ⟨_, rfl, ⟨fun _ => rfl, rfl⟩, by decide +kernel, by decide +kernel, by decide +kernel, by decide +kernel⟩

example : (∀ l ∈ sampleRaces, l.Alone ∧ ∀ w, l ≠ .kill w) ∧ ∀ l ∈ sampleRaces, l.Tame := by
  simp [sampleRaces, LdLabel.Alone, LdLabel.Tame]

/-- Workers 0 and 1 are different processes, so that every schedule of the two is serial. -/
example (ls : List LdLabel) (s0 : LdState) : Serial { sampleWho with pid := fun w => w } s0 ls := by
  intro pre post s _ _ v w hne hsame
  exact absurd hsame.2.2 hne

/-- C100 (negation).  Two threads of a process that look at the same microsecond get the same directory. -/
theorem C100_race_violated : ∃ (who : LdWho) (ls : List LdLabel) (s : LdState), runSteps (LdState.step who) {} ls = some s ∧ (∀ l ∈ ls, l.Alone) ∧
    ∃ d, s.made = [(1, d), (2, d)] ∧ s.phase 1 = .made d ∧ s.phase 2 = .made d :=
  ⟨sampleWho, [.look 1 (stampAt 1), .look 2 (stampAt 1), .make 1, .make 2], _, rfl, by simp [LdLabel.Alone], dirOf 1 1, by decide +kernel, by decide +kernel, by decide +kernel⟩

/-- C100 (negation).  `latest` need not be the latest: the link can be renewed by the launch that made its directory first. -/
theorem C100_latest_violated : ∃ (who : LdWho) (ls : List LdLabel) (s : LdState), runSteps (LdState.step who) {} ls = some s ∧ (∀ l ∈ ls, l.Alone) ∧
    ∃ d e, s.made = [(0, d), (1, e)] ∧ s.phase 0 = .done d false ∧ s.phase 1 = .done e false ∧ d ≠ e ∧ s.fs (d.1, "latest".toList) = some (.link d) :=
  ⟨sampleWho, [.look 0 (stampAt 1), .make 0, .look 1 (stampAt 2), .make 1, .lexists 1, .symlink 1, .lexists 0, .islink 0, .unlink 0, .symlink 0], _, rfl,
    by simp [LdLabel.Alone], dirOf 0 1, dirOf 1 2, by decide +kernel, by decide +kernel, by decide +kernel, by decide +kernel, by decide +kernel⟩

/-- C100 (negation).  If a launch is killed while it renews the link, there is no `latest`, although directories are there. -/
theorem C100_killed_violated : ∃ (who : LdWho) (ls : List LdLabel) (s : LdState), runSteps (LdState.step who) {} ls = some s ∧ (∀ l ∈ ls, l.Alone) ∧
    ∃ d e, s.made = [(0, d), (1, e)] ∧ s.phase 0 = .done d false ∧ s.phase 1 = .dead (some e) ∧ s.fs (d.1, "latest".toList) = none :=
  ⟨sampleWho, [.look 0 (stampAt 1), .make 0, .lexists 0, .symlink 0, .look 1 (stampAt 2), .make 1, .lexists 1, .islink 1, .unlink 1, .kill 1], _, rfl,
    by simp [LdLabel.Alone], dirOf 0 1, dirOf 1 2, by decide +kernel, by decide +kernel, by decide +kernel, by decide +kernel⟩

end Verif
