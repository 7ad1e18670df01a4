import Verif.Model.ProcLookup
import Verif.Lemmas.Utf8

/-!
# C50: process lookup.  C51: captured output.  C52: exit codes.  C68: output assertions.
-/

namespace Verif

/-! ## C50 -/

/-- `a` stands somewhere in `b`. -/
def Substring (a b : String) : Prop := ∃ x y, b.toList = x ++ a.toList ++ y

/-- A process is what the query asks for, given its name and command. -/
def Asked (det : Nat → ProcDetails) (q : ProcQuery) (args : ArgQuery) (p : Nat) : Prop :=
  match q with
  | .all => True
  | .action p' => p = p'
  | .name s => Substring s (det p).name ∧
    match args with
    | .any => True
    | .noArgs => (det p).cmd.length = 1
    | .args l => ∀ a ∈ l, a ∈ (det p).cmd.tail
  | .other => False

theorem strIn_iff (a b : String) : strIn a b = true ↔ Substring a b := by
  unfold strIn Substring
  cases h : pyFind b.toList a.toList 0 with
  | some k =>
    obtain ⟨_, ⟨x, y, h1, _⟩, _⟩ := pyFind_some h
    simp only [Option.isSome_some, true_iff]
    exact ⟨x, y, h1⟩
  | none =>
    simp only [Option.isSome_none, Bool.false_eq_true, false_iff]
    rintro ⟨x, y, hxy⟩
    exact pyFind_none h x.length (Nat.zero_le _) ⟨x, y, hxy, rfl⟩

theorem strNameToProcess_iff (det : Nat → ProcDetails) (procs : List Nat) (s : String) (args : ArgQuery) (p : Nat) :
    p ∈ strNameToProcess det procs s args ↔ p ∈ procs ∧ Asked det (.name s) args p := by
  simp only [strNameToProcess, List.mem_filter, Bool.and_eq_true, strIn_iff, Asked]
  cases args with
  | any => simp [cmdMatch]
  | noArgs => simp [cmdMatch]
  | args l => simp [cmdMatch, List.drop_one]

/-- C50: what is returned are exactly the recorded processes asked for, in the order of recording, at least one, and more than one only if
all were asked for or the caller allowed it. -/
theorem C50_exact (det : Nat → ProcDetails) (procs : List Nat) (q : ProcQuery) (args : ArgQuery) (strict : Bool) (l : List Nat)
    (h : resolveProcesses det procs q args strict = .ok l) :
    (∀ p, p ∈ l ↔ p ∈ procs ∧ Asked det q args p) ∧ l ≠ [] ∧ (l.Sublist procs) ∧
    (l.length > 1 → q = .all ∨ strict = false) := by
  cases q with
  | other => simp [resolveProcesses] at h
  | all =>
    simp only [resolveProcesses] at h
    by_cases h0 : procs.length = 0
    · simp [h0] at h
    · simp only [h0, if_false, Except.ok.injEq] at h
      subst h
      exact ⟨by simp [Asked], by rintro rfl; simp at h0, List.Sublist.refl _, fun _ => Or.inl rfl⟩
  | action p' =>
    simp only [resolveProcesses] at h
    by_cases h0 : p' ∈ procs
    · simp only [h0, if_true, Except.ok.injEq] at h
      subst h
      refine ⟨?_, by simp, by simpa using h0, by simp⟩
      intro p
      simp only [List.mem_singleton, Asked]
      constructor
      · rintro rfl; exact ⟨h0, rfl⟩
      · exact fun h => h.2
    · simp [h0] at h
  | name s =>
    simp only [resolveProcesses] at h
    by_cases h0 : (strNameToProcess det procs s args).length = 0
    · simp [h0] at h
    · rw [if_neg h0] at h
      by_cases h1 : strict = true ∧ (strNameToProcess det procs s args).length > 1
      · rw [if_pos h1] at h; cases h
      · rw [if_neg h1] at h
        cases h
        refine ⟨strNameToProcess_iff det procs s args, ?_, List.filter_sublist, ?_⟩
        · intro hn; rw [hn] at h0; simp at h0
        · intro hl
          right
          cases strict with
          | false => rfl
          | true => exact absurd ⟨rfl, hl⟩ h1

/-- C50: it raises NoMatchingProcessException exactly if no recorded process is asked for (and the query is one), an exception about
multiple processes exactly if it must not return several, and TypeError exactly for a query that is none. -/
theorem C50_raises (det : Nat → ProcDetails) (procs : List Nat) (hnd : procs.Nodup) (q : ProcQuery) (args : ArgQuery) (strict : Bool) :
    (resolveProcesses det procs q args strict = .error .noMatchingProcess ↔
      q ≠ .other ∧ ∀ p ∈ procs, ¬ Asked det q args p) ∧
    (resolveProcesses det procs q args strict = .error multipleProcesses ↔
      strict = true ∧ (∃ s, q = .name s) ∧ ∃ p ∈ procs, ∃ p' ∈ procs, p ≠ p' ∧ Asked det q args p ∧ Asked det q args p') ∧
    (resolveProcesses det procs q args strict = .error .typeError ↔ q = .other) := by
  cases q with
  | other => simp [resolveProcesses, multipleProcesses]
  | all =>
    simp only [resolveProcesses]
    by_cases h0 : procs.length = 0
    · have : procs = [] := List.length_eq_zero_iff.1 h0
      subst this
      simp [multipleProcesses]
    · simp only [h0, if_false]
      obtain ⟨x, hx⟩ := List.exists_mem_of_ne_nil procs (by rintro rfl; simp at h0)
      simp only [reduceCtorEq, false_iff, Asked, not_true_eq_false, false_and, exists_false, and_false, not_false_eq_true, and_true]
      rintro ⟨_, h⟩
      exact h x hx
  | action p' =>
    simp only [resolveProcesses]
    by_cases h0 : p' ∈ procs
    · simp only [h0, if_true, reduceCtorEq, false_iff, Asked, false_and, exists_false, and_false, not_false_eq_true, and_true]
      rintro ⟨_, h⟩
      exact h p' h0 rfl
    · simp only [h0, if_false, Asked, multipleProcesses, reduceCtorEq, false_and, exists_false, and_false, true_iff]
      refine ⟨⟨by simp, ?_⟩, by simp, by simp⟩
      rintro p hp rfl
      exact h0 hp
  | name s =>
    simp only [resolveProcesses]
    have hm := strNameToProcess_iff det procs s args
    have hnd' : (strNameToProcess det procs s args).Nodup := hnd.sublist List.filter_sublist
    by_cases h0 : (strNameToProcess det procs s args).length = 0
    · have hnil : strNameToProcess det procs s args = [] := List.length_eq_zero_iff.1 h0
      have hno : ∀ p ∈ procs, ¬ Asked det (.name s) args p := by
        intro p hp ha
        have := (hm p).2 ⟨hp, ha⟩
        rw [hnil] at this
        cases this
      simp only [h0, if_true]
      refine ⟨by simpa using hno, ?_, by simp⟩
      simp only [multipleProcesses, Except.error.injEq, reduceCtorEq, false_iff]
      rintro ⟨_, _, p, hp, _, _, _, ha, _⟩
      exact hno p hp ha
    · rw [if_neg h0]
      obtain ⟨x, hx⟩ := List.exists_mem_of_ne_nil (strNameToProcess det procs s args) (by intro hn; rw [hn] at h0; simp at h0)
      by_cases h1 : strict = true ∧ (strNameToProcess det procs s args).length > 1
      · rw [if_pos h1]
        refine ⟨?_, ?_, by simp [multipleProcesses]⟩
        · simp only [multipleProcesses, Except.error.injEq, reduceCtorEq, false_iff]
          rintro ⟨_, h⟩
          exact h x ((hm x).1 hx).1 ((hm x).1 hx).2
        · simp only [true_iff]
          refine ⟨h1.1, ⟨s, rfl⟩, ?_⟩
          match hl : strNameToProcess det procs s args with
          | [] => rw [hl] at h0; simp at h0
          | [a] => rw [hl] at h1; simp at h1
          | a :: b :: t =>
            rw [hl] at hnd' hm
            have ha := (hm a).1 (by simp)
            have hb := (hm b).1 (by simp)
            refine ⟨a, ha.1, b, hb.1, ?_, ha.2, hb.2⟩
            rintro rfl
            simp at hnd'
      · rw [if_neg h1]
        refine ⟨?_, ?_, by simp⟩
        · simp only [reduceCtorEq, false_iff]
          rintro ⟨_, h⟩
          exact h x ((hm x).1 hx).1 ((hm x).1 hx).2
        · simp only [reduceCtorEq, false_iff]
          rintro ⟨hs, _, p, hp, p', hp', hne, ha, ha'⟩
          apply h1
          refine ⟨hs, ?_⟩
          have m1 := (hm p).2 ⟨hp, ha⟩
          have m2 := (hm p').2 ⟨hp', ha'⟩
          revert m1 m2
          generalize strNameToProcess det procs s args = l
          intro m1 m2
          match l with
          | [] => cases m1
          | [a] =>
            simp only [List.mem_singleton] at m1 m2
            exact absurd (m1.trans m2.symm) hne
          | a :: b :: t => simp

/-! ## C51 -/

theorem Dict.get?_of_mem {V : Type} : ∀ {d : Dict V} {k : String} {v : V}, d.Wf → (k, v) ∈ d → d.get? k = some v
  | [], _, _, _, h => by cases h
  | (k', v') :: d, k, v, hw, h => by
    have hw' : k' ∉ Dict.keys d ∧ Dict.Wf d := by simpa [Dict.Wf, Dict.keys] using hw
    rcases List.mem_cons.1 h with h | h
    · cases h; simp [Dict.get?]
    · have hne : k' ≠ k := by
        rintro rfl
        exact hw'.1 (by simp only [Dict.keys, List.mem_map]; exact ⟨_, h, rfl⟩)
      simp only [Dict.get?, hne, if_false]
      exact Dict.get?_of_mem hw'.2 h

theorem Dict.mem_of_get? {V : Type} : ∀ {d : Dict V} {k : String} {v : V}, d.get? k = some v → (k, v) ∈ d
  | [], _, _, h => by simp at h
  | (k', v') :: d, k, v, h => by
    simp only [Dict.get?] at h
    by_cases hk : k' = k
    · rw [if_pos hk] at h; cases h; subst hk; exact List.mem_cons_self
    · rw [if_neg hk] at h; exact List.mem_cons_of_mem _ (Dict.mem_of_get? h)


/-- The output appended in a history. -/
def appended (ops : List IoOp) : List Io :=
  ops.filterMap (fun op => match op with | .track _ => none | .append io => some io)

/-- A history mentions a process name. -/
def mentions (ops : List IoOp) (n : String) : Bool :=
  ops.any (fun op => match op with | .track m => m == n | .append io => io.name == n)

/-- What the handler holds after a history. -/
structure IoHandler.Inv (past : List IoOp) (h : IoHandler) : Prop where
  seq : h.seq = appended past
  dict : ∀ n, h.dict.get? n = if mentions past n then some ((appended past).filter (fun io => io.name == n)) else none
  wf : h.dict.Wf

theorem IoHandler.Inv.step {past : List IoOp} {h : IoHandler} (hi : h.Inv past) (op : IoOp) : (h.step op).Inv (past ++ [op]) := by
  cases op with
  | track m =>
    have ha : appended (past ++ [IoOp.track m]) = appended past := by simp [appended]
    have hmn : ∀ n, mentions (past ++ [IoOp.track m]) n = (mentions past n || (m == n)) := by intro n; simp [mentions]
    simp only [IoHandler.step, IoHandler.track]
    have hhas : h.dict.has m = mentions past m := by
      rw [Dict.has, hi.dict m]
      cases mentions past m <;> simp
    cases hm : mentions past m with
    | true =>
      rw [hhas, hm]
      refine ⟨by rw [ha]; exact hi.seq, ?_, hi.wf⟩
      intro n
      simp only [if_true]
      rw [hi.dict n, ha, hmn]
      by_cases hmn' : m = n
      · subst hmn'; simp [hm]
      · simp [hmn']
    | false =>
      rw [hhas, hm]
      refine ⟨by rw [ha]; exact hi.seq, ?_, hi.wf.set _ _⟩
      intro n
      simp only [Bool.false_eq_true, if_false]
      rw [Dict.get?_set, ha, hmn]
      by_cases hmn' : m = n
      · subst hmn'
        have hnone : (appended past).filter (fun io => io.name == m) = [] := by
          rw [List.filter_eq_nil_iff]
          intro io hio heq
          have : mentions past m = true := by
            simp only [mentions, List.any_eq_true]
            simp only [appended, List.mem_filterMap] at hio
            obtain ⟨op, hop, hop'⟩ := hio
            refine ⟨op, hop, ?_⟩
            cases op with
            | track _ => simp at hop'
            | append io' => simp only [Option.some.injEq] at hop'; subst hop'; exact heq
          rw [hm] at this; cases this
        simp [hnone]
      · simp [hmn', hi.dict n]
  | append io =>
    have ha : appended (past ++ [IoOp.append io]) = appended past ++ [io] := by simp [appended]
    have hmn : ∀ n, mentions (past ++ [IoOp.append io]) n = (mentions past n || (io.name == n)) := by intro n; simp [mentions]
    have hhas : h.dict.has io.name = mentions past io.name := by
      rw [Dict.has, hi.dict io.name]
      cases mentions past io.name <;> simp
    have hnone : mentions past io.name = false → (appended past).filter (fun io' => io'.name == io.name) = [] := by
      intro hm
      rw [List.filter_eq_nil_iff]
      intro io' hio heq
      have : mentions past io.name = true := by
        simp only [mentions, List.any_eq_true]
        simp only [appended, List.mem_filterMap] at hio
        obtain ⟨op, hop, hop'⟩ := hio
        refine ⟨op, hop, ?_⟩
        cases op with
        | track _ => simp at hop'
        | append io'' => simp only [Option.some.injEq] at hop'; subst hop'; exact heq
      rw [hm] at this; cases this
    have key : ∃ d : Dict (List Io), (h.append io) =
        { seq := h.seq ++ [io], dict := d.set io.name ((appended past).filter (fun io' => io'.name == io.name) ++ [io]) } ∧
        d.Wf ∧ ∀ n, n ≠ io.name → d.get? n = h.dict.get? n := by
      simp only [IoHandler.append, hhas]
      cases hm : mentions past io.name with
      | true =>
        refine ⟨h.dict, ?_, hi.wf, fun _ _ => rfl⟩
        simp only [if_true, hi.dict io.name, hm]
      | false =>
        refine ⟨h.dict.set io.name [], ?_, hi.wf.set _ _, fun n hn => Dict.get?_set_ne _ _ (fun h => hn h.symm)⟩
        simp [hnone hm]
    obtain ⟨d, hd, hwf, hother⟩ := key
    simp only [IoHandler.step, hd]
    refine ⟨by rw [ha]; simp [hi.seq], ?_, hwf.set _ _⟩
    intro n
    simp only
    rw [Dict.get?_set, ha, hmn, List.filter_append]
    by_cases hn : io.name = n
    · subst hn; simp
    · have hn' : (io.name == n) = false := by simpa using hn
      simp [hn, hother n (fun h => hn h.symm), hi.dict n]

theorem IoHandler.Inv.run : ∀ (ops past : List IoOp) {h : IoHandler}, h.Inv past → (h.run ops).Inv (past ++ ops)
  | [], past, _, hi => by simpa [IoHandler.run] using hi
  | op :: ops, past, _, hi => by
    have := IoHandler.Inv.run ops (past ++ [op]) (hi.step op)
    simpa [IoHandler.run] using this

theorem ioInv (ops : List IoOp) : (({} : IoHandler).run ops).Inv ops := by
  have := IoHandler.Inv.run ops [] (h := {}) ⟨rfl, by intro n; simp [mentions], by simp [Dict.Wf, Dict.keys]⟩
  simpa using this

/-- C51: after any history, the output of a process name is the subsequence of everything captured that belongs to it, in order; iterating gives
everything; names that were not mentioned raise KeyError. -/
theorem C51_partition (ops : List IoOp) (n : String) :
    (({} : IoHandler).run ops).seq = appended ops ∧
    (({} : IoHandler).run ops).byName n =
      (if mentions ops n then .ok ((appended ops).filter (fun io => io.name == n)) else .error .keyError) := by
  have hi := ioInv ops
  refine ⟨hi.seq, ?_⟩
  simp only [IoHandler.byName, hi.dict n]
  cases mentions ops n <;> simp

/-- C51: nothing is lost: all that was captured is found under the name of its process. -/
theorem C51_union (ops : List IoOp) (io : Io) (h : io ∈ appended ops) :
    ∃ l, (({} : IoHandler).run ops).byName io.name = .ok l ∧ io ∈ l := by
  have hm : mentions ops io.name = true := by
    simp only [mentions, List.any_eq_true]
    simp only [appended, List.mem_filterMap] at h
    obtain ⟨op, hop, hop'⟩ := h
    refine ⟨op, hop, ?_⟩
    cases op with
    | track _ => simp at hop'
    | append io' => simp only [Option.some.injEq] at hop'; subst hop'; simp
  refine ⟨(appended ops).filter (fun io' => io'.name == io.name), ?_, ?_⟩
  · rw [(C51_partition ops io.name).2, hm]; rfl
  · simpa using h

/-- The names of processes are their details' names, and different processes have different names (launch appends a counter to the name of
every process). -/
def NamesOfActions (det : Nat → ProcDetails) (ops : List IoOp) : Prop :=
  (∀ io ∈ appended ops, io.name = (det io.action).name) ∧ ∀ p p', (det p).name = (det p').name → p = p'

/-- C51: by action: each process that wrote something is listed once, and its output is what it wrote, in order. -/
theorem C51_by_action (det : Nat → ProcDetails) (ops : List IoOp) (hn : NamesOfActions det ops) :
    (∀ p, p ∈ (({} : IoHandler).run ops).processes ↔ ∃ io ∈ appended ops, io.action = p) ∧
    (({} : IoHandler).run ops).processes.Nodup ∧
    ∀ p ∈ (({} : IoHandler).run ops).processes,
      (({} : IoHandler).run ops).byAction det p = .ok ((appended ops).filter (fun io => io.action == p)) := by
  have hi := ioInv ops
  generalize (({} : IoHandler).run ops) = h at hi ⊢
  have hval : ∀ k l, (k, l) ∈ h.dict → l = (appended ops).filter (fun io => io.name == k) := by
    intro k l hkl
    have h1 := Dict.get?_of_mem hi.wf hkl
    rw [hi.dict k] at h1
    cases hm : mentions ops k with
    | true => rw [hm] at h1; simpa using h1.symm
    | false => rw [hm] at h1; simp at h1
  have hname : ∀ k l, (k, l) ∈ h.dict → ∀ io, l.head? = some io → k = (det io.action).name ∧ io ∈ appended ops := by
    intro k l hkl io hio
    have h1 := hval k l hkl
    have h2 : io ∈ l := List.mem_of_head? hio
    rw [h1, List.mem_filter] at h2
    exact ⟨by rw [← hn.1 io h2.1]; exact (by simpa using h2.2 : io.name = k).symm, h2.1⟩
  have hfilter : ∀ p, (appended ops).filter (fun io => io.name == (det p).name) = (appended ops).filter (fun io => io.action == p) := by
    intro p
    apply List.filter_congr
    intro io hio
    show (io.name == (det p).name) = (io.action == p)
    rw [hn.1 io hio]
    by_cases hp : io.action = p
    · simp [hp]
    · have : (det io.action).name ≠ (det p).name := fun h => hp (hn.2 _ _ h)
      rw [beq_eq_false_iff_ne.2 this, beq_eq_false_iff_ne.2 hp]
  have hmem : ∀ p, p ∈ h.processes ↔ ∃ io ∈ appended ops, io.action = p := by
    intro p
    simp only [IoHandler.processes, List.mem_filterMap, Option.map_eq_some_iff]
    constructor
    · rintro ⟨⟨k, l⟩, hkl, io, hio, rfl⟩
      exact ⟨io, (hname k l hkl io hio).2, rfl⟩
    · rintro ⟨io, hio, rfl⟩
      have hm : mentions ops io.name = true := by
        simp only [mentions, List.any_eq_true]
        simp only [appended, List.mem_filterMap] at hio
        obtain ⟨op, hop, hop'⟩ := hio
        refine ⟨op, hop, ?_⟩
        cases op with
        | track _ => simp at hop'
        | append io' => simp only [Option.some.injEq] at hop'; subst hop'; simp
      have hg := hi.dict io.name
      rw [hm] at hg
      simp only [if_true] at hg
      have hkl := Dict.mem_of_get? hg
      cases hhd : ((appended ops).filter (fun io' => io'.name == io.name)) with
      | nil =>
        have : io ∈ (appended ops).filter (fun io' => io'.name == io.name) := by simpa using hio
        rw [hhd] at this; cases this
      | cons io' t =>
        refine ⟨_, hkl, io', by simp [hhd], ?_⟩
        have h1 : io' ∈ (appended ops).filter (fun io'' => io''.name == io.name) := by rw [hhd]; simp
        rw [List.mem_filter] at h1
        apply hn.2
        rw [← hn.1 io' h1.1, ← hn.1 io hio]
        simpa using h1.2
  refine ⟨hmem, ?_, ?_⟩
  · have hwf := hi.wf
    simp only [IoHandler.processes]
    clear hmem hfilter
    revert hname hwf
    generalize h.dict = d
    intro hname hwf
    induction d with
    | nil => simp
    | cons kv d ih =>
      obtain ⟨k, l⟩ := kv
      have hwf' : k ∉ Dict.keys d ∧ Dict.Wf d := by simpa [Dict.Wf, Dict.keys] using hwf
      have ih' := ih (fun k l hkl => hname k l (List.mem_cons_of_mem _ hkl)) hwf'.2
      simp only [List.filterMap_cons]
      cases hl : l.head? with
      | none => simpa using ih'
      | some io =>
        simp only [Option.map_some, List.nodup_cons]
        refine ⟨?_, ih'⟩
        simp only [List.mem_filterMap, Option.map_eq_some_iff]
        rintro ⟨⟨k', l'⟩, hkl', io', hio', heq⟩
        have h1 := (hname k l List.mem_cons_self io hl).1
        have h2 := (hname k' l' (List.mem_cons_of_mem _ hkl') io' hio').1
        rw [heq] at h2
        apply hwf'.1
        rw [h1, ← h2]
        simp only [Dict.keys, List.mem_map]
        exact ⟨(k', l'), hkl', rfl⟩
  · intro p hp
    obtain ⟨io, hio, rfl⟩ := (hmem p).1 hp
    have hm : mentions ops io.name = true := by
      simp only [mentions, List.any_eq_true]
      have hio' := hio
      simp only [appended, List.mem_filterMap] at hio'
      obtain ⟨op, hop, hop'⟩ := hio'
      refine ⟨op, hop, ?_⟩
      cases op with
      | track _ => simp at hop'
      | append io' => simp only [Option.some.injEq] at hop'; subst hop'; simp
    rw [hn.1 io hio] at hm
    simp only [IoHandler.byAction, IoHandler.byName, hi.dict, hm, if_true, hfilter]

/-! ## C52 -/

/-- The latest event of a process in a history. -/
def latest (es : List ProcReport) (p : Nat) : Option ProcReport := es.reverse.find? (fun e => e.action == p)

theorem ProcInfo.lookup_append (d : ProcInfo) (e : ProcReport) (p : Nat) :
    (d.append e).lookup p = if p = e.action then some e else d.lookup p := by
  induction d with
  | nil =>
    by_cases h : p = e.action
    · subst h; simp [ProcInfo.append]
    · have : (p == e.action) = false := by simpa using h
      simp [ProcInfo.append, h, List.lookup, this]
  | cons ae d ih =>
    obtain ⟨a, e'⟩ := ae
    by_cases ha : a = e.action
    · simp only [ProcInfo.append, ha, if_true]
      by_cases h : p = e.action
      · subst h; simp
      · have : (p == e.action) = false := by simpa using h
        simp [h, List.lookup, this]
    · simp only [ProcInfo.append, ha, if_false]
      by_cases hp : p = a
      · subst hp; simp [ha]
      · have : (p == a) = false := by simpa using hp
        simp only [List.lookup, this, ih]

theorem ProcInfo.keys_append (d : ProcInfo) (e : ProcReport) :
    (d.append e).processes = if e.action ∈ d.processes then d.processes else d.processes ++ [e.action] := by
  induction d with
  | nil => simp [ProcInfo.append, ProcInfo.processes]
  | cons ae d ih =>
    obtain ⟨a, e'⟩ := ae
    by_cases ha : a = e.action
    · simp [ProcInfo.append, ProcInfo.processes, ha]
    · have ha' : ¬ e.action = a := fun h => ha h.symm
      simp only [ProcInfo.processes] at ih
      simp only [ProcInfo.append, ha, if_false, ProcInfo.processes, List.map_cons, ih, List.mem_cons, ha', false_or]
      by_cases hm : e.action ∈ List.map (fun x => x.1) d <;> simp only [hm, if_true, if_false, List.cons_append]

theorem ProcInfo.run_spec : ∀ (es past : List ProcReport) (d : ProcInfo), d.processes.Nodup → (∀ p, d.lookup p = latest past p) →
    (∀ p, p ∈ d.processes ↔ (latest past p).isSome) →
    (d.run es).processes.Nodup ∧ (∀ p, (d.run es).lookup p = latest (past ++ es) p) ∧
    (∀ p, p ∈ (d.run es).processes ↔ (latest (past ++ es) p).isSome)
  | [], past, d, h1, h2, h3 => by simpa [ProcInfo.run] using ⟨h1, h2, h3⟩
  | e :: es, past, d, h1, h2, h3 => by
    have hl : ∀ p, latest (past ++ [e]) p = if p = e.action then some e else latest past p := by
      intro p
      simp only [latest, List.reverse_append, List.reverse_cons, List.reverse_nil, List.nil_append, List.cons_append, List.find?_cons]
      by_cases hp : p = e.action
      · subst hp; simp
      · have : (e.action == p) = false := by simpa using fun h => hp h.symm
        simp [hp, this]
    have := ProcInfo.run_spec es (past ++ [e]) (d.append e) ?_ ?_ ?_
    · simpa [ProcInfo.run] using this
    · rw [ProcInfo.keys_append]
      split
      · exact h1
      · rename_i hn
        rw [List.nodup_append]
        refine ⟨h1, by simp, ?_⟩
        intro a ha b hb hab
        simp only [List.mem_singleton] at hb
        subst hb; subst hab
        exact hn ha
    · intro p
      rw [ProcInfo.lookup_append, hl, h2]
    · intro p
      rw [ProcInfo.keys_append, hl]
      by_cases hp : p = e.action
      · subst hp
        by_cases hm : e.action ∈ d.processes <;> simp [hm]
      · simp only [hp, if_false]
        rw [← h3]
        by_cases hm : e.action ∈ d.processes <;> simp [hm, hp]

theorem procInfo_spec (es : List ProcReport) :
    (ProcInfo.run [] es).processes.Nodup ∧ (∀ p, (ProcInfo.run [] es).lookup p = latest es p) ∧
    (∀ p, p ∈ (ProcInfo.run [] es).processes ↔ (latest es p).isSome) := by
  have := ProcInfo.run_spec es [] [] (by simp [ProcInfo.processes]) (by simp [latest]) (by simp [latest, ProcInfo.processes])
  simpa using this

theorem mapEach_ok {α β : Type} {f : α → Res β} {g : α → β} : ∀ (l : List α), (∀ x ∈ l, f x = .ok (g x)) → mapEach f l = .ok (l.map g)
  | [], _ => rfl
  | x :: xs, h => by
    simp only [mapEach, h x List.mem_cons_self, mapEach_ok xs (fun y hy => h y (List.mem_cons_of_mem _ hy)), List.map_cons]

theorem forEach_ok {α : Type} {f : α → Res Unit} : ∀ (l : List α), forEach f l = .ok () ↔ ∀ x ∈ l, f x = .ok ()
  | [] => by simp [forEach]
  | x :: xs => by
    have ih := forEach_ok (f := f) xs
    simp only [forEach, List.mem_cons, forall_eq_or_imp]
    cases hx : f x with
    | error e => simp
    | ok u => simpa using ih

/-- C52: after any history of events, the assertion passes exactly if the query can be resolved and every process asked for has exited, according to
its latest event, with an allowed code. -/
theorem C52_exact (det : Nat → ProcDetails) (es : List ProcReport) (allowed : List Int) (q : ProcQuery) (args : ArgQuery) (strict : Bool) :
    assertExitCodes det (ProcInfo.run [] es) allowed q args strict = .ok () ↔
      (∃ l, resolveProcesses det (ProcInfo.run [] es).processes q args strict = .ok l) ∧
      ∀ p, (∃ e ∈ es, e.action = p) → Asked det q args p → ∃ rc ∈ allowed, latest es p = some (.exited p rc) := by
  obtain ⟨hnd, hlk, hpr⟩ := procInfo_spec es
  have hev : ∀ p, (latest es p).isSome ↔ ∃ e ∈ es, e.action = p := by
    intro p
    simp [latest, List.find?_isSome]
  unfold assertExitCodes
  cases hr : resolveProcesses det (ProcInfo.run [] es).processes q args strict with
  | error e => simp
  | ok l =>
    obtain ⟨hx, _, _, _⟩ := C50_exact det _ q args strict l hr
    have hmap : mapEach (ProcInfo.run [] es).byAction l = .ok (l.map (fun p => ((latest es p).getD (.started p)))) := by
      apply mapEach_ok
      intro p hp
      have h1 := (hpr p).1 ((hx p).1 hp).1
      obtain ⟨e, he⟩ := Option.isSome_iff_exists.1 h1
      simp [ProcInfo.byAction, hlk, he]
    have hfe : (match mapEach (ProcInfo.run [] es).byAction l with | .error e => .error e | .ok evs => forEach (checkCode allowed) evs) =
        (.ok () : Res Unit) ↔ ∀ p ∈ l, checkCode allowed ((latest es p).getD (.started p)) = .ok () := by
      simp [hmap, forEach_ok]
    refine Iff.trans hfe ?_
    simp only [Except.ok.injEq, exists_eq', true_and]
    constructor
    · intro h p hp ha
      have hpl : p ∈ l := (hx p).2 ⟨(hpr p).2 ((hev p).2 hp), ha⟩
      have hc := h p hpl
      obtain ⟨e, he⟩ := Option.isSome_iff_exists.1 ((hev p).2 hp)
      have hact : e.action = p := by
        have := List.find?_some he
        simpa using this
      rw [he] at hc
      cases e with
      | started a => simp [checkCode] at hc
      | exited a rc =>
        simp only [Option.getD_some, checkCode] at hc
        by_cases hrc : rc ∈ allowed
        · exact ⟨rc, hrc, by rw [he]; simp only [ProcReport.action] at hact; rw [hact]⟩
        · simp [hrc] at hc
    · intro h p hpl
      have hp := (hx p).1 hpl
      obtain ⟨rc, hrc, he⟩ := h p ((hev p).1 ((hpr p).1 hp.1)) hp.2
      simp [he, checkCode, hrc]

/-- C52: a process that is still running does not pass: the exception is an AttributeError (its latest event has no return code), not
an AssertionError. -/
theorem C52_running_fails (det : Nat → ProcDetails) (es : List ProcReport) (allowed : List Int) (p : Nat) (args : ArgQuery) (strict : Bool)
    (h : latest es p = some (.started p)) :
    assertExitCodes det (ProcInfo.run [] es) allowed (.action p) args strict = .error .attributeError := by
  obtain ⟨hnd, hlk, hpr⟩ := procInfo_spec es
  have hm : p ∈ (ProcInfo.run [] es).processes := (hpr p).2 (by rw [h]; rfl)
  simp [assertExitCodes, resolveProcesses, hm, mapEach, ProcInfo.byAction, hlk, h, forEach, checkCode]

/-- The processes are in the order of their first events. -/
theorem ProcInfo.run_first (p : Nat → Bool) : ∀ (es : List ProcReport) (d : ProcInfo) (ae : Nat × ProcReport), d.find? (fun ae => p ae.1) = none →
    (d.run es).find? (fun ae => p ae.1) = some ae →
    ∃ f bs as, (es = bs ++ f :: as ∧ f.action = ae.1) ∧ ∀ x ∈ bs, ¬ p x.action = true
  | [], d, ae, h0, h => by
    simp only [ProcInfo.run, List.foldl_nil] at h
    rw [h0] at h
    cases h
  | e :: es, d, ae, h0, h => by
    have keep : ∀ (es : List ProcReport) (d : ProcInfo) (x : Nat), (d.find? (fun ae => p ae.1)).map (·.1) = some x →
        ((d.run es).find? (fun ae => p ae.1)).map (·.1) = some x := by
      intro es
      induction es with
      | nil => intro d x h; exact h
      | cons e es ih =>
        intro d x h
        refine ih (d.append e) x ?_
        induction d with
        | nil => simp at h
        | cons y d ihd =>
          obtain ⟨a, e'⟩ := y
          simp only [ProcInfo.append]
          split
          · simp only [List.find?_cons] at h ⊢
            split at h
            · simpa using h
            · exact h
          · simp only [List.find?_cons] at h ⊢
            split at h
            · simpa using h
            · exact ihd h
    have new : ∀ (d : ProcInfo), d.find? (fun ae => p ae.1) = none →
        ((d.append e).find? (fun ae => p ae.1)).map (·.1) = if p e.action then some e.action else none := by
      intro d
      induction d with
      | nil =>
        intro _
        simp only [ProcInfo.append, List.find?_cons, List.find?_nil]
        split <;> rename_i hpe <;> simp [hpe]
      | cons y d ihd =>
        obtain ⟨a, e'⟩ := y
        intro h
        simp only [List.find?_cons] at h
        split at h
        · cases h
        · rename_i hpa
          simp only [ProcInfo.append]
          split
          · rename_i hae
            subst hae
            simp only [List.find?_cons, hpa, h]
            rfl
          · simp only [List.find?_cons, hpa]
            exact ihd h
    have hn := new d h0
    by_cases hpe : p e.action = true
    · rw [if_pos hpe] at hn
      have := keep es (d.append e) _ hn
      change ((d.run (e :: es)).find? (fun ae => p ae.1)).map (·.1) = _ at this
      rw [h] at this
      simp only [Option.map_some, Option.some.injEq] at this
      exact ⟨e, [], es, ⟨rfl, this.symm⟩, by simp⟩
    · rw [if_neg hpe] at hn
      obtain ⟨f, bs, as, ⟨h1, h2⟩, h3⟩ := ProcInfo.run_first p es (d.append e) ae (by simpa using hn) h
      refine ⟨f, e :: bs, as, ⟨by rw [h1]; rfl, h2⟩, ?_⟩
      intro x hx
      rcases List.mem_cons.1 hx with rfl | hx
      · exact hpe
      · exact h3 x hx

theorem procInfo_first (es : List ProcReport) (p : Nat → Bool) (ae : Nat × ProcReport) (h : (ProcInfo.run [] es).find? (fun ae => p ae.1) = some ae) :
    ∃ f bs as, (es = bs ++ f :: as ∧ f.action = ae.1) ∧ ∀ x ∈ bs, ¬ p x.action = true := ProcInfo.run_first p es [] ae rfl h

/-- C52: looking up by a name gives the latest event of a recorded process whose name contains it, or KeyError if there is none.  With
several such processes it is the one recorded first. -/
theorem C52_by_name (det : Nat → ProcDetails) (es : List ProcReport) (key : String) :
    (∀ e, ProcInfo.byName det (ProcInfo.run [] es) key = .ok e → Substring key (det e.action).name ∧ latest es e.action = some e ∧
      ∃ before first after, es = before ++ first :: after ∧ first.action = e.action ∧ ∀ x ∈ before, ¬ Substring key (det x.action).name) ∧
    (ProcInfo.byName det (ProcInfo.run [] es) key = .error .keyError ↔ ∀ e ∈ es, ¬ Substring key (det e.action).name) := by
  obtain ⟨hnd, hlk, hpr⟩ := procInfo_spec es
  have hev : ∀ p, (latest es p).isSome ↔ ∃ e ∈ es, e.action = p := by
    intro p
    simp [latest, List.find?_isSome]
  have hmem : ∀ ae ∈ ProcInfo.run [] es, latest es ae.1 = some ae.2 := by
    intro ae hae
    rw [← hlk]
    have hn := hnd
    simp only [ProcInfo.processes] at hn
    revert hn hae
    generalize ProcInfo.run [] es = d
    intro hae hn
    induction d with
    | nil => cases hae
    | cons x d ih =>
      obtain ⟨a, e'⟩ := x
      simp only [List.map_cons, List.nodup_cons] at hn
      rcases List.mem_cons.1 hae with rfl | hae
      · simp
      · have hne : ae.1 ≠ a := by
          intro h
          apply hn.1
          rw [← h]
          exact List.mem_map_of_mem hae
        have : (ae.1 == a) = false := by simpa using hne
        simp only [List.lookup, this]
        exact ih hae hn.2
  have hact : ∀ p e, latest es p = some e → e.action = p := by
    intro p e he
    have := List.find?_some he
    simpa using this
  unfold ProcInfo.byName
  constructor
  · intro e he
    cases hf : (ProcInfo.run [] es).find? (fun ae => strIn key (det ae.1).name) with
    | none => rw [hf] at he; simp at he
    | some ae =>
      rw [hf] at he
      simp only [Except.ok.injEq] at he
      subst he
      have h1 := hmem ae (List.mem_of_find?_eq_some hf)
      have h2 := List.find?_some hf
      have h3 := hact _ _ h1
      rw [h3]
      refine ⟨(strIn_iff _ _).1 h2, h1, ?_⟩
      obtain ⟨hp, bs, as, hb, hnb⟩ := procInfo_first es (fun a => strIn key (det a).name) _ hf
      exact ⟨bs, hp, as, hb.1, hb.2, fun x hx hs => hnb x hx ((strIn_iff _ _).2 hs)⟩
  · cases hf : (ProcInfo.run [] es).find? (fun ae => strIn key (det ae.1).name) with
    | some ae =>
      simp only [reduceCtorEq, false_iff]
      intro h
      have h1 := hmem ae (List.mem_of_find?_eq_some hf)
      have h2 := List.find?_some hf
      obtain ⟨e, he, hea⟩ := (hev ae.1).1 (by rw [h1]; rfl)
      apply h e he
      rw [hea]
      exact (strIn_iff _ _).1 h2
    | none =>
      simp only [true_iff]
      intro e he hs
      rw [List.find?_eq_none] at hf
      have hm := (hpr e.action).2 ((hev e.action).2 ⟨e, he, rfl⟩)
      simp only [ProcInfo.processes, List.mem_map] at hm
      obtain ⟨ae, hae, hae1⟩ := hm
      have := hf ae hae
      rw [hae1] at this
      exact this ((strIn_iff _ _).2 hs)

/-! ## C68 -/

/-- All a process wrote to one stream, in order. -/
def wrote (ops : List IoOp) (p : Nat) (stdout : Bool) : List UInt8 :=
  (((appended ops).filter (fun io => io.action == p && io.fromStdout == stdout)).map (·.text)).flatten

/-- The bytes are the encoding of a text: no character is cut. -/
def WholeChars (bs : List UInt8) : Prop := ∃ t, bs = encode t

theorem decoded_ok (io : Io) (t : List Char) : io.decoded = .ok t ↔ io.text = encode t := by
  unfold Io.decoded
  rw [← decodeStrict_iff]
  cases decodeStrict io.text <;> simp

theorem decoded_error (io : Io) : io.decoded = .error .valueError ↔ ¬ WholeChars io.text := by
  unfold Io.decoded WholeChars
  simp only [← decodeStrict_iff]
  cases decodeStrict io.text <;> simp

theorem joinDecoded_whole : ∀ l : List Io, (∀ io ∈ l, WholeChars io.text) →
    ∃ t, joinDecoded l = .ok t ∧ (l.map (·.text)).flatten = encode t
  | [], _ => ⟨[], rfl, rfl⟩
  | io :: l, h => by
    obtain ⟨t1, h1⟩ := h io List.mem_cons_self
    obtain ⟨t2, h2, h3⟩ := joinDecoded_whole l (fun x hx => h x (List.mem_cons_of_mem _ hx))
    unfold joinDecoded at h2
    cases hm : mapEach Io.decoded l with
    | error e => rw [hm] at h2; simp at h2
    | ok ts =>
      rw [hm] at h2
      simp only [Except.ok.injEq] at h2
      refine ⟨t1 ++ t2, ?_, ?_⟩
      · unfold joinDecoded
        simp only [mapEach, (decoded_ok io t1).2 h1, hm, List.flatten_cons, h2]
      · rw [List.map_cons, List.flatten_cons, h3, h1, encode_append]

theorem joinDecoded_bad : ∀ l : List Io, (∃ io ∈ l, ¬ WholeChars io.text) → joinDecoded l = .error .valueError
  | [], h => by obtain ⟨_, h, _⟩ := h; cases h
  | io :: l, h => by
    unfold joinDecoded
    by_cases hw : WholeChars io.text
    · obtain ⟨t1, h1⟩ := hw
      have : joinDecoded l = .error .valueError := by
        apply joinDecoded_bad l
        obtain ⟨x, hx, hb⟩ := h
        rcases List.mem_cons.1 hx with rfl | hx
        · exact absurd ⟨t1, h1⟩ hb
        · exact ⟨x, hx, hb⟩
      unfold joinDecoded at this
      simp only [mapEach, (decoded_ok io t1).2 h1]
      cases hm : mapEach Io.decoded l with
      | error e => rw [hm] at this; simpa using this
      | ok ts => rw [hm] at this; simp at this
    · simp only [mapEach, (decoded_error io).2 hw]

theorem streamText_filter (ops : List IoOp) (p : Nat) (stdout : Bool) :
    streamText (if stdout then .stdout else .stderr) ((appended ops).filter (fun io => io.action == p)) =
      joinDecoded ((appended ops).filter (fun io => io.action == p && io.fromStdout == stdout)) := by
  cases stdout with
  | true =>
    simp only [if_true, streamText, List.filter_filter]
    congr 1
    apply List.filter_congr
    intro io _
    cases io.fromStdout <;> simp
  | false =>
    simp only [Bool.false_eq_true, if_false, streamText, List.filter_filter]
    congr 1
    apply List.filter_congr
    intro io _
    cases io.fromStdout <;> simp

/-- C68, if no chunk ends inside a character: an output assertion passes exactly if the query can be resolved and the text that some
process asked for wrote to the stream, however it was cut into chunks, is accepted. -/
theorem C68_whole_stream_partial (det : Nat → ProcDetails) (ops : List IoOp) (hn : NamesOfActions det ops)
    (hw : ∀ io ∈ appended ops, WholeChars io.text) (accepts : List Char → Bool) (q : ProcQuery) (args : ArgQuery) (strict stdout : Bool) :
    assertInStream det (({} : IoHandler).run ops) accepts q args strict (if stdout then .stdout else .stderr) = .ok () ↔
      (∃ l, resolveProcesses det (({} : IoHandler).run ops).processes q args strict = .ok l) ∧
      ∃ p, (∃ io ∈ appended ops, io.action = p) ∧ Asked det q args p ∧ ∃ t, wrote ops p stdout = encode t ∧ accepts t = true := by
  obtain ⟨h1, _, h3⟩ := C51_by_action det ops hn
  generalize ({} : IoHandler).run ops = h at h1 h3 ⊢
  unfold assertInStream
  cases hr : resolveProcesses det h.processes q args strict with
  | error e => simp
  | ok l =>
    obtain ⟨hx, _, _, _⟩ := C50_exact det _ q args strict l hr
    have htext : ∀ p, ∃ t, streamText (if stdout then .stdout else .stderr) ((appended ops).filter (fun io => io.action == p)) =
        .ok t ∧ wrote ops p stdout = encode t := by
      intro p
      rw [streamText_filter]
      exact joinDecoded_whole _ (fun io hio => hw io (List.mem_filter.1 hio).1)
    have key : ∀ l : List Nat, (∀ p ∈ l, p ∈ h.processes) →
        (anyInStream det h accepts (if stdout then .stdout else .stderr) l = .ok () ↔
          ∃ p ∈ l, ∃ t, wrote ops p stdout = encode t ∧ accepts t = true) := by
      intro l
      induction l with
      | nil => simp [anyInStream]
      | cons p ps ih =>
        intro hl
        obtain ⟨t, ht, he⟩ := htext p
        simp only [anyInStream, h3 p (hl p List.mem_cons_self), ht, List.mem_cons, exists_eq_or_imp]
        have hu : (∃ t', wrote ops p stdout = encode t' ∧ accepts t' = true) ↔ accepts t = true := by
          constructor
          · rintro ⟨t', h1, h2⟩
            rw [he] at h1
            rw [encode_inj h1]; exact h2
          · exact fun h => ⟨t, he, h⟩
        rw [hu]
        cases ha : accepts t with
        | true => simp
        | false => simpa using ih (fun p' hp' => hl p' (List.mem_cons_of_mem _ hp'))
    simp only [Except.ok.injEq, exists_eq', true_and]
    rw [key l (fun p hp => ((hx p).1 hp).1)]
    constructor
    · rintro ⟨p, hp, ha⟩
      have := (hx p).1 hp
      exact ⟨p, (h1 p).1 this.1, this.2, ha⟩
    · rintro ⟨p, hio, hask, ha⟩
      exact ⟨p, (hx p).2 ⟨(h1 p).2 hio, hask⟩, ha⟩

/-- C68 for one process that wrote something: the assertion raises ValueError (UnicodeDecodeError) exactly if some chunk it wrote to the stream begins
or ends inside a character; otherwise it passes exactly if the text it wrote to the stream is accepted, and fails with AssertionError if not. -/
theorem C68_one_process (det : Nat → ProcDetails) (ops : List IoOp) (hn : NamesOfActions det ops) (accepts : List Char → Bool) (p : Nat)
    (hp : ∃ io ∈ appended ops, io.action = p) (args : ArgQuery) (strict stdout : Bool) :
    ((∃ io ∈ appended ops, io.action = p ∧ io.fromStdout = stdout ∧ ¬ WholeChars io.text) →
      assertInStream det (({} : IoHandler).run ops) accepts (.action p) args strict (if stdout then .stdout else .stderr) = .error .valueError) ∧
    ((∀ io ∈ appended ops, io.action = p → io.fromStdout = stdout → WholeChars io.text) → ∃ t, wrote ops p stdout = encode t ∧
      assertInStream det (({} : IoHandler).run ops) accepts (.action p) args strict (if stdout then .stdout else .stderr) =
        if accepts t then .ok () else .error .assertionError) := by
  obtain ⟨h1, _, h3⟩ := C51_by_action det ops hn
  generalize ({} : IoHandler).run ops = h at h1 h3 ⊢
  have hm := (h1 p).2 hp
  have hres : resolveProcesses det h.processes (.action p) args strict = .ok [p] := by simp [resolveProcesses, hm]
  simp only [assertInStream, hres, anyInStream, h3 p hm, streamText_filter]
  constructor
  · rintro ⟨io, hio, ha, hs, hb⟩
    rw [joinDecoded_bad _ ⟨io, List.mem_filter.2 ⟨hio, by simp [ha, hs]⟩, hb⟩]
  · intro hw
    obtain ⟨t, ht, he⟩ := joinDecoded_whole ((appended ops).filter (fun io => io.action == p && io.fromStdout == stdout)) (by
      intro io hio
      obtain ⟨h1, h2⟩ := List.mem_filter.1 hio
      simp only [Bool.and_eq_true, beq_iff_eq] at h2
      exact hw io h1 h2.1 h2.2)
    refine ⟨t, he, ?_⟩
    rw [ht]

/-- C68 is violated by output cut inside a character, since each chunk is decoded on its own: the same bytes written to the same stream by the same process
are accepted in one piece, and make the same assertion raise ValueError in two. -/
theorem C68_cut_character_violated : ∃ (det : Nat → ProcDetails) (ops ops' : List IoOp) (accepts : List Char → Bool),
    NamesOfActions det ops ∧ NamesOfActions det ops' ∧ (∀ p b, wrote ops p b = wrote ops' p b) ∧
    assertInStream det (({} : IoHandler).run ops) accepts (.action 0) .any true .stdout = .ok () ∧
    assertInStream det (({} : IoHandler).run ops') accepts (.action 0) .any true .stdout = .error .valueError := by
  have hdet : ∀ p p', (⟨String.ofList (List.replicate p 'x'), []⟩ : ProcDetails).name = (⟨String.ofList (List.replicate p' 'x'), []⟩ : ProcDetails).name → p = p' := by
    intro p p' h
    have h1 := congrArg (fun s => s.toList.length) h
    simpa using h1
  refine ⟨fun n => ⟨String.ofList (List.replicate n 'x'), []⟩, [.append ⟨0, "", true, [0xc3, 0xa9]⟩],
    [.append ⟨0, "", true, [0xc3]⟩, .append ⟨0, "", true, [0xa9]⟩], fun t => t == ['é'], ⟨by decide, hdet⟩, ⟨by decide, hdet⟩, ?_, by rfl, by rfl⟩
  intro p b
  by_cases hp : p = 0
  · subst hp; cases b <;> rfl
  · have h0 : (0 == p) = false := by simpa using fun h => hp h.symm
    simp [wrote, appended, h0]

/-! ## Examples -/

/-- Three processes; the names of the first two contain the same text. -/
def sampleDet : Nat → ProcDetails
  | 0 => ⟨"talker-1", ["talker", "-v"]⟩
  | 1 => ⟨"talker-2", ["talker"]⟩
  | n => ⟨"listener-" ++ String.ofList (List.replicate n 'x'), ["listener"]⟩

example : resolveProcesses sampleDet [0, 1, 2] (.name "talker") .any true = .error multipleProcesses := by rfl
example : (match resolveProcesses sampleDet [0, 1, 2] (.name "talker") .noArgs true with | .ok l => l == [1] | _ => false) = true := by
  decide +kernel
example : (match resolveProcesses sampleDet [0, 1, 2] (.name "talker") .any false with | .ok l => l == [0, 1] | _ => false) = true := by
  decide +kernel

/-- Output of two processes, interleaved; "hello" is cut. -/
def sampleIo : List IoOp :=
  [.track "talker-1", .append ⟨0, "talker-1", true, encode "hel".toList⟩, .append ⟨1, "talker-2", true, encode "x".toList⟩,
   .append ⟨0, "talker-1", false, encode "err".toList⟩, .append ⟨0, "talker-1", true, encode "lo".toList⟩, .track "listener-xx"]

example : NamesOfActions sampleDet sampleIo := by
  constructor
  · decide
  · intro p p' h
    match p, p' with
    | 0, 0 => rfl
    | 1, 1 => rfl
    | 0, 1 => exact absurd h (by decide)
    | 1, 0 => exact absurd h (by decide)
    | 0, n + 2 => have := congrArg (fun s => s.toList.head?) h; simp [sampleDet] at this
    | 1, n + 2 => have := congrArg (fun s => s.toList.head?) h; simp [sampleDet] at this
    | n + 2, 0 => have := congrArg (fun s => s.toList.head?) h; simp [sampleDet] at this
    | n + 2, 1 => have := congrArg (fun s => s.toList.head?) h; simp [sampleDet] at this
    | n + 2, m + 2 =>
      have h1 := congrArg (fun s => s.toList.length) h
      simp [sampleDet] at h1
      omega

example : ∀ io ∈ appended sampleIo, WholeChars io.text := by
  intro io h
  simp only [sampleIo, appended, List.filterMap_cons, List.filterMap_nil, List.mem_cons, List.not_mem_nil, or_false] at h
  rcases h with rfl | rfl | rfl | rfl <;> exact ⟨_, rfl⟩

example : wrote sampleIo 0 true = encode "hello".toList ∧ (({} : IoHandler).run sampleIo).processes = [0, 1] := by decide +kernel

example : (match assertExitCodes sampleDet (ProcInfo.run [] [.started 0, .started 1, .exited 1 1, .started 1, .exited 0 0, .exited 1 0])
    [0] .all .any true with | .ok _ => true | _ => false) = true := by decide +kernel
example : latest [.started 0, .exited 0 0, .started 0] 0 = some (.started 0) := by decide +kernel

end Verif
