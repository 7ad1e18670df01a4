import Verif.Props.SequentialText
import Verif.Props.ProcLookup

/-!
# C49: the output of which process is checked, and what a failure shows
-/

namespace Verif

theorem mapEach_decoded : ∀ l : List Io, (∀ io ∈ l, WholeChars io.text) →
    ∃ ts, mapEach Io.decoded l = .ok ts ∧ ts.map encode = l.map (·.text)
  | [], _ => ⟨[], rfl, rfl⟩
  | io :: l, h => by
    obtain ⟨t, ht⟩ := h io List.mem_cons_self
    obtain ⟨ts, h1, h2⟩ := mapEach_decoded l (fun x hx => h x (List.mem_cons_of_mem _ hx))
    refine ⟨t :: ts, ?_, by simp [h2, ht]⟩
    simp only [mapEach, (decoded_ok io t).2 ht, h1]

/-- C49, if no chunk ends inside a character: the messages asserted one after another for a process are all found exactly if they stand one after
another in the chunks the process wrote, each inside one chunk.  These are the chunks of both streams. -/
theorem C49_process_partial (det : Nat → ProcDetails) (ops : List IoOp) (hn : NamesOfActions det ops) (p : Nat)
    (hp : ∃ io ∈ appended ops, io.action = p) (hw : ∀ io ∈ appended ops, io.action = p → WholeChars io.text) (args : ArgQuery) :
    ∃ s texts, assertSequentialStdout det (({} : IoHandler).run ops) (.action p) args = .ok s ∧
      texts.map encode = ((appended ops).filter (fun io => io.action == p)).map (·.text) ∧
      ∀ msgs, (∀ r ∈ s.runAll msgs, r = true) ↔ Placed texts 0 0 msgs := by
  obtain ⟨h1, _, h3⟩ := C51_by_action det ops hn
  generalize ({} : IoHandler).run ops = h at h1 h3 ⊢
  have hm := (h1 p).2 hp
  obtain ⟨ts, ht, he⟩ := mapEach_decoded ((appended ops).filter (fun io => io.action == p)) (by
    intro io hio
    obtain ⟨h1, h2⟩ := List.mem_filter.1 hio
    exact hw io h1 (by simpa using h2))
  refine ⟨{ output := ts }, ts, ?_, he, fun msgs => C49_sound_complete _ msgs⟩
  have hres : resolveProcesses det h.processes (.action p) args true = .ok [p] := by simp [resolveProcesses, hm]
  simp only [assertSequentialStdout, hres, h3 p hm, ht]

/-- C49: a process asked for by its name is the only one that wrote something and is meant by the name and the arguments; otherwise there is an
exception, at once. -/
theorem C49_by_name (det : Nat → ProcDetails) (ops : List IoOp) (hn : NamesOfActions det ops) (name : String) (args : ArgQuery) :
    (∀ p, ((∃ io ∈ appended ops, io.action = p) ∧ Asked det (.name name) args p ∧
        ∀ p', (∃ io ∈ appended ops, io.action = p') → Asked det (.name name) args p' → p' = p) →
      assertSequentialStdout det (({} : IoHandler).run ops) (.name name) args = assertSequentialStdout det (({} : IoHandler).run ops) (.action p) args) ∧
    ((¬ ∃ p, (∃ io ∈ appended ops, io.action = p) ∧ Asked det (.name name) args p) →
      assertSequentialStdout det (({} : IoHandler).run ops) (.name name) args = .error .noMatchingProcess) ∧
    ((∃ p p', p ≠ p' ∧ (∃ io ∈ appended ops, io.action = p) ∧ Asked det (.name name) args p ∧ (∃ io ∈ appended ops, io.action = p') ∧
        Asked det (.name name) args p') →
      assertSequentialStdout det (({} : IoHandler).run ops) (.name name) args = .error multipleProcesses) := by
  obtain ⟨h1, hnd, h3⟩ := C51_by_action det ops hn
  generalize ({} : IoHandler).run ops = h at h1 hnd h3 ⊢
  have hmem : ∀ p, p ∈ strNameToProcess det h.processes name args ↔ (∃ io ∈ appended ops, io.action = p) ∧ Asked det (.name name) args p := by
    intro p
    have := C50_exact det h.processes (.name name) args false
    rw [← h1]
    by_cases h0 : (strNameToProcess det h.processes name args).length = 0
    · have hnil := List.length_eq_zero_iff.1 h0
      have := (C50_raises det h.processes hnd (.name name) args false).1.1 (by simp [resolveProcesses, h0])
      rw [hnil]
      simp only [List.not_mem_nil, false_iff, not_and]
      intro hp ha
      exact this.2 p hp ha
    · exact (this _ (by simp [resolveProcesses, h0])).1 p
  have hsnd : (strNameToProcess det h.processes name args).Nodup := hnd.filter _
  generalize hl : strNameToProcess det h.processes name args = l at hmem hsnd
  have hres : resolveProcesses det h.processes (.name name) args true =
      if l.length = 0 then .error .noMatchingProcess else if l.length > 1 then .error multipleProcesses else .ok l := by
    simp [resolveProcesses, hl]
  refine ⟨?_, ?_, ?_⟩
  · rintro p ⟨hp, ha, hu⟩
    have hlp : l = [p] := by
      match l, hmem, hsnd with
      | [], hmem, _ => exact absurd ((hmem p).2 ⟨hp, ha⟩) (by simp)
      | [x], hmem, _ =>
        have := (hmem x).1 (by simp)
        rw [hu x this.1 this.2]
      | x :: y :: l, hmem, hsnd =>
        have hx := (hmem x).1 (by simp)
        have hy := (hmem y).1 (by simp)
        have : x = y := by rw [hu x hx.1 hx.2, hu y hy.1 hy.2]
        subst this
        simp at hsnd
    have hres2 : resolveProcesses det h.processes (.action p) args true = .ok [p] := by simp [resolveProcesses, (h1 p).2 hp]
    have hres1 : resolveProcesses det h.processes (.name name) args true = .ok [p] := by rw [hres, hlp]; simp
    simp only [assertSequentialStdout, hres1, hres2]
  · intro hno
    have : l = [] := by
      apply List.eq_nil_iff_forall_not_mem.2
      intro p hp
      exact hno ⟨p, (hmem p).1 hp⟩
    simp only [assertSequentialStdout, hres, this, List.length_nil, if_true]
  · rintro ⟨p, p', hne, hp, ha, hp', ha'⟩
    have m1 := (hmem p).2 ⟨hp, ha⟩
    have m2 := (hmem p').2 ⟨hp', ha'⟩
    have hlen : l.length > 1 := by
      match l, m1, m2 with
      | [x], m1, m2 =>
        simp only [List.mem_singleton] at m1 m2
        exact absurd (m1.trans m2.symm) hne
      | _ :: _ :: _, _, _ => simp
    have h0 : l.length ≠ 0 := by omega
    simp only [assertSequentialStdout, hres, h0, hlen, if_true, if_false]

/-- C49 is violated by what is written to stderr: `assertSequentialStdout` finds it, although the process wrote nothing to stdout. -/
theorem C49_stderr_violated : ∃ (det : Nat → ProcDetails) (ops : List IoOp) (s : SeqChecker),
    assertSequentialStdout det (({} : IoHandler).run ops) (.action 0) .any = .ok s ∧
    (s.assertIn "error".toList).2 = .ok () ∧ wrote ops 0 true = [] :=
  ⟨fun _ => ⟨"a", []⟩, [.append ⟨0, "a", false, encode "error".toList⟩], { output := ["error".toList] }, by rfl, by rfl, by rfl⟩

/-! ## What a failure shows -/

theorem lineBack_le (t : List Char) (e : Nat) : lineBack t e ≤ e ∧ (lineBack t e ≠ 0 → lineBack t e < e) := by
  unfold lineBack
  cases h : lastNewline t e with
  | none => simp
  | some i =>
    have : i < min e t.length := by
      have := List.mem_of_getLast? h
      simpa using (List.mem_filter.1 this).1
    simp only [Option.getD_some]
    omega

theorem lineOn_bounds (t : List Char) (e : Nat) (h : e ≤ t.length) : e ≤ lineOn t e ∧ lineOn t e ≤ t.length := by
  unfold lineOn
  cases hf : pyFind t ['\n'] (e + 1) with
  | none => simp [h]
  | some i =>
    obtain ⟨h1, h2, _⟩ := pyFind_some hf
    have := h2.le
    simp only [Option.getD_some, List.length_singleton] at *
    omega

/-- A step back ends at a newline, or at the beginning. -/
theorem lineBack_newline (t : List Char) (e : Nat) : lineBack t e = 0 ∨ t[lineBack t e]? = some '\n' := by
  unfold lineBack
  cases h : lastNewline t e with
  | none => exact .inl rfl
  | some i =>
    right
    have := (List.mem_filter.1 (List.mem_of_getLast? h)).2
    simpa using this

/-- A step on ends at a newline, or does not move. -/
theorem lineOn_newline (t : List Char) (e : Nat) : lineOn t e = e ∨ t[lineOn t e]? = some '\n' := by
  unfold lineOn
  cases hf : pyFind t ['\n'] (e + 1) with
  | none => exact .inl rfl
  | some i =>
    right
    obtain ⟨h1, h2, _⟩ := pyFind_some hf
    obtain ⟨u, v, rfl, rfl⟩ := h2
    simp

/-- The position of the checker in the whole output: that of the end of the last message found. -/
def SeqChecker.position (s : SeqChecker) : Nat := (s.output.take s.array).flatten.length + s.sub

/-- C49: what the message of a failure shows is a contiguous part of the output around the end of the last message found.  It begins with a line (or two pieces of output
before that one), and it ends with a line or where the message ends. -/
theorem C49_nearby (s : SeqChecker) (text : List Char) (hs : s.output[s.array]? = some text) (hsub : s.sub ≤ text.length) :
    ∃ x y, s.output.flatten = x ++ s.nearby ++ y ∧ x.length ≤ s.position ∧ s.position ≤ x.length + s.nearby.length ∧
      (x = (s.output.take (s.array - 2)).flatten ∨ x.getLast? = some '\n') ∧ (s.position = x.length + s.nearby.length ∨ y.head? = some '\n') := by
  obtain ⟨hlt, htext⟩ := List.getElem?_eq_some_iff.1 hs
  let start := s.array - 2
  let pre := (s.output.take start).flatten
  let full := ((s.output.take (s.array + 4)).drop start).flatten
  let post := (s.output.drop (s.array + 4)).flatten
  let mid := ((s.output.take s.array).drop start).flatten
  have hstart : start ≤ s.array := Nat.sub_le _ _
  have hall : s.output.flatten = pre ++ full ++ post := by
    have h1 : s.output.take (s.array + 4) = s.output.take start ++ (s.output.take (s.array + 4)).drop start := by
      have := List.take_append_drop start (s.output.take (s.array + 4))
      rw [List.take_take, Nat.min_eq_left (by omega)] at this
      exact this.symm
    calc s.output.flatten = (s.output.take (s.array + 4) ++ s.output.drop (s.array + 4)).flatten := by rw [List.take_append_drop]
      _ = _ := by rw [List.flatten_append, h1, List.flatten_append]
  have hpos : s.position = pre.length + (s.sub + mid.length) := by
    have h1 : s.output.take s.array = s.output.take start ++ (s.output.take s.array).drop start := by
      have := List.take_append_drop start (s.output.take s.array)
      rw [List.take_take, Nat.min_eq_left hstart] at this
      exact this.symm
    have h2 : (s.output.take s.array).flatten.length = pre.length + mid.length := by
      have := congrArg (fun l => l.flatten.length) h1
      simp only [List.flatten_append, List.length_append] at this
      exact this
    unfold SeqChecker.position
    omega
  have hle : s.sub + mid.length ≤ full.length := by
    have h1 : (s.output.take (s.array + 4)).drop start = (s.output.take s.array).drop start ++ (s.output.drop s.array).take 4 := by
      rw [List.take_add, List.drop_append_of_le_length (by simp; omega)]
    have h2 : s.output.drop s.array = text :: s.output.drop (s.array + 1) := by
      rw [← htext]; exact List.drop_eq_getElem_cons hlt
    have h3 : full.length = mid.length + ((s.output.drop s.array).take 4).flatten.length := by
      have := congrArg (fun l => l.flatten.length) h1
      simp only [List.flatten_append, List.length_append] at this
      exact this
    rw [h2] at h3
    simp only [List.take_succ_cons, List.flatten_cons, List.length_append] at h3
    omega
  have key : ∀ (pos a e : Nat), pos ≤ full.length → a ≤ pos → pos ≤ e → e ≤ full.length →
      ∃ x y, s.output.flatten = x ++ (full.take e).drop a ++ y ∧ x.length = pre.length + a ∧ ((full.take e).drop a).length = e - a ∧
        x = pre ++ full.take a ∧ y = full.drop e ++ post := by
    intro pos a e h1 h2 h3 h4
    refine ⟨pre ++ full.take a, full.drop e ++ post, ?_, by simp; omega, by simp; omega, rfl, rfl⟩
    have : full = full.take a ++ (full.take e).drop a ++ full.drop e := by
      have h5 := List.take_append_drop a (full.take e)
      rw [List.take_take, Nat.min_eq_left (by omega)] at h5
      rw [h5, List.take_append_drop]
    rw [hall]
    conv => lhs; rw [this]
    simp [List.append_assoc]
  let pos := s.sub + mid.length
  let a1 := lineBack full (lineBack full (lineBack full pos))
  let a := if a1 ≠ 0 then a1 + 1 else a1
  let e := lineOn full (lineOn full (lineOn full pos))
  have hn : s.nearby = (full.take e).drop a := rfl
  have ha : a ≤ pos := by
    have b1 := lineBack_le full pos
    have b2 := lineBack_le full (lineBack full pos)
    have b3 := lineBack_le full (lineBack full (lineBack full pos))
    show (if a1 ≠ 0 then a1 + 1 else a1) ≤ pos
    split
    · rename_i h
      have := b3.2 h
      have e1 : a1 = lineBack full (lineBack full (lineBack full pos)) := rfl
      omega
    · have e1 : a1 = lineBack full (lineBack full (lineBack full pos)) := rfl
      omega
  have he : pos ≤ e ∧ e ≤ full.length := by
    have b1 := lineOn_bounds full pos hle
    have b2 := lineOn_bounds full _ b1.2
    have b3 := lineOn_bounds full _ b2.2
    exact ⟨by have e1 : e = lineOn full (lineOn full (lineOn full pos)) := rfl; omega, b3.2⟩
  obtain ⟨x, y, h1, h2, h3, h4, h5⟩ := key pos a e hle ha he.1 he.2
  have hlen : pos ≤ full.length := hle
  refine ⟨x, y, by rw [hn]; exact h1, ?_, ?_, ?_, ?_⟩
  · rw [h2, hpos]; have : pos = s.sub + mid.length := rfl; omega
  · rw [hn, h3, h2, hpos]; have : pos = s.sub + mid.length := rfl; omega
  · have hb : a1 = 0 ∨ full[a1]? = some '\n' := lineBack_newline full _
    have ha1 : a = if a1 ≠ 0 then a1 + 1 else a1 := rfl
    by_cases h0 : a1 = 0
    · left
      rw [if_neg (by simp [h0]), h0] at ha1
      rw [h4, ha1]
      simp [pre, start]
    · right
      rw [if_pos h0] at ha1
      have hnl := hb.resolve_left h0
      rw [h4, ha1, List.getLast?_append, List.take_add_one, hnl]
      simp
  · have hon : e = pos ∨ full[e]? = some '\n' := by
      rcases lineOn_newline full (lineOn full (lineOn full pos)) with w | w
      · rcases lineOn_newline full (lineOn full pos) with w2 | w2
        · rcases lineOn_newline full pos with w3 | w3
          · left; show lineOn full (lineOn full (lineOn full pos)) = pos; rw [w, w2, w3]
          · right; show full[lineOn full (lineOn full (lineOn full pos))]? = _; rw [w, w2, w3]
        · right; show full[lineOn full (lineOn full (lineOn full pos))]? = _; rw [w, w2]
      · exact .inr w
    rcases hon with w | w
    · left
      rw [hn, h3, h2, hpos]; have : pos = s.sub + mid.length := rfl; omega
    · right
      rw [h5, List.head?_append, List.head?_drop, w]
      rfl

/-- C49: the message of a failure may show nothing although there is output: text without a newline behind it is left out. -/
theorem C49_nearby_violated : ∃ (s : SeqChecker) (msg : List Char), s.array = 0 ∧ s.sub = 0 ∧ s.output.flatten ≠ [] ∧
    (s.assertIn msg).2 = .error .assertionError ∧ s.nearby = [] :=
  ⟨{ output := ["hello".toList] }, "x".toList, rfl, rfl, by decide, by rfl, by decide +kernel⟩

/-! ## Examples -/

example : ({ output := ["1\n2\n".toList, "3\n4\n5\n".toList, "6\n7\n8".toList], array := 1, sub := 2 } : SeqChecker).nearby = "2\n3\n4\n5\n6".toList := by
  decide +kernel

example : ∃ s texts, assertSequentialStdout sampleDet (({} : IoHandler).run sampleIo) (.action 0) .any = .ok s ∧
    s.output = texts ∧ texts = ["hel".toList, "err".toList, "lo".toList] := ⟨_, _, by rfl, rfl, by decide +kernel⟩

example : assertSequentialStdout sampleDet (({} : IoHandler).run sampleIo) (.name "talker") .any = .error multipleProcesses := by rfl

end Verif
