import Verif.Spec.ReadyListener
import Verif.Lemmas.Utf8
import Verif.Props.LegacyOutput

/-!
# Property C106: waiting for a text on standard output
-/

namespace Verif

theorem isInfix_iff (sub : List Char) : ∀ l : List Char, isInfix sub l = true ↔ sub <:+: l
  | [] => by simp [isInfix, List.infix_nil]
  | c :: cs => by rw [isInfix, Bool.or_eq_true, isInfix_iff sub cs, List.infix_cons_iff, List.isPrefixOf_iff_prefix]

theorem ready_true {target : Option Nat} {ready : List Char} {e : OutChunk} :
    readyHandle target ready e = .ok true ↔ readyAsked target e = true ∧ ∃ t, e.bytes = encode t ∧ ready <:+: t := by
  unfold readyHandle
  split
  · rename_i ha
    cases hd : decodeStrict e.bytes with
    | none =>
      simp only [reduceCtorEq, false_iff, not_and, not_exists]
      intro _ t ht _
      rw [ht, decodeStrict_encode] at hd
      cases hd
    | some t =>
      simp only [Except.ok.injEq, isInfix_iff, ha, true_and]
      rw [decodeStrict_iff] at hd
      constructor
      · exact fun h => ⟨t, hd, h⟩
      · rintro ⟨t', ht, h⟩
        rw [hd] at ht
        rw [encode_inj ht]; exact h
  · rename_i ha
    simp [ha]

theorem visits_pos {target : Option Nat} {ready : List Char} {es : List OutChunk} :
    0 < readyVisits target ready es ↔ ∃ e ∈ es, readyHandle target ready e = .ok true := by
  unfold readyVisits
  rw [List.countP_pos_iff]
  constructor
  · rintro ⟨e, he, h⟩
    refine ⟨e, he, ?_⟩
    cases hr : readyHandle target ready e with
    | error x => rw [hr] at h; cases h
    | ok b => rw [hr] at h; simp only at h; rw [h]
  · rintro ⟨e, he, h⟩
    exact ⟨e, he, by rw [h]⟩

theorem asked_iff {a : Nat} {e : OutChunk} : readyAsked (some a) e = true ↔ e.action = a ∧ e.fd = 1 := by
  simp [readyAsked]

theorem chunk_infix {a : Nat} {es : List OutChunk} {e : OutChunk} (he : e ∈ es) (h1 : e.action = a) (h2 : e.fd = 1) : e.bytes <:+: stdoutOf a es := by
  unfold stdoutOf
  have hm : e ∈ es.filter fun e => e.action == a && e.fd == 1 := List.mem_filter.mpr ⟨he, by simp [h1, h2]⟩
  obtain ⟨l, r, hlr⟩ := List.append_of_mem hm
  rw [hlr]
  exact ⟨l.flatMap OutChunk.bytes, r.flatMap OutChunk.bytes, by simp⟩

/-- C106: the actions of the listener are not visited before its process has written the text to standard output, whatever other processes write
and however the output is cut. -/
theorem C106_not_before (a : Nat) (ready : List Char) (es : List OutChunk) (h : 0 < readyVisits (some a) ready es) :
    encode ready <:+: stdoutOf a es := by
  obtain ⟨e, he, hr⟩ := visits_pos.mp h
  obtain ⟨ha, t, ht, hi⟩ := ready_true.mp hr
  obtain ⟨h1, h2⟩ := asked_iff.mp ha
  exact ((encode_infix.mpr hi).trans (by rw [ht]; exact List.infix_refl _)).trans (chunk_infix he h1 h2)

/-- C106: they are visited for each piece of the output that contains the text. -/
theorem C106_for_each_piece (a : Nat) (ready : List Char) (before after : List OutChunk) (t : List Char) :
    readyVisits (some a) ready (before ++ ⟨a, 1, encode t⟩ :: after) =
      readyVisits (some a) ready before + (if ready <:+: t then 1 else 0) + readyVisits (some a) ready after := by
  have : readyHandle (some a) ready ⟨a, 1, encode t⟩ = .ok (isInfix ready t) := by
    simp [readyHandle, readyAsked, decodeStrict_encode]
  unfold readyVisits
  rw [List.countP_append, List.countP_cons, this]
  simp only [isInfix_iff]
  omega

/-- C106: output of other processes, and what the process writes to standard error, has no effect. -/
theorem C106_other_output (a : Nat) (ready : List Char) (before after : List OutChunk) (e : OutChunk) (h : e.action ≠ a ∨ e.fd ≠ 1) :
    readyHandle (some a) ready e = .ok false ∧
      readyVisits (some a) ready (before ++ e :: after) = readyVisits (some a) ready (before ++ after) := by
  have hn : readyHandle (some a) ready e = .ok false := by
    have : readyAsked (some a) e = false := by
      cases hx : readyAsked (some a) e with
      | false => rfl
      | true =>
        obtain ⟨h1, h2⟩ := asked_iff.mp hx
        rcases h with h | h
        · exact absurd h1 h
        · exact absurd h2 h
    simp [readyHandle, this]
  refine ⟨hn, ?_⟩
  unfold readyVisits
  rw [List.countP_append, List.countP_append, List.countP_cons, hn]
  simp

/-- C106: a listener without a target looks at all processes. -/
theorem C106_any_process (ready : List Char) (es : List OutChunk) :
    0 < readyVisits none ready es ↔ ∃ a, 0 < readyVisits (some a) ready es := by
  simp only [visits_pos, ready_true]
  constructor
  · rintro ⟨e, he, h1, h2⟩
    refine ⟨e.action, e, he, ?_, h2⟩
    simpa [readyAsked] using h1
  · rintro ⟨a, e, he, h1, h2⟩
    refine ⟨e, he, ?_, h2⟩
    simp [readyAsked] at h1 ⊢
    exact h1.2

theorem infix_lines {p : List Char} (hp : p ≠ []) (hn : '\n' ∉ p) : ∀ ts : List (List Char),
    p <:+: (ts.flatMap fun t => t ++ ['\n']) ↔ ∃ t ∈ ts, p <:+: t
  | [] => by simp [List.infix_nil, hp]
  | t :: ts => by
    rw [List.flatMap_cons, List.append_assoc, List.singleton_append, infix_sep hn hp, infix_lines hp hn ts]
    simp

theorem encode_flatMap (ts : List (List Char)) : (ts.flatMap fun t => encode (t ++ ['\n'])) = encode (ts.flatMap fun t => t ++ ['\n']) := by
  induction ts with
  | nil => rfl
  | cons t ts ih => rw [List.flatMap_cons, List.flatMap_cons, ih, ← encode_append]

/-- If the output comes in lines: these are the lines. -/
theorem byLines_text {a : Nat} {es : List OutChunk} (h : ByLines a es) :
    ∃ ts : List (List Char), stdoutOf a es = encode (ts.flatMap fun t => t ++ ['\n']) ∧
      ∀ t, t ∈ ts ↔ ∃ e ∈ es, e.action = a ∧ e.fd = 1 ∧ e.bytes = encode (t ++ ['\n']) := by
  induction es with
  | nil => exact ⟨[], rfl, by simp⟩
  | cons e es ih =>
    obtain ⟨ts, h1, h2⟩ := ih fun x hx => h x (by simp [hx])
    by_cases hc : e.action = a ∧ e.fd = 1
    · obtain ⟨t, ht⟩ := h e (by simp) hc.1 hc.2
      refine ⟨t :: ts, ?_, fun s => ?_⟩
      · rw [List.flatMap_cons, encode_append, ← h1, ← ht]
        simp [stdoutOf, hc.1, hc.2]
      · rw [List.mem_cons, h2 s]
        constructor
        · rintro (rfl | ⟨x, hx, hr⟩)
          · exact ⟨e, by simp, hc.1, hc.2, ht⟩
          · exact ⟨x, by simp [hx], hr⟩
        · rintro ⟨x, hx, hr⟩
          rcases List.mem_cons.mp hx with rfl | hx
          · left
            have := encode_inj (hr.2.2.symm.trans ht)
            exact List.append_cancel_right this
          · exact .inr ⟨x, hx, hr⟩
    · refine ⟨ts, ?_, fun s => ?_⟩
      · rw [← h1]
        have : (e.action == a && e.fd == 1) = false := by
          cases hx : (e.action == a && e.fd == 1) with
          | false => rfl
          | true => simp at hx; exact absurd hx hc
        simp [stdoutOf, this]
      · rw [h2 s]
        constructor
        · rintro ⟨x, hx, hr⟩; exact ⟨x, by simp [hx], hr⟩
        · rintro ⟨x, hx, hr⟩
          rcases List.mem_cons.mp hx with rfl | hx
          · exact absurd ⟨hr.1, hr.2.1⟩ hc
          · exact ⟨x, hx, hr⟩

/-- C106: if the output arrives by lines, and the text is part of a line, the actions are visited exactly if the process has written the text, and nothing
is raised. -/
theorem C106_by_lines_partial (a : Nat) (ready : List Char) (es : List OutChunk) (h : ByLines a es) (hp : ready ≠ []) (hn : '\n' ∉ ready) :
    (0 < readyVisits (some a) ready es ↔ encode ready <:+: stdoutOf a es) ∧ ∀ e ∈ es, (readyHandle (some a) ready e).isOk = true := by
  refine ⟨⟨C106_not_before a ready es, fun hi => ?_⟩, fun e he => ?_⟩
  · obtain ⟨ts, h1, h2⟩ := byLines_text h
    rw [h1, encode_infix, infix_lines hp hn] at hi
    obtain ⟨t, ht, hi⟩ := hi
    obtain ⟨e, he, ha, hf, hb⟩ := (h2 t).mp ht
    exact visits_pos.mpr ⟨e, he, ready_true.mpr ⟨asked_iff.mpr ⟨ha, hf⟩, _, hb, hi.trans ⟨[], ['\n'], by simp⟩⟩⟩
  · unfold readyHandle
    split
    · rename_i ha
      obtain ⟨h1, h2⟩ := asked_iff.mp ha
      obtain ⟨t, ht⟩ := h e he h1 h2
      rw [ht, decodeStrict_encode]; rfl
    · rfl

/-- The same about the text: if the process has written this text, the listener's text is part of it. -/
theorem C106_not_before_text (a : Nat) (ready text : List Char) (es : List OutChunk) (h : 0 < readyVisits (some a) ready es)
    (ht : stdoutOf a es = encode text) : ready <:+: text := by
  have := C106_not_before a ready es h
  rw [ht] at this
  exact encode_infix.mp this

/-- Output of two processes: process 2 writes the text to its standard error, process 3 to its standard output. -/
def readySample : List OutChunk :=
  [⟨2, 1, encode "starting\n".toList⟩, ⟨2, 2, encode "ready\n".toList⟩, ⟨3, 1, encode "ready\n".toList⟩, ⟨2, 1, encode "is ready now\n".toList⟩]

example : ByLines 2 readySample := by
  intro e he h1 h2
  simp only [readySample, List.mem_cons, List.not_mem_nil, or_false] at he
  rcases he with rfl | rfl | rfl | rfl
  · exact ⟨"starting".toList, rfl⟩
  · simp at h2
  · simp at h1
  · exact ⟨"is ready now".toList, rfl⟩

example : readyVisits (some 2) "ready".toList (readySample.take 3) = 0 ∧ readyVisits (some 2) "ready".toList readySample = 1 ∧
    readyVisits none "ready".toList readySample = 2 := by decide +kernel

/-- C106 is violated: a text that arrives in two pieces is not seen. -/
theorem C106_cut_violated :
    let es : List OutChunk := [⟨2, 1, encode "rea".toList⟩, ⟨2, 1, encode "dy\n".toList⟩]
    encode "ready".toList <:+: stdoutOf 2 es ∧ readyVisits (some 2) "ready".toList es = 0 :=
  ⟨⟨[], encode ['\n'], by decide +kernel⟩, by decide +kernel⟩

/-- C106 is violated: output that is cut within a character makes the handler raise, so that the launch is shut down, even if the text was written
completely. -/
theorem C106_character_cut_violated :
    let es : List OutChunk := [⟨2, 1, encode "ready ".toList ++ (encode ['é']).take 1⟩, ⟨2, 1, (encode ['é']).drop 1⟩]
    encode "ready".toList <:+: stdoutOf 2 es ∧ readyVisits (some 2) "ready".toList es = 0 ∧
      es.map (fun e => (readyHandle (some 2) "ready".toList e).isOk) = [false, false] :=
  ⟨⟨[], encode " é".toList, by decide +kernel⟩, by decide +kernel, by decide +kernel⟩

/-- The actions are visited again if the text is written again. -/
theorem C106_again :
    readyVisits (some 2) "ready".toList (readySample ++ readySample) = 2 := by decide +kernel

end Verif
