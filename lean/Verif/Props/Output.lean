import Verif.Lemmas.Output

/-!
# Output of processes (C37, C38)
-/

namespace Verif

/-! ## C37 -/

/-- C37.  While a process runs, what has been logged for a stream is exactly the complete lines of the text received on it (each chunk
decoded), in order, without the newlines, and what is held back is the unterminated rest. -/
theorem C37_lines (bad : List UInt8 → Nat) (s : Stream) (es : List OutEv) (h : OutEv.exit ∉ es) :
    IsLines ((chunksOf s es).flatMap (decodeReplace bad)) ((({} : Output).handleAll bad false es).stream s).logged
      ((({} : Output).handleAll bad false es).stream s).text := by
  have hne : ∀ e ∈ es, e.notExit = true := by
    intro e he; cases e <;> first | rfl | exact absurd he h
  have hp : ((({} : Output)).stream s).Plain [] [] := by
    cases s <;> exact ⟨⟨[], IsLines.nil, rfl⟩, rfl⟩
  obtain ⟨⟨ls, hl, he⟩, _⟩ := stream_plain bad s es hne _ _ _ hp
  rw [List.nil_append] at hl he
  rw [he]
  exact hl

/-- Two lines in three chunks, with output of the other stream in between. -/
example : (({} : Output).handleAll (fun _ => 0) false
      [.io .stdout (encode ['a', 'b']), .io .stderr (encode ['x', '\n']), .io .stdout (encode ['c', '\n', 'é']), .io .stdout (encode ['\n', 'e'])]).stdout =
    { text := ['e'], logged := [['a', 'b', 'c'], ['é']] } := by decide +kernel

/-- C37.  Splitting the output of a stream differently, at any boundaries between characters, changes neither the lines logged nor what is held back.  (Missing for the full property: boundaries inside a character, for which it fails, see `C37_split_character_violated`.) -/
theorem C37_chunking_partial (bad : List UInt8 → Nat) (s : Stream) (es es' : List OutEv) (ts ts' : List (List Char))
    (h : OutEv.exit ∉ es) (h' : OutEv.exit ∉ es') (hc : chunksOf s es = ts.map encode) (hc' : chunksOf s es' = ts'.map encode)
    (hb : (chunksOf s es).flatten = (chunksOf s es').flatten) :
    ((({} : Output).handleAll bad false es).stream s).logged = ((({} : Output).handleAll bad false es').stream s).logged ∧
    ((({} : Output).handleAll bad false es).stream s).text = ((({} : Output).handleAll bad false es').stream s).text := by
  have key : ∀ ts : List (List Char), (ts.map encode).flatMap (decodeReplace bad) = decodeReplace bad (ts.map encode).flatten := by
    intro ts
    induction ts with
    | nil => rfl
    | cons t ts ih =>
      simp only [List.map_cons, List.flatMap_cons, List.flatten_cons, decode_encode, ih, decode_encode_append]
  have a := C37_lines bad s es h
  have b := C37_lines bad s es' h'
  rw [hc, key, ← hc, hb] at a
  rw [hc', key, ← hc'] at b
  exact a.unique b

example : chunksOf .stdout [.io .stdout [97, 10], .io .stdout [98]] = [['a', '\n'], ['b']].map encode ∧
    chunksOf .stdout [.io .stdout [97], .io .stdout [10, 98]] = [['a'], ['\n', 'b']].map encode := by decide +kernel

theorem ascii_encode (bs : List UInt8) (h : ∀ b ∈ bs, b < 128) : encode (bs.map fun b => Char.ofNat b.toNat) = bs := by
  induction bs with
  | nil => rfl
  | cons b bs ih =>
    rw [List.map_cons, encode_cons, ih (fun x hx => h x (by simp [hx]))]
    have hb : b < 128 := h b (by simp)
    have : ∀ b : UInt8, b < 128 → String.utf8EncodeChar (Char.ofNat b.toNat) = [b] := by
      intro b hb
      have h1 : b.toNat < 128 := by simpa using UInt8.lt_iff_toNat_lt.mp hb
      have h2 : ∀ n : Fin 128, String.utf8EncodeChar (Char.ofNat n.val) = [UInt8.ofNat n.val] := by decide +kernel
      have h3 := h2 ⟨b.toNat, h1⟩
      simpa using h3
    rw [this b hb]
    rfl

/-- C37 for ASCII output, however it is split. -/
theorem C37_chunking_ascii (bad : List UInt8 → Nat) (s : Stream) (es es' : List OutEv) (h : OutEv.exit ∉ es) (h' : OutEv.exit ∉ es')
    (ha : ∀ b ∈ (chunksOf s es).flatten, b < 128) (hb : (chunksOf s es).flatten = (chunksOf s es').flatten) :
    ((({} : Output).handleAll bad false es).stream s).logged = ((({} : Output).handleAll bad false es').stream s).logged ∧
    ((({} : Output).handleAll bad false es).stream s).text = ((({} : Output).handleAll bad false es').stream s).text := by
  have key : ∀ cs : List (List UInt8), (∀ b ∈ cs.flatten, b < 128) →
      cs = (cs.map fun bs => bs.map fun b => Char.ofNat b.toNat).map encode := by
    intro cs hcs
    rw [List.map_map]
    conv => lhs; rw [← List.map_id cs]
    apply List.map_congr_left
    intro bs hbs
    exact (ascii_encode bs (fun b hb => hcs b (List.mem_flatten.mpr ⟨bs, hbs, hb⟩))).symm
  exact C37_chunking_partial bad s es es' _ _ h h' (key _ ha) (key _ (hb ▸ ha)) hb

example : ∀ b ∈ (chunksOf .stdout [.io .stdout [97, 10], .io .stdout [98]]).flatten, b < 128 := by decide +kernel

/-- Handling a flush at exit of an open buffer. -/
theorem flush_log {old : List (List Char)} {t : List Char} {b : OutBuf} (h : b.Plain old t) (sh : Bool) :
    ∃ log, IsLog t log ∧ (b.flush sh).logged = old ++ log := by
  obtain ⟨⟨ls, hl, he⟩, _⟩ := h
  refine ⟨_, ⟨ls, b.text, hl, rfl⟩, ?_⟩
  unfold OutBuf.flush
  by_cases ht : b.text = []
  · cases sh <;> simp [ht, he]
  · cases sh <;> simp [ht, he]

theorem exit_stream (bad : List UInt8 → Nat) (s : Stream) (o : Output) (h1 : o.stdout.closed = false) :
    ((o.handle bad false .exit).stream s) = (o.stream s).flush o.shut := by
  simp only [Output.handle, h1]
  cases s <;> rfl

theorem io_shut (bad : List UInt8 → Nat) (c : Bool) : ∀ (es : List OutEv) (o : Output), (∀ e ∈ es, e.isIo = true) → (o.handleAll bad c es).shut = o.shut
  | [], _, _ => rfl
  | e :: es, o, h => by
    show ((o.handle bad c e).handleAll bad c es).shut = o.shut
    rw [io_shut bad c es _ (fun x hx => h x (by simp [hx]))]
    have := h e (by simp)
    cases e with
    | io s' b => cases s' <;> rfl
    | exit => simp [OutEv.isIo] at this
    | shutdown => simp [OutEv.isIo] at this

theorem isIo_notExit {e : OutEv} (h : e.isIo = true) : e.notExit = true := by cases e <;> simp_all [OutEv.isIo, OutEv.notExit]

theorem handleAll_append (bad : List UInt8 → Nat) (c : Bool) (o : Output) (es es' : List OutEv) :
    o.handleAll bad c (es ++ es') = (o.handleAll bad c es).handleAll bad c es' := by
  simp [Output.handleAll, List.foldl_append]

theorem runs_plain (bad : List UInt8 → Nat) (s : Stream) : ∀ (runs : List (List OutEv)) (o : Output) (old : List (List Char)),
    (∀ r ∈ runs, ∀ e ∈ r, e.isIo = true) → o.shut = false → (∀ s', (o.stream s').Plain (o.stream s').logged []) → (o.stream s).logged = old →
    ∃ logs, IsLogs (runs.map fun r => (chunksOf s r).flatMap (decodeReplace bad)) logs ∧
      ((o.handleAll bad false (runs.flatMap (· ++ [.exit]))).stream s).logged = old ++ logs ∧
      (o.handleAll bad false (runs.flatMap (· ++ [.exit]))).shut = false ∧
      ∀ s', ((o.handleAll bad false (runs.flatMap (· ++ [.exit]))).stream s').Plain
        ((o.handleAll bad false (runs.flatMap (· ++ [.exit]))).stream s').logged []
  | [], o, old, _, hsh, hp, ho => ⟨[], .nil, by simpa [Output.handleAll] using ho, hsh, hp⟩
  | r :: runs, o, old, hio, hsh, hp, ho => by
    have hr : ∀ e ∈ r, e.isIo = true := hio r (by simp)
    have hne : ∀ e ∈ r, e.notExit = true := fun e he => isIo_notExit (hr e he)
    have hpl := fun s' => stream_plain bad s' r hne o _ _ (hp s')
    have hs1 : (o.handleAll bad false r).shut = false := (io_shut bad false r o hr).trans hsh
    have hx := fun s' => exit_stream bad s' (o.handleAll bad false r) (hpl .stdout).isOpen
    obtain ⟨log, hlog, hl⟩ := flush_log (hpl s) (o.handleAll bad false r).shut
    have hsplit : o.handleAll bad false ((r :: runs).flatMap (· ++ [.exit])) =
        ((o.handleAll bad false r).handle bad false .exit).handleAll bad false (runs.flatMap (· ++ [.exit])) := by
      rw [List.flatMap_cons, handleAll_append, handleAll_append]; rfl
    have hsh2 : ((o.handleAll bad false r).handle bad false .exit).shut = false := by
      have hc : (o.handleAll bad false r).stdout.closed = false := (hpl .stdout).isOpen
      simp [Output.handle, hc, hs1]
    have hp2 : ∀ s', ((((o.handleAll bad false r).handle bad false .exit)).stream s').Plain
        ((((o.handleAll bad false r).handle bad false .exit)).stream s').logged [] := by
      intro s'
      rw [hx s', hs1]
      have hc : ((o.handleAll bad false r).stream s').closed = false := (hpl s').isOpen
      exact ⟨⟨[], IsLines.nil, by simp⟩, hc⟩
    obtain ⟨logs, hls, he, h3, h4⟩ := runs_plain bad s runs _ _ (fun x hx => hio x (by simp [hx])) hsh2 hp2 rfl
    rw [hsplit]
    refine ⟨log ++ logs, ?_, ?_, h3, h4⟩
    · simp only [List.map_cons]
      rw [List.nil_append] at hlog
      exact .cons hlog hls
    · rw [he, hx s, hl, ho, List.append_assoc]

/-- C37.  Over any number of respawns, what is logged for a stream is, for each process in turn, the complete lines of its output and then, at its exit, the unterminated rest (unless empty): nothing is lost, duplicated, reordered or carried over to the next process.  The shutdown may begin while the last process runs. -/
theorem C37_logged_at_exit (bad : List UInt8 → Nat) (s : Stream) (runs : List (List OutEv)) (last : List OutEv)
    (h : ∀ r ∈ runs, ∀ e ∈ r, e.isIo = true) (hlast : OutEv.exit ∉ last) :
    IsLogs ((runs ++ [last]).map fun r => (chunksOf s r).flatMap (decodeReplace bad))
      ((({} : Output).handleAll bad false (runs.flatMap (· ++ [.exit]) ++ last ++ [.exit])).stream s).logged := by
  have hp : ∀ s', ((({} : Output)).stream s').Plain ((({} : Output)).stream s').logged [] := by
    intro s'; cases s' <;> exact ⟨⟨[], IsLines.nil, rfl⟩, rfl⟩
  have h0 : ((({} : Output)).stream s).logged = [] := by cases s <;> rfl
  obtain ⟨logs, hls, he, _, h4⟩ := runs_plain bad s runs {} [] h rfl hp h0
  have hne : ∀ e ∈ last, e.notExit = true := by
    intro e hm; cases e <;> first | rfl | exact absurd hm hlast
  have hpl := fun s' => stream_plain bad s' last hne _ _ _ (h4 s')
  obtain ⟨log, hlog, hl⟩ := flush_log (hpl s) ((({} : Output).handleAll bad false (runs.flatMap (· ++ [.exit]))).handleAll bad false last).shut
  rw [handleAll_append, handleAll_append]
  show IsLogs _ (((Output.handle bad false _ .exit)).stream s).logged
  rw [exit_stream bad s _ (hpl .stdout).isOpen, hl, he, List.nil_append]
  have app : ∀ {ts : List (List Char)} {logs : List (List Char)} {t : List Char} {log : List (List Char)}, IsLogs ts logs → IsLog t log →
      IsLogs (ts ++ [t]) (logs ++ log) := by
    intro ts logs t log h1 h2
    induction h1 with
    | nil => simpa using IsLogs.cons h2 .nil
    | cons ha _ ih => rw [List.cons_append, List.append_assoc]; exact .cons ha ih
  rw [List.map_append]
  rw [List.nil_append] at hlog
  exact app hls hlog

/-- Two processes, both leaving an unterminated line. -/
example : (({} : Output).handleAll (fun _ => 0) false
      ([[.io .stdout (encode ['a', '\n', 'b'])]].flatMap (· ++ [.exit]) ++ [.io .stdout (encode ['c']), .shutdown] ++ [.exit])).stdout.logged =
    [['a'], ['b'], ['c']] := by decide +kernel

/-- C37.  What one stream logs does not depend on the other stream. -/
theorem C37_streams_independent (bad : List UInt8 → Nat) (s : Stream) (es es' : List OutEv) (h : OutEv.exit ∉ es) (h' : OutEv.exit ∉ es')
    (hc : chunksOf s es = chunksOf s es') :
    ((({} : Output).handleAll bad false es).stream s).logged = ((({} : Output).handleAll bad false es').stream s).logged := by
  have a := C37_lines bad s es h
  have b := C37_lines bad s es' h'
  rw [hc] at a
  exact (a.unique b).1

example : chunksOf .stdout [.io .stderr [97], .io .stdout [98, 10]] = chunksOf .stdout [.io .stdout [98, 10], .io .stderr [99, 10]] := by decide +kernel

/-- C37 fails for a boundary inside a character: the same bytes (the UTF-8 encoding of "é" and a newline), split differently, are logged differently, since each chunk is decoded on its own. -/
theorem C37_split_character_violated : ∃ (es es' : List OutEv), OutEv.exit ∉ es ∧ OutEv.exit ∉ es' ∧
    (chunksOf .stdout es).flatten = (chunksOf .stdout es').flatten ∧ (chunksOf .stdout es).flatten = encode ['é', '\n'] ∧
    (({} : Output).handleAll (fun _ => 0) false es).stdout.logged ≠ (({} : Output).handleAll (fun _ => 0) false es').stdout.logged :=
  ⟨[.io .stdout [195, 169, 10]], [.io .stdout [195], .io .stdout [169, 10]], by decide +kernel⟩

/-- C37 fails for output received after the exit of the process has been handled, before a shutdown: an unterminated line is not logged as a line, but glued to the output of the next process. -/
theorem C37_late_output_glued_violated : ∃ (es : List OutEv),
    es = [.io .stdout (encode ['a', '\n']), .exit, .io .stdout (encode ['b']), .io .stdout (encode ['c', '\n']), .exit] ∧
    (({} : Output).handleAll (fun _ => 0) false es).stdout.logged = [['a'], ['b', 'c']] :=
  ⟨_, rfl, by decide +kernel⟩

/-- C37 fails for output received after the last exit has been handled: chunks are logged as they are, so the same output split differently is logged as different lines. -/
theorem C37_late_output_unbuffered_violated : ∃ (es es' : List OutEv),
    (chunksOf .stdout es).flatten = (chunksOf .stdout es').flatten ∧
    (({} : Output).handleAll (fun _ => 0) false ([.shutdown, .exit] ++ es)).stdout.logged = [['a', 'b', '\n']] ∧
    (({} : Output).handleAll (fun _ => 0) false ([.shutdown, .exit] ++ es')).stdout.logged = [['a'], ['b', '\n']] :=
  ⟨[.io .stdout [97, 98, 10]], [.io .stdout [97], .io .stdout [98, 10]], by decide +kernel⟩

/-- After the buffers are closed a further exit (of a process started by the race of C34) makes the handler raise, and what that process
wrote is logged chunk by chunk. -/
theorem C37_exit_after_close_raises_violated : ∃ es : List OutEv,
    (({} : Output).handleAll (fun _ => 0) false es).raised = 1 ∧ es = [.shutdown, .exit, .exit] :=
  ⟨_, by decide +kernel, rfl⟩

/-! ## C38 -/

theorem cached_text (bad : List UInt8 → Nat) (s : Stream) : ∀ (es : List OutEv) (o : Output),
    ((o.handleAll bad true es).stream s).text = (o.stream s).text ++ (chunksOf s es).flatMap (decodeReplace bad)
  | [], o => by simp [Output.handleAll, chunksOf]
  | e :: es, o => by
    show (((o.handle bad true e).handleAll bad true es).stream s).text = _
    rw [cached_text bad s es]
    cases e with
    | io s' bytes =>
      by_cases hs : s' = s
      · subst hs
        cases s' <;> simp [Output.handle, Output.stream, OutBuf.receiveCached, chunksOf]
      · have : ((o.handle bad true (.io s' bytes)).stream s).text = (o.stream s).text := by
          cases s' <;> cases s <;> first | exact absurd rfl hs | rfl
        simp [this, chunksOf, hs]
    | exit => cases s <;> rfl
    | shutdown => cases s <;> rfl

/-- C38.  With cached output the text returned for a stream is the concatenation of all chunks received on it (each one decoded), over all
processes, whatever happens on the other stream, through exits and shutdown. -/
theorem C38_concatenation (bad : List UInt8 → Nat) (s : Stream) (es : List OutEv) :
    (({} : Output).handleAll bad true es).get true s = some ((chunksOf s es).flatMap (decodeReplace bad)) := by
  unfold Output.get
  rw [if_pos rfl, cached_text bad s es]
  cases s <;> simp [Output.stream]

/-- C38.  Received texts come back exactly.  (Missing for the full property: chunks that end inside a character, see
`C38_split_character_violated`.) -/
theorem C38_exact_partial (bad : List UInt8 → Nat) (s : Stream) (es : List OutEv) (ts : List (List Char)) (h : chunksOf s es = ts.map encode) :
    (({} : Output).handleAll bad true es).get true s = some ts.flatten := by
  have key : ∀ ts : List (List Char), (ts.map encode).flatMap (decodeReplace bad) = ts.flatten := by
    intro ts
    induction ts with
    | nil => rfl
    | cons t ts ih => rw [List.map_cons, List.flatMap_cons, decode_encode, List.flatten_cons, ih]
  rw [C38_concatenation, h, key]

example : chunksOf .stderr [.io .stderr (encode ['é']), .exit, .io .stdout [97], .io .stderr (encode ['\n'])] = [['é'], ['\n']].map encode := by
  decide +kernel

/-- C38.  Without cached output asking for it is an error. -/
theorem C38_error_unless_cached (o : Output) (s : Stream) : o.get false s = none := rfl

/-- C38 fails for a character split over two chunks. -/
theorem C38_split_character_violated : ∃ es : List OutEv, (chunksOf .stdout es).flatten = encode ['é'] ∧
    (({} : Output).handleAll (fun _ => 0) true es).get true .stdout ≠ some ['é'] :=
  ⟨[.io .stdout [195], .io .stdout [169]], by decide +kernel⟩

theorem flushCached_log {old : List (List Char)} {k : Nat} {t : List Char} {b : OutBuf} (h : b.Cached old k t) :
    ∃ log, IsLog (t.drop k) log ∧ b.flushCached.logged = old ++ log ∧ b.flushCached.Cached (old ++ log) t.length t := by
  obtain ⟨ht, _, ls, hl, he⟩ := h
  obtain ⟨ls', r, hs, hr⟩ := readLines_spec (t.drop b.pos)
  have hu := hs.unique (ls' := []) (r' := t.drop b.pos) ⟨rfl, nofun, hl.rest⟩
  obtain ⟨rfl, rfl⟩ := hu
  have e : b.flushCached.logged = old ++ (ls ++ if t.drop b.pos = [] then [] else [t.drop b.pos]) := by
    unfold OutBuf.flushCached
    simp only [ht, hr, he]
    simp
  refine ⟨_, ⟨ls, t.drop b.pos, hl, rfl⟩, e, ?_⟩
  refine ⟨ht, ⟨?_, ?_⟩, [], ?_, ?_⟩
  · show t.length ≤ b.text.length; rw [ht]; exact Nat.le_refl _
  · show b.text.length ≤ t.length; rw [ht]; exact Nat.le_refl _
  · show IsLines (t.drop t.length) [] (t.drop b.text.length)
    rw [ht]; simp; exact IsLines.nil
  · rw [e]; simp

theorem runs_cached (bad : List UInt8 → Nat) (s : Stream) : ∀ (runs : List (List OutEv)) (o : Output) (old : List (List Char)) (t : List Char),
    (∀ r ∈ runs, OutEv.exit ∉ r) → (o.stream s).Cached old t.length t →
    ∃ logs, IsLogs (runs.map fun r => (chunksOf s r).flatMap (decodeReplace bad)) logs ∧
      ((o.handleAll bad true (runs.flatMap (· ++ [.exit]))).stream s).logged = old ++ logs
  | [], o, old, t, _, ho => ⟨[], .nil, by
      obtain ⟨_, ⟨h1, h2⟩, ls, hl, he⟩ := ho
      have hz : t.drop t.length = [] := by simp
      have hz' : t.drop (o.stream s).pos = [] := by rw [List.drop_eq_nil_iff]; exact h1
      rw [hz, hz'] at hl
      have := (hl.unique IsLines.nil).1
      subst this
      simpa [Output.handleAll] using he⟩
  | r :: runs, o, old, t, hio, ho => by
    have hr : OutEv.exit ∉ r := hio r (by simp)
    have hne : ∀ e ∈ r, e.notExit = true := by
      intro e hm; cases e <;> first | rfl | exact absurd hm hr
    have hpl := stream_cached bad s r hne o _ _ _ ho
    obtain ⟨log, hlog, hl, hc⟩ := flushCached_log hpl
    have hx : ((o.handleAll bad true r).handle bad true .exit).stream s = ((o.handleAll bad true r).stream s).flushCached := by
      cases s <;> rfl
    rw [← hx] at hl hc
    obtain ⟨logs, hls, he⟩ := runs_cached bad s runs _ _ _ (fun x hx => hio x (by simp [hx])) hc
    have hsplit : o.handleAll bad true ((r :: runs).flatMap (· ++ [.exit])) =
        ((o.handleAll bad true r).handle bad true .exit).handleAll bad true (runs.flatMap (· ++ [.exit])) := by
      rw [List.flatMap_cons, handleAll_append, handleAll_append]; rfl
    rw [hsplit]
    refine ⟨log ++ logs, ?_, by rw [he, List.append_assoc]⟩
    simp only [List.map_cons]
    have hd : (t ++ (chunksOf s r).flatMap (decodeReplace bad)).drop t.length = (chunksOf s r).flatMap (decodeReplace bad) := by simp
    rw [hd] at hlog
    exact .cons hlog hls

/-- C38.  Caching does not change what is logged: for each process in turn its complete lines and, at its exit, the unterminated rest. -/
theorem C38_logged_at_exit (bad : List UInt8 → Nat) (s : Stream) (runs : List (List OutEv)) (h : ∀ r ∈ runs, OutEv.exit ∉ r) :
    IsLogs (runs.map fun r => (chunksOf s r).flatMap (decodeReplace bad))
      ((({} : Output).handleAll bad true (runs.flatMap (· ++ [.exit]))).stream s).logged := by
  have hp : ((({} : Output)).stream s).Cached [] 0 [] := by
    cases s <;> exact ⟨rfl, ⟨Nat.le_refl _, Nat.le_refl _⟩, [], IsLines.nil, rfl⟩
  obtain ⟨logs, hls, he⟩ := runs_cached bad s runs {} [] [] h hp
  rw [he]; exact hls

example : (({} : Output).handleAll (fun _ => 0) true
      ([[.io .stdout (encode ['a', '\n', 'b'])], [.io .stdout (encode ['c']), .shutdown]].flatMap (· ++ [.exit]))).stdout =
    { text := ['a', '\n', 'b', 'c'], pos := 4, logged := [['a'], ['b'], ['c']] } := by decide +kernel

end Verif
