import Verif.Spec.LogDir

/-!
# The place of log directories and the files in them: C100
-/

namespace Verif

/-! ## Paths -/

theorem slashSplit_of_free {p : List Char} (h : '/' ∉ p) (rest : List Char) : slashSplit (p ++ '/' :: rest) = p :: slashSplit rest := by
  induction p with
  | nil => simp [slashSplit]
  | cons c p ih =>
    have h1 : c ≠ '/' := fun e => h (by rw [e]; exact List.mem_cons_self)
    rw [List.cons_append, slashSplit, if_neg h1, ih (fun hx => h (List.mem_cons_of_mem _ hx))]

theorem slashSplit_free {p : List Char} (h : '/' ∉ p) : slashSplit p = [p] := by
  induction p with
  | nil => rfl
  | cons c p ih =>
    have h1 : c ≠ '/' := fun e => h (by rw [e]; exact List.mem_cons_self)
    rw [slashSplit, if_neg h1, ih (fun hx => h (List.mem_cons_of_mem _ hx))]

theorem slashSplit_join : ∀ {cs : List (List Char)}, cs ≠ [] → (∀ c ∈ cs, '/' ∉ c) → slashSplit (slashJoin cs) = cs
  | [], h, _ => absurd rfl h
  | [p], _, h => slashSplit_free (h p (by simp))
  | p :: q :: ps, _, h => by
    rw [slashJoin, slashSplit_of_free (h p (by simp)), slashSplit_join (by simp) (fun c hc => h c (List.mem_cons_of_mem _ hc))]
    simp

theorem slashSplit_no_slash : ∀ (s : List Char), ∀ c ∈ slashSplit s, '/' ∉ c
  | [], c, hc => by simp [slashSplit] at hc; subst hc; simp
  | x :: s, c, hc => by
    rw [slashSplit] at hc
    split at hc
    · rcases List.mem_cons.1 hc with rfl | hc
      · simp
      · exact slashSplit_no_slash s c hc
    · rename_i hx
      have ih := slashSplit_no_slash s
      split at hc
      · simp only [List.mem_cons, List.not_mem_nil, or_false] at hc
        subst hc
        simpa using fun e => hx e.symm
      · rename_i p ps he
        rw [he] at ih
        rcases List.mem_cons.1 hc with rfl | hc
        · intro hm
          rcases List.mem_cons.1 hm with e | e
          · exact hx e.symm
          · exact ih p (by simp) e
        · exact ih c (by simp [hc])

theorem normComps_clean (acc cs : List (List Char)) (h : ∀ c ∈ cs, CleanComp c) : normComps true acc cs = acc.reverse ++ cs := by
  induction cs generalizing acc with
  | nil => simp [normComps]
  | cons c cs ih =>
    obtain ⟨h1, _, h3, h4⟩ := h c (by simp)
    rw [normComps, if_neg (by simp [h1, h3]), if_pos (.inl h4), ih _ (fun x hx => h x (by simp [hx]))]
    simp

/-- Components of a rooted path come out clean. -/
theorem normComps_cleans (acc cs : List (List Char)) (ha : ∀ c ∈ acc, CleanComp c) (h : ∀ c ∈ cs, '/' ∉ c) : ∀ c ∈ normComps true acc cs, CleanComp c := by
  induction cs generalizing acc with
  | nil => intro c hc; rw [normComps] at hc; exact ha c (List.mem_reverse.1 hc)
  | cons p ps ih =>
    have hps : ∀ c ∈ ps, '/' ∉ c := fun c hc => h c (by simp [hc])
    rw [normComps]
    split
    · exact ih acc ha hps
    · rename_i h1
      split
      · rename_i h2
        refine ih (p :: acc) ?_ hps
        intro c hc
        rcases List.mem_cons.1 hc with rfl | hc
        · refine ⟨fun e => h1 (.inl e), h c (by simp), fun e => h1 (.inr e), ?_⟩
          rcases h2 with h2 | h2 | h2
          · exact h2
          · exact absurd h2.1 (by simp)
          · cases acc with
            | nil => simp at h2
            | cons a acc =>
              simp only [List.head?_cons, Option.some.injEq] at h2
              exact absurd h2 (ha a (by simp)).2.2.2
        · exact ha c hc
      · exact ih acc.tail (fun c hc => ha c (List.mem_of_mem_tail hc)) hps

theorem slashJoin_head {cs : List (List Char)} (h : ∀ c ∈ cs, CleanComp c) : (slashJoin cs).head? ≠ some '/' := by
  cases cs with
  | nil => simp [slashJoin]
  | cons c cs =>
    obtain ⟨h1, h2, _⟩ := h c (by simp)
    cases c with
    | nil => exact absurd rfl h1
    | cons x c =>
      have hx : x ≠ '/' := fun e => h2 (by simp [e])
      cases cs <;> simpa [slashJoin] using hx

theorem initialSlashes_one {s : List Char} (h : s.head? ≠ some '/') : initialSlashes ('/' :: s) = ['/'] := by
  cases s with
  | nil => rfl
  | cons x s =>
    have hx : x ≠ '/' := fun e => h (by simp [e])
    unfold initialSlashes
    split
    · rename_i he; simp only [List.cons.injEq, true_and] at he; exact absurd he.1 hx
    · rename_i he; simp only [List.cons.injEq, true_and] at he; exact absurd he.1 hx
    · rfl
    · rename_i h3; exact absurd rfl (h3 _)

theorem normPath_clean {cs : List (List Char)} (h : ∀ c ∈ cs, CleanComp c) : normPath ('/' :: slashJoin cs) = '/' :: slashJoin cs := by
  unfold normPath
  rw [initialSlashes_one (slashJoin_head h)]
  have : normComps true [] (slashSplit ('/' :: slashJoin cs)) = cs := by
    rw [slashSplit, if_pos rfl, normComps, if_pos (.inl rfl)]
    cases hc : cs with
    | nil => rfl
    | cons c cs' =>
      rw [← hc, slashSplit_join (by simp [hc]) (fun c hc' => (h c hc').2.1), normComps_clean _ _ h]
      rfl
  simp [this]

theorem slashJoin_cons (p q : List Char) (ps : List (List Char)) : slashJoin (p :: q :: ps) = p ++ '/' :: slashJoin (q :: ps) := rfl

theorem slashJoin_append_one : ∀ (cs : List (List Char)) (p : List Char), cs ≠ [] → slashJoin (cs ++ [p]) = slashJoin cs ++ '/' :: p
  | [], _, h => absurd rfl h
  | [c], p, _ => by simp [slashJoin]
  | c :: d :: cs, p, _ => by
    rw [List.cons_append, List.cons_append, slashJoin_cons, ← List.cons_append, slashJoin_append_one (d :: cs) p (by simp), slashJoin_cons]
    simp

theorem slashJoin_append : ∀ (cs ds : List (List Char)), cs ≠ [] → ds ≠ [] → slashJoin (cs ++ ds) = slashJoin cs ++ '/' :: slashJoin ds
  | [], _, h, _ => absurd rfl h
  | [c], d :: ds, _, _ => by simp [slashJoin]
  | c :: d :: cs, ds, _, h => by
    rw [List.cons_append, List.cons_append, slashJoin_cons, ← List.cons_append, slashJoin_append (d :: cs) ds (by simp) h, slashJoin_cons]
    simp

theorem slashJoin_last : ∀ {cs : List (List Char)}, (∀ c ∈ cs, CleanComp c) → (slashJoin cs).getLast? ≠ some '/'
  | [], _ => by simp [slashJoin]
  | [c], h => by
    intro he
    exact (h c (by simp)).2.1 (List.mem_of_getLast? he)
  | c :: d :: cs, h => by
    have ih := slashJoin_last (cs := d :: cs) (fun x hx => h x (List.mem_cons_of_mem _ hx))
    have hne : slashJoin (d :: cs) ≠ [] := by
      have := (h d (by simp)).1
      cases cs <;> simp [slashJoin, this]
    rw [slashJoin_cons, List.getLast?_append]
    simp only [List.getLast?_cons]
    cases hg : (slashJoin (d :: cs)).getLast? with
    | none => simp [List.getLast?_eq_none_iff] at hg; exact absurd hg hne
    | some x =>
      rw [hg] at ih
      simpa using ih

theorem slashJoin_ne_nil {cs : List (List Char)} (h : ∀ c ∈ cs, CleanComp c) (hne : cs ≠ []) : slashJoin cs ≠ [] := by
  cases cs with
  | nil => exact absurd rfl hne
  | cons c cs =>
    have := (h c (by simp)).1
    cases cs <;> simp [slashJoin, this]

theorem rstripSlash_abs {cs : List (List Char)} (h : ∀ c ∈ cs, CleanComp c) : rstripSlash ('/' :: slashJoin cs) = if cs = [] then [] else '/' :: slashJoin cs := by
  split
  · rename_i e; subst e; rfl
  · rename_i hne
    have hj := slashJoin_ne_nil h hne
    have hl := slashJoin_last h
    unfold rstripSlash
    have hg : (slashJoin cs).reverse ≠ [] := by simpa using hj
    cases hr : (slashJoin cs).reverse with
    | nil => exact absurd hr hg
    | cons x l =>
      have hx : x ≠ '/' := by
        intro e
        apply hl
        rw [List.getLast?_eq_head?_reverse, hr, e]
        rfl
      rw [List.reverse_cons, hr, List.cons_append, List.dropWhile_cons_of_neg (by simpa using hx)]
      simp only [List.reverse_cons, List.reverse_append, List.reverse_nil, List.nil_append]
      have : slashJoin cs = l.reverse ++ [x] := by
        have := congrArg List.reverse hr
        simpa using this
      rw [this]
      rfl

theorem toList_absPath (cs : List (List Char)) : (absPath cs).toList = '/' :: slashJoin cs := by simp [absPath]

theorem absPath_append {cs ds : List (List Char)} (hd : ds ≠ []) : '/' :: slashJoin (cs ++ ds) = (if cs = [] then [] else '/' :: slashJoin cs) ++ '/' :: slashJoin ds := by
  split
  · rename_i e; subst e; rfl
  · rename_i hc
    rw [slashJoin_append cs ds hc hd]; rfl

/-- C100.  Where log directories are: below `$ROS_LOG_DIR` if that is set and not empty, else below `$ROS_HOME/log` if that is set and not empty, else below `~/.ros/log`; `~` is the home directory. -/
theorem C100_directory (env : Dict String) (home : List Char → Option (List Char)) (cs hs : List (List Char)) (hc : ∀ c ∈ cs, CleanComp c) (hh : ∀ c ∈ hs, CleanComp c)
    (hhome : home [] = some ('/' :: slashJoin hs)) :
    (isSetTo env "ROS_LOG_DIR" (absPath cs) → loggingDirectory env home = absPath cs) ∧
    (isUnset env "ROS_LOG_DIR" → isSetTo env "ROS_HOME" (absPath cs) → loggingDirectory env home = absPath (cs ++ ["log".toList])) ∧
    (isUnset env "ROS_LOG_DIR" → isUnset env "ROS_HOME" → loggingDirectory env home = absPath (hs ++ [".ros".toList, "log".toList])) ∧
    (cs ≠ [] → isSetTo env "ROS_LOG_DIR" (String.ofList ('~' :: '/' :: slashJoin cs)) → loggingDirectory env home = absPath (hs ++ cs)) := by
  have expandAbs : ∀ s, expandUser home ('/' :: s) = '/' :: s := fun s => rfl
  have expandHome : ∀ ds, ds ≠ [] → (∀ c ∈ ds, CleanComp c) → normPath (expandUser home ('~' :: '/' :: slashJoin ds)) = '/' :: slashJoin (hs ++ ds) := by
    intro ds hd hcd
    have : expandUser home ('~' :: '/' :: slashJoin ds) = '/' :: slashJoin (hs ++ ds) := by
      simp only [expandUser, List.takeWhile, List.dropWhile, ne_eq, not_true_eq_false, decide_false, hhome]
      rw [rstripSlash_abs hh, absPath_append hd, if_neg]
      split <;> simp
    rw [this]
    exact normPath_clean (fun c hc' => (List.mem_append.1 hc').elim (hh c) (hcd c))
  have clog : CleanComp "log".toList := by unfold CleanComp; decide
  have cros : CleanComp ".ros".toList := by unfold CleanComp; decide
  have unset : ∀ k, isUnset env k → envNonEmpty env k = none := by
    rintro k (h | h) <;> simp [envNonEmpty, h]
  have isset : ∀ k v, isSetTo env k v → envNonEmpty env k = some v := by
    rintro k v ⟨h1, h2⟩
    simp [envNonEmpty, h1, h2]
  refine ⟨?_, ?_, ?_, ?_⟩
  · intro h
    unfold loggingDirectory
    dsimp only
    rw [isset _ _ h]
    dsimp only
    rw [toList_absPath, expandAbs, normPath_clean hc]
    rfl
  · intro h1 h2
    unfold loggingDirectory
    dsimp only
    rw [unset _ h1, isset _ _ h2]
    dsimp only [Option.getD]
    have : (joinPath2 (absPath cs) "log").toList = '/' :: slashJoin (cs ++ ["log".toList]) := by
      unfold joinPath2
      rw [if_neg (by decide)]
      by_cases hne : cs = []
      · subst hne
        rw [if_pos (.inr (by rw [toList_absPath]; rfl))]
        rfl
      · rw [if_neg]
        · rw [String.toList_append, String.toList_append, toList_absPath, slashJoin_append_one _ _ hne]
          simp
        · rintro (e | e)
          · have := congrArg String.toList e
            rw [toList_absPath] at this
            cases this
          · rw [toList_absPath, List.getLast?_cons] at e
            have hl := slashJoin_last hc
            cases hg : (slashJoin cs).getLast? with
            | none => rw [List.getLast?_eq_none_iff] at hg; exact slashJoin_ne_nil hc hne hg
            | some x => rw [hg] at e hl; exact hl (by simpa using e)
    rw [this, expandAbs, normPath_clean (fun c hc' => (List.mem_append.1 hc').elim (hc c) (fun h => by simp only [List.mem_cons, List.not_mem_nil, or_false] at h; rw [h]; exact clog))]
    rfl
  · intro h1 h2
    unfold loggingDirectory
    dsimp only
    rw [unset _ h1, unset _ h2]
    dsimp only [Option.getD]
    rw [show (joinPath2 (joinPath2 "~" ".ros") "log").toList = '~' :: '/' :: slashJoin [".ros".toList, "log".toList] from by decide]
    rw [expandHome _ (by simp) (by
      intro c hc'
      simp only [List.mem_cons, List.not_mem_nil, or_false] at hc'
      rcases hc' with rfl | rfl
      · exact cros
      · exact clog)]
    rfl
  · intro hne h
    unfold loggingDirectory
    dsimp only
    rw [isset _ _ h]
    dsimp only
    rw [String.toList_ofList, expandHome cs hne hc]
    rfl

example : loggingDirectory [("ROS_LOG_DIR", ""), ("ROS_HOME", "/r")] (fun _ => some "/home/u".toList) = "/r/log" := by decide +kernel

example : loggingDirectory [("ROS_LOG_DIR", "~/a/../b//c")] (fun _ => some "/home/u".toList) = "/home/u/b/c" := by decide +kernel

/-- C100.  A tilde with the name of an unknown user is a name like any other one: the directory is relative. -/
theorem C100_unknown_user (env : Dict String) (home : List Char → Option (List Char)) (name : List Char) (cs : List (List Char))
    (hu : home name = none) (hn : '/' ∉ name) (hc : ∀ c ∈ cs, CleanComp c)
    (h : isSetTo env "ROS_LOG_DIR" (String.ofList (slashJoin (('~' :: name) :: cs)))) :
    loggingDirectory env home = String.ofList (slashJoin (('~' :: name) :: cs)) := by
  obtain ⟨h1, h2⟩ := h
  have e : envNonEmpty env "ROS_LOG_DIR" = some (String.ofList (slashJoin (('~' :: name) :: cs))) := by
    unfold envNonEmpty
    rw [h1]
    simp only [Option.filter, ne_eq, h2, not_false_eq_true, decide_true, if_true]
  have hall : ∀ c ∈ ('~' :: name) :: cs, CleanComp c := by
    intro c hc'
    rcases List.mem_cons.1 hc' with rfl | hc'
    · exact ⟨by simp, by simp [hn], by simp, by simp⟩
    · exact hc c hc'
  have hj : ∃ rest, slashJoin (('~' :: name) :: cs) = '~' :: rest ∧ rest.takeWhile (· ≠ '/') = name := by
    have htw : ∀ r, (name ++ '/' :: r).takeWhile (· ≠ '/') = name := by
      intro r
      rw [List.takeWhile_append_of_pos (by intro a ha; simp; rintro rfl; exact hn ha)]
      simp
    have htw0 : name.takeWhile (· ≠ '/') = name := by
      have := List.takeWhile_append_of_pos (p := (· ≠ '/')) (l₁ := name) (l₂ := []) (by intro a ha; simp; rintro rfl; exact hn ha)
      simpa using this
    cases cs with
    | nil => exact ⟨name, rfl, htw0⟩
    | cons c cs => exact ⟨name ++ '/' :: slashJoin (c :: cs), rfl, htw _⟩
  obtain ⟨rest, hr, hrw⟩ := hj
  have hnorm : normPath (slashJoin (('~' :: name) :: cs)) = slashJoin (('~' :: name) :: cs) := by
    have hi : initialSlashes (slashJoin (('~' :: name) :: cs)) = [] := by
      rw [hr]; rfl
    have clean : ∀ (acc ds : List (List Char)), (∀ c ∈ ds, CleanComp c) → normComps false acc ds = acc.reverse ++ ds := by
      intro acc ds
      induction ds generalizing acc with
      | nil => intro _; simp [normComps]
      | cons c ds ih =>
        intro h
        obtain ⟨g1, _, g3, g4⟩ := h c (by simp)
        rw [normComps, if_neg (by simp [g1, g3]), if_pos (.inl g4), ih _ (fun x hx => h x (by simp [hx]))]
        simp
    unfold normPath
    rw [hi, slashSplit_join (by simp) (fun c hc' => (hall c hc').2.1)]
    simp only [List.isEmpty_nil, Bool.not_true, clean _ _ hall, List.reverse_nil, List.nil_append]
    rw [if_neg (slashJoin_ne_nil hall (by simp))]
  unfold loggingDirectory
  dsimp only
  rw [e]
  dsimp only
  rw [String.toList_ofList]
  have hx : expandUser home (slashJoin (('~' :: name) :: cs)) = slashJoin (('~' :: name) :: cs) := by
    rw [hr]
    simp only [expandUser, hrw, hu]
  rw [hx, hnorm]

example : loggingDirectory [("ROS_LOG_DIR", "~nobody/x")] (fun n => if n = [] then some "/home/u".toList else none) = "~nobody/x" := by decide +kernel

/-- C100.  An absolute directory is given in its shortest form: without empty components, `.` and `..`. -/
theorem C100_directory_clean (env : Dict String) (home : List Char → Option (List Char)) (d : List Char) (hd : initialSlashes d = ['/'])
    (h : isSetTo env "ROS_LOG_DIR" (String.ofList d)) : ∃ cs, (∀ c ∈ cs, CleanComp c) ∧ loggingDirectory env home = absPath cs := by
  obtain ⟨h1, h2⟩ := h
  have e : envNonEmpty env "ROS_LOG_DIR" = some (String.ofList d) := by
    unfold envNonEmpty
    rw [h1]
    simp only [Option.filter, ne_eq, h2, not_false_eq_true, decide_true, if_true]
  refine ⟨normComps true [] (slashSplit d), normComps_cleans [] _ (by simp) (slashSplit_no_slash d), ?_⟩
  unfold loggingDirectory
  dsimp only
  rw [e]
  dsimp only
  rw [String.toList_ofList]
  have hx : expandUser home d = d := by
    cases d with
    | nil => rfl
    | cons c d =>
      have : c = '/' := by
        unfold initialSlashes at hd
        split at hd
        · rename_i e; cases e; rfl
        · cases hd
        · rename_i e; cases e; rfl
        · cases hd
      subst this
      rfl
  rw [hx]
  unfold normPath
  rw [hd]
  simp [absPath]

/-! ## The directory of a launch -/

namespace LogConf

theorem get_dir (s : LogConf) (f : String) : (s.get f).1.dir = some (s.get f).2 ∧ (s.get f).1.files = s.files ∧ (∀ d, s.dir = some d → (s.get f).2 = d ∧ (s.get f).1 = s) := by
  unfold get
  cases h : s.dir with
  | none => exact ⟨rfl, rfl, fun d hd => by cases hd⟩
  | some d => exact ⟨h, rfl, fun e he => by cases he; exact ⟨rfl, rfl⟩⟩

theorem keep_dir {s : LogConf} {op : Op} (hk : op.Keeps) {d : String} (hd : s.dir = some d) : (s.step op).dir = some d := by
  cases op with
  | get f =>
    change (s.get f).1.dir = some d
    rw [((s.get_dir f).2.2 d hd).2]; exact hd
  | set i d => cases hk
  | open_ f n =>
    change (s.open_ f n).dir = some d
    unfold open_
    split
    · exact hd
    · have := ((s.get_dir f).2.2 d hd).2
      cases hg : s.get f with
      | mk s1 d1 =>
        rw [hg] at this
        simp only at this
        simp only [this]
        exact hd
  | reset => cases hk

theorem keep_dir_run (ops : List Op) : ∀ (s : LogConf) (d : String), (∀ op ∈ ops, op.Keeps) → s.dir = some d → (s.run ops).dir = some d := by
  induction ops with
  | nil => intro s d _ h; exact h
  | cons op ops ih =>
    intro s d hk h
    exact ih (s.step op) d (fun x hx => hk x (List.mem_cons_of_mem _ hx)) (keep_dir (hk op List.mem_cons_self) h)

end LogConf

/-- C100.  The log directory, once asked for, stays the same, and is made only once, until it is set or logging is reset: whatever `_make_unique_log_dir` would return the
next time. -/
theorem C100_stable (s : LogConf) (fresh fresh' : String) (ops : List LogConf.Op) (hk : ∀ op ∈ ops, op.Keeps) :
    (((s.get fresh).1.run ops).get fresh').2 = (s.get fresh).2 :=
  ((LogConf.get_dir _ _).2.2 _ (LogConf.keep_dir_run ops _ _ hk (s.get_dir fresh).1)).1

/-- C100.  Setting the log directory: to a directory, it is returned from then on (with a warning if there are log files already); to something else, a ValueError, and nothing changes; to
None, a new directory is made when it is needed. -/
theorem C100_set (s : LogConf) (isdir : String → Bool) (d fresh : String) :
    (isdir d = true → (((s.set isdir (some d)).1).get fresh).2 = d ∧ (s.set isdir (some d)).2 = .ok (!s.files.isEmpty)) ∧
    (isdir d = false → s.set isdir (some d) = (s, .error .valueError)) ∧
    (((s.set isdir none).1).get fresh).2 = fresh := by
  refine ⟨?_, ?_, rfl⟩
  · intro h
    simp [LogConf.set, h, LogConf.get]
  · intro h
    simp [LogConf.set, h]

/-- C100 (partial).  All log files are in the log directory, if it is not set after the first of them was opened (see `C100_files_violated`). -/
theorem C100_files_partial (before ops : List LogConf.Op) (hb : (({} : LogConf).run before).files = []) (hk : ∀ op ∈ ops, op.Keeps) (name d : String) :
    let s := (({} : LogConf).run before).run ops
    s.files.get? name = some d → s.dir = some d := by
  generalize hs0 : ({} : LogConf).run before = s0 at hb
  have inv : ∀ (ops : List LogConf.Op) (s : LogConf), (∀ op ∈ ops, op.Keeps) → (∀ n e, s.files.get? n = some e → s.dir = some e) →
      ∀ n e, (s.run ops).files.get? n = some e → (s.run ops).dir = some e := by
    intro ops
    induction ops with
    | nil => intro s _ h; exact h
    | cons op ops ih =>
      intro s hk h
      refine ih (s.step op) (fun x hx => hk x (List.mem_cons_of_mem _ hx)) ?_
      intro n e hn
      have hop := hk op List.mem_cons_self
      cases op with
      | get f =>
        have : (s.step (.get f)).files = s.files := (s.get_dir f).2.1
        rw [this] at hn
        exact LogConf.keep_dir hop (h n e hn)
      | set i d => cases hop
      | reset => cases hop
      | open_ f m =>
        change (s.open_ f m).files.get? n = some e at hn
        change (s.open_ f m).dir = some e
        unfold LogConf.open_ at hn ⊢
        split at hn
        · rename_i h1
          rw [if_pos h1]; exact h n e hn
        · rename_i h1
          rw [if_neg h1]
          obtain ⟨g1, g2, g3⟩ := s.get_dir f
          cases hg : s.get f with
          | mk s1 d1 =>
            rw [hg] at g1 g2 g3 hn
            simp only at g1 g2 g3 hn ⊢
            rw [Dict.get?_set] at hn
            split at hn
            · cases hn; exact g1
            · rw [g2] at hn
              have := h n e hn
              rw [← (g3 e this).1]; exact g1
  intro s hn
  exact inv ops s0 hk (fun n e hn => by rw [hb] at hn; cases hn) name d hn

/-- A history: the directory is set, then log files are opened. -/
example : let s := (({} : LogConf).run [.set (fun _ => true) (some "/a")]).run [.open_ "/x" "launch.log", .get "/y", .open_ "/z" "p.log"]
    s.dir = some "/a" ∧ s.files = [("launch.log", "/a"), ("p.log", "/a")] := by decide +kernel

/-- C100 (negation).  Log files that are open stay where they are when the log directory is set: they are not below the directory that is reported. -/
theorem C100_files_violated : ∃ ops : List LogConf.Op, (({} : LogConf).run ops).dir = some "/b" ∧ (({} : LogConf).run ops).files.get? "launch.log" = some "/a" :=
  ⟨[.open_ "/a" "launch.log", .set (fun _ => true) (some "/b")], by decide +kernel, by decide +kernel⟩

end Verif
