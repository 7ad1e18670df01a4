import Verif.Lemmas.SubstOps
import Verif.Spec.SubstMore
import Verif.Props.Events

/-!
# Further substitutions (C61-C63)
-/

namespace Verif

theorem performSubs_all {O : Oracle} {ss : List Sub} {c c1 : Ctx} {v : String} (h : performSubs O ss c = (c1, .ok v)) :
    ∃ l, joinStrs l = v ∧ performAll O ss c = (c1, .ok l) := by
  simp only [performSubs, M.bind, M.pure] at h
  cases h1 : performAll O ss c with
  | mk c2 r =>
    cases r with
    | error e => simp [h1] at h
    | ok l =>
      simp [h1] at h
      exact ⟨l, h.2, by rw [h.1]⟩

/-! ## C61 -/

/-- C61.  IfElseSubstitution evaluates its condition as a boolean, and then performs exactly the branch it selects; the other branch is not performed. -/
theorem C61_if_else (O : Oracle) (cond ifValue elseValue : List Sub) (c : Ctx) :
    perform O (.ifElse cond ifValue elseValue) c =
      match boolOperand O cond c with
      | (c1, .ok true) => performSubs O ifValue c1
      | (c1, .ok false) => performSubs O elseValue c1
      | (c1, .error e) => (c1, .error e) := by
  simp only [perform, M.bind, operand_eq]
  cases h : boolOperand O cond c with
  | mk c1 r =>
    cases r with
    | error e => rfl
    | ok b => cases b <;> rfl

/-- The branch that is not selected may be impossible to perform. -/
example : perform sampleOracle (.ifElse [.text "1"] [.text "a"] [.launchConfig [.text "unset"] none]) {} = ({}, .ok "a") := by rfl

/-! ## C62 -/

/-- C62.  PathJoinSubstitution performs all its parts in order and joins the texts. -/
theorem C62_performs_parts (O : Oracle) (parts : List Sub) (c c1 : Ctx) (texts : List String) (h : performAll O parts c = (c1, .ok texts)) :
    perform O (.pathJoin parts) c = (c1, pathJoin texts) := by
  simp only [perform, M.bind, h, M.lift]

/-- C62.  Parts before an absolute part are dropped. -/
theorem C62_absolute_restarts (xs : List String) (p : String) (ys : List String) (h : isAbs p) :
    pathJoin (xs ++ p :: ys) = pathJoin (p :: ys) := by
  cases xs with
  | nil => rfl
  | cons x xs =>
    simp only [List.cons_append, pathJoin, List.foldl_append, List.foldl_cons, Except.ok.injEq]
    have : ∀ a, joinPath2 a p = p := by
      intro a; unfold joinPath2; unfold isAbs at h; rw [if_pos h]
    rw [this]

/-- C62.  Relative, non-empty parts that do not end in a separator are joined by exactly one separator each. -/
theorem C62_single_separators (p : String) (ps : List String) (hrel : ∀ q ∈ ps, ¬ isAbs q)
    (hend : ∀ q ∈ (p :: ps).dropLast, q ≠ "" ∧ q.toList.getLast? ≠ some '/') : pathJoin (p :: ps) = .ok (slashed (p :: ps)) := by
  simp only [pathJoin, Except.ok.injEq]
  -- generalised: joining onto any beginning that ends like `p`
  have key : ∀ (ps : List String) (a p : String), (∀ q ∈ ps, ¬ isAbs q) → (∀ q ∈ (p :: ps).dropLast, q ≠ "" ∧ q.toList.getLast? ≠ some '/') →
      ps.foldl joinPath2 (a ++ p) = a ++ slashed (p :: ps) := by
    intro ps
    induction ps with
    | nil => intro a p _ _; simp [slashed]
    | cons q ps ih =>
      intro a p hr he
      have hp := he p (by simp)
      have hq : ¬ isAbs q := hr q (by simp)
      have e1 : joinPath2 (a ++ p) q = a ++ p ++ "/" ++ q := by
        unfold joinPath2
        unfold isAbs at hq
        rw [if_neg hq, if_neg]
        rintro (h | h)
        · have := congrArg String.toList h
          simp at this
          exact hp.1 this.2
        · rw [String.toList_append, List.getLast?_append] at h
          cases hl : p.toList.getLast? with
          | none =>
            have : p.toList = [] := List.getLast?_eq_none_iff.mp hl
            exact hp.1 (by simpa using this)
          | some x =>
            rw [hl] at h
            simp at h
            exact hp.2 (by rw [hl, h])
      rw [List.foldl_cons, e1, show a ++ p ++ "/" ++ q = (a ++ p ++ "/") ++ q from rfl,
        ih (a ++ p ++ "/") q (fun x hx => hr x (by simp [hx])) (fun x hx => he x (by
          simp only [List.dropLast_cons_cons]
          simp [hx]))]
      simp [slashed, String.append_assoc]
  have := key ps "" p hrel hend
  simpa using this

/-- C62.  No part at all raises TypeError. -/
theorem C62_no_parts (O : Oracle) (c : Ctx) : perform O (.pathJoin []) c = (c, .error .typeError) := by rfl

example : pathJoin ["/opt/ros", "share", "pkg"] = .ok "/opt/ros/share/pkg" := by
  rw [C62_single_separators _ _ (by decide +kernel) (by decide +kernel)]; rfl

example : pathJoin ["a", "/b", "c"] = .ok "/b/c" := by
  rw [show ["a", "/b", "c"] = ["a"] ++ "/b" :: ["c"] from rfl, C62_absolute_restarts _ _ _ (by decide +kernel),
    C62_single_separators _ _ (by decide +kernel) (by decide +kernel)]; rfl

/-! ## C63 -/

/-- C63.  After any history of the locals, LocalSubstitution evaluates its expression against the globals overridden by the current locals, and changes nothing. -/
theorem C63_local (O : Oracle) (expr : String) (c : Ctx) (ops : List LocalsOp) (h : c.locals = ops.foldl LocalsOp.run {}) :
    ∃ d, perform O (.localVar expr) c = (c, O.localEval d expr) ∧
      ∀ k, Dict.get? d k = (let s := ops.foldl Scopes.run {}; s.globals.over s.cur) k := by
  refine ⟨c.locals.getCombined.1, by simp [perform], ?_⟩
  intro k
  rw [h]
  exact C24_locals_shadow_globals ops k

/-- C63.  ThisLaunchFile and ThisLaunchFileDir give what the current scope of locals holds for the launch file being visited; outside of launch files they fail. -/
theorem C63_this_launch_file (O : Oracle) (c : Ctx) (ops : List LocalsOp) (h : c.locals = ops.foldl LocalsOp.run {}) :
    (∀ p, (let s := ops.foldl Scopes.run {}; s.globals.over s.cur) "current_launch_file_path" = some (.str p) →
      perform O .thisLaunchFile c = (c, .ok p)) ∧
    (∀ p, (let s := ops.foldl Scopes.run {}; s.globals.over s.cur) "current_launch_file_directory" = some (.str p) →
      perform O .thisLaunchFileDir c = (c, .ok p)) ∧
    ((let s := ops.foldl Scopes.run {}; s.globals.over s.cur) "current_launch_file_path" = none →
      perform O .thisLaunchFile c = (c, .error .substitutionFailure)) ∧
    ((let s := ops.foldl Scopes.run {}; s.globals.over s.cur) "current_launch_file_directory" = none →
      perform O .thisLaunchFileDir c = (c, .error .substitutionFailure)) := by
  have e := fun k => C24_locals_shadow_globals ops k
  simp only [perform, readLocalStr]
  rw [h]
  refine ⟨?_, ?_, ?_, ?_⟩ <;> intros <;> rename_i hx <;> simp only [e] <;> simp only [hx]

/-- Nested launch files: the inner one while it is visited, the outer one again afterwards. -/
example : let outer : List LocalsOp := [.push, .extendLocals [("current_launch_file_path", .str "/outer.py")]]
    let inner := outer ++ [.push, .extendLocals [("current_launch_file_path", .str "/inner.py")]]
    (perform sampleOracle .thisLaunchFile { locals := inner.foldl LocalsOp.run {} }).2 = .ok "/inner.py" ∧
    (perform sampleOracle .thisLaunchFile { locals := (inner ++ [.pop]).foldl LocalsOp.run {} }).2 = .ok "/outer.py" := by
  exact ⟨rfl, rfl⟩

/-- C63.  Command: with a valid mode and a command that can be split, either running it raises some other error, or the result is the documented one. -/
theorem C63_command (O : Oracle) (cmd mode : List Sub) (c c1 c2 : Ctx) (t m : String) (words : List (List Char))
    (h1 : performSubs O cmd c = (c1, .ok t)) (hw : Shlex.split t.toList = some words) (h2 : performSubs O mode c1 = (c2, .ok m)) (hm : isStderrMode m) :
    ∃ r, perform O (.command cmd mode) c = (c2, r) ∧
      (CommandResult O (words.map String.ofList) m r ∨
        ∃ e, r = .error e ∧ (O.run (words.map String.ofList) (m = "capture") = .error e ∨ O.run (words.map String.ofList) (m = "capture") = .ok (.raised e))) := by
  obtain ⟨l, hl, e⟩ := performSubs_all h1
  obtain ⟨l2, hl2, e2⟩ := performSubs_all h2
  have hs : splitCommand (joinStrs l) = .ok (words.map String.ofList) := by simp [splitCommand, hl, hw]
  have e3 : perform O (.command cmd mode) c = (c2, runCommand O (words.map String.ofList) m) := by
    simp only [perform, M.bind, M.lift, e, hs, e2, hl2]
  rw [e3]
  refine ⟨_, rfl, ?_⟩
  unfold runCommand
  have hm' : m = "fail" ∨ m = "ignore" ∨ m = "warn" ∨ m = "capture" := hm
  rw [if_pos hm']
  cases hr : O.run (words.map String.ofList) (m = "capture") with
  | error x => exact .inr ⟨x, rfl, .inl rfl⟩
  | ok r =>
    cases r with
    | fileNotFound => exact .inl (.notFound hr)
    | raised x => exact .inr ⟨x, rfl, .inr rfl⟩
    | done rc out err =>
      simp only
      by_cases hrc : rc ≠ 0
      · rw [if_pos hrc]; exact .inl (.failed hr hrc)
      · have hrc0 : rc = 0 := by simpa using hrc
        subst hrc0
        rw [if_neg hrc]
        by_cases hf : err ≠ "" ∧ m = "fail"
        · rw [if_pos hf]
          obtain ⟨he, rfl⟩ := hf
          exact .inl (.complained hr he)
        · rw [if_neg hf]
          refine .inl (.output hr ?_)
          intro hmf
          by_cases he : err = ""
          · exact he
          · exact absurd ⟨he, hmf⟩ hf

/-- C63.  Command: an unknown mode is a substitution failure and nothing is run (the result is the same for every way of running programs). -/
theorem C63_command_mode (O : Oracle) (cmd mode : List Sub) (c c1 c2 : Ctx) (t m : String) (words : List (List Char))
    (h1 : performSubs O cmd c = (c1, .ok t)) (hw : Shlex.split t.toList = some words) (h2 : performSubs O mode c1 = (c2, .ok m)) (hm : ¬ isStderrMode m) :
    perform O (.command cmd mode) c = (c2, .error .substitutionFailure) := by
  obtain ⟨l, hl, e⟩ := performSubs_all h1
  obtain ⟨l2, hl2, e2⟩ := performSubs_all h2
  have hs : splitCommand (joinStrs l) = .ok (words.map String.ofList) := by simp [splitCommand, hl, hw]
  simp only [perform, M.bind, M.lift, e, hs, e2, hl2]
  unfold isStderrMode at hm
  unfold runCommand
  rw [if_neg hm]

/-- A command that writes a warning. -/
example : let O := { sampleOracle with run := fun w _ => .ok (.done 0 (String.join w) "oops") }
    (perform O (.command [.text "echo 'a b'"] [.text "ignore"]) {}).2 = .ok "echoa b" ∧
    (perform O (.command [.text "echo 'a b'"] [.text "fail"]) {}).2 = .error .substitutionFailure := by
  exact ⟨rfl, rfl⟩

/-- C63 is violated by commands with an unclosed quotation: ValueError instead of a substitution failure, whatever the mode. -/
theorem C63_command_quotation_violated (O : Oracle) (c : Ctx) :
    perform O (.command [.text "echo 'a"] [.text "ignore"]) c = (c, .error .valueError) := by
  have h : splitCommand (joinStrs ["echo 'a"]) = .error .valueError := by rfl
  have e : performAll O [.text "echo 'a"] c = (c, .ok ["echo 'a"]) := by simp [performAll, perform, M.bind, M.pure]
  simp only [perform, M.bind, e, M.lift, h]

/-- C63.  FindExecutable gives the path found for the performed name in the current environment, or fails; FileContent gives the content of the file, or fails if there
is no such file. -/
theorem C63_find_and_read (O : Oracle) (arg : List Sub) (c c1 : Ctx) (t : String) (h : performSubs O arg c = (c1, .ok t)) :
    (∀ p, O.which c1.env t = some p → perform O (.findExec arg) c = (c1, .ok p)) ∧
    (O.which c1.env t = none → perform O (.findExec arg) c = (c1, .error .substitutionFailure)) ∧
    (∀ s, O.readFile t = .ok s → perform O (.fileContent arg) c = (c1, .ok s)) ∧
    (O.readFile t = .error .fileNotFound → perform O (.fileContent arg) c = (c1, .error .substitutionFailure)) := by
  obtain ⟨l, hl, e⟩ := performSubs_all h
  refine ⟨?_, ?_, ?_, ?_⟩
  · intro p hp
    simp [perform, M.bind, e, hl, hp]
  · intro hp
    simp [perform, M.bind, e, hl, hp]
  · intro s hs
    simp [perform, M.bind, e, hl, hs, M.lift]
  · intro hs
    simp [perform, M.bind, e, hl, hs, M.raise]

/-- C63.  PythonExpression evaluates the performed expression with the performed modules, which are performed first. -/
theorem C63_python_expression (O : Oracle) (expr modules : List Sub) (c c1 c2 : Ctx) (ms : List String) (t : String)
    (h1 : performAll O modules c = (c1, .ok ms)) (h2 : performSubs O expr c1 = (c2, .ok t)) :
    perform O (.pyExpr expr modules) c = (c2, O.pyEval ms t) := by
  obtain ⟨l, hl, e⟩ := performSubs_all h2
  simp only [perform, M.bind, h1, e, hl, M.lift]

example : performAll sampleOracle [.text "math"] {} = ({}, .ok ["math"]) ∧ performSubs sampleOracle [.text "1 + ", .text "1"] {} = ({}, .ok "1 + 1") := by
  exact ⟨rfl, rfl⟩

end Verif
