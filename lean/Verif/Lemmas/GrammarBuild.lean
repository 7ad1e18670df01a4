import Verif.Spec.Grammar

/-! # Construction of substitutions -/

namespace Verif

/-! ## Equality of fragments is decidable (for the examples) -/

mutual

def Frag.decEq : (a b : Frag) → Decidable (a = b)
  | .text s, .text t => if h : s = t then .isTrue (by rw [h]) else .isFalse (by intro e; cases e; exact h rfl)
  | .sub n as, .sub m bs =>
    if h : n = m then
      match Frag.decEqArgs as bs with
      | .isTrue h2 => .isTrue (by rw [h, h2])
      | .isFalse h2 => .isFalse (by intro e; cases e; exact h2 rfl)
    else .isFalse (by intro e; cases e; exact h rfl)
  | .text _, .sub _ _ => .isFalse (by intro e; cases e)
  | .sub _ _, .text _ => .isFalse (by intro e; cases e)

def Frag.decEqArgs : (a b : List (List Frag)) → Decidable (a = b)
  | [], [] => .isTrue rfl
  | [], _ :: _ => .isFalse (by intro e; cases e)
  | _ :: _, [] => .isFalse (by intro e; cases e)
  | a :: as, b :: bs =>
    match Frag.decEqAll a b, Frag.decEqArgs as bs with
    | .isTrue h1, .isTrue h2 => .isTrue (by rw [h1, h2])
    | .isFalse h1, _ => .isFalse (by intro e; cases e; exact h1 rfl)
    | _, .isFalse h2 => .isFalse (by intro e; cases e; exact h2 rfl)

def Frag.decEqAll : (a b : List Frag) → Decidable (a = b)
  | [], [] => .isTrue rfl
  | [], _ :: _ => .isFalse (by intro e; cases e)
  | _ :: _, [] => .isFalse (by intro e; cases e)
  | a :: as, b :: bs =>
    match Frag.decEq a b, Frag.decEqAll as bs with
    | .isTrue h1, .isTrue h2 => .isTrue (by rw [h1, h2])
    | .isFalse h1, _ => .isFalse (by intro e; cases e; exact h1 rfl)
    | _, .isFalse h2 => .isFalse (by intro e; cases e; exact h2 rfl)

end

instance : DecidableEq Frag := Frag.decEq

/-- The condition on the modules of `eval`, for substitutions that are constructed. -/
def evalOk (name : String) (args : List (List Sub)) : Prop :=
  name = "eval" → ∀ f fs, args[1]? = some (f :: fs) → ∃ t, f = Sub.text t

theorem known_iff (name : String) (n : Nat) : Known name n ↔
    (name = "var" ∧ (n = 1 ∨ n = 2)) ∨ (name = "env" ∧ (n = 1 ∨ n = 2)) ∨ (name = "anon" ∧ n = 1) ∨ (name = "not" ∧ n = 1) ∨ (name = "and" ∧ n = 2) ∨
    (name = "or" ∧ n = 2) ∨ (name = "equals" ∧ n = 2) ∨ (name = "not-equals" ∧ n = 2) ∨ (name = "if" ∧ (n = 2 ∨ n = 3)) ∨
    (name = "eval" ∧ (n = 1 ∨ n = 2)) ∨ (name = "command" ∧ (n = 1 ∨ n = 2)) ∨ (name = "find-exec" ∧ n = 1) ∨ (name = "file-content" ∧ n = 1) ∨
    (name = "filename" ∧ n = 0) ∨ (name = "dirname" ∧ n = 0) ∨ (name = "launch_log_dir" ∧ n = 0) ∨ (name = "log_dir" ∧ n = 0) := by
  simp only [Known, arities, List.mem_cons, List.not_mem_nil, or_false, Prod.mk.injEq]
  constructor
  · rintro ⟨ns, h, hn⟩
    rcases h with h | h | h | h | h | h | h | h | h | h | h | h | h | h | h | h | h <;> (obtain ⟨rfl, rfl⟩ := h; simpa using hn)
  · rintro (h | h | h | h | h | h | h | h | h | h | h | h | h | h | h | h | h) <;>
      (obtain ⟨rfl, h⟩ := h; simp [h])

theorem instantiate_iff (name : String) (args : List (List Sub)) :
    (∃ x, instantiate name args = .ok x) ↔ Known name args.length ∧ evalOk name args := by
  rw [known_iff]
  by_cases hvar : name = "var"
  · subst hvar
    rcases args with _ | ⟨a, _ | ⟨b, _ | ⟨c, _ | ⟨d, as⟩⟩⟩⟩ <;> simp [instantiate, evalOk]
  by_cases henv : name = "env"
  · subst henv
    rcases args with _ | ⟨a, _ | ⟨b, _ | ⟨c, _ | ⟨d, as⟩⟩⟩⟩ <;> simp [instantiate, evalOk]
  by_cases hanon : name = "anon"
  · subst hanon
    rcases args with _ | ⟨a, _ | ⟨b, _ | ⟨c, _ | ⟨d, as⟩⟩⟩⟩ <;> simp [instantiate, evalOk]
  by_cases hnot : name = "not"
  · subst hnot
    rcases args with _ | ⟨a, _ | ⟨b, _ | ⟨c, _ | ⟨d, as⟩⟩⟩⟩ <;> simp [instantiate, evalOk]
  by_cases hand : name = "and"
  · subst hand
    rcases args with _ | ⟨a, _ | ⟨b, _ | ⟨c, _ | ⟨d, as⟩⟩⟩⟩ <;> simp [instantiate, evalOk]
  by_cases hor : name = "or"
  · subst hor
    rcases args with _ | ⟨a, _ | ⟨b, _ | ⟨c, _ | ⟨d, as⟩⟩⟩⟩ <;> simp [instantiate, evalOk]
  by_cases hany : name = "any"
  · subst hany
    rcases args with _ | ⟨a, _ | ⟨b, _ | ⟨c, _ | ⟨d, as⟩⟩⟩⟩ <;> simp [instantiate, evalOk]
  by_cases hall : name = "all"
  · subst hall
    rcases args with _ | ⟨a, _ | ⟨b, _ | ⟨c, _ | ⟨d, as⟩⟩⟩⟩ <;> simp [instantiate, evalOk]
  by_cases hequals : name = "equals"
  · subst hequals
    rcases args with _ | ⟨a, _ | ⟨b, _ | ⟨c, _ | ⟨d, as⟩⟩⟩⟩ <;> simp [instantiate, evalOk]
  by_cases hnot_equals : name = "not-equals"
  · subst hnot_equals
    rcases args with _ | ⟨a, _ | ⟨b, _ | ⟨c, _ | ⟨d, as⟩⟩⟩⟩ <;> simp [instantiate, evalOk]
  by_cases hif : name = "if"
  · subst hif
    rcases args with _ | ⟨a, _ | ⟨b, _ | ⟨c, _ | ⟨d, as⟩⟩⟩⟩ <;> simp [instantiate, evalOk]
  by_cases heval : name = "eval"
  · subst heval
    rcases args with _ | ⟨a, _ | ⟨b, _ | ⟨c, as⟩⟩⟩
    · simp [instantiate]
    · simp [instantiate, evalOk]
    · rcases b with _ | ⟨f, fs⟩
      · simp [instantiate, evalOk, evalModules]
      · cases f <;> simp [instantiate, evalOk, evalModules]
    · simp [instantiate]
  by_cases hcommand : name = "command"
  · subst hcommand
    rcases args with _ | ⟨a, _ | ⟨b, _ | ⟨c, _ | ⟨d, as⟩⟩⟩⟩ <;> simp [instantiate, evalOk]
  by_cases hfind_exec : name = "find-exec"
  · subst hfind_exec
    rcases args with _ | ⟨a, _ | ⟨b, _ | ⟨c, _ | ⟨d, as⟩⟩⟩⟩ <;> simp [instantiate, evalOk]
  by_cases hfile_content : name = "file-content"
  · subst hfile_content
    rcases args with _ | ⟨a, _ | ⟨b, _ | ⟨c, _ | ⟨d, as⟩⟩⟩⟩ <;> simp [instantiate, evalOk]
  by_cases hfilename : name = "filename"
  · subst hfilename
    rcases args with _ | ⟨a, _ | ⟨b, _ | ⟨c, _ | ⟨d, as⟩⟩⟩⟩ <;> simp [instantiate, evalOk]
  by_cases hdirname : name = "dirname"
  · subst hdirname
    rcases args with _ | ⟨a, _ | ⟨b, _ | ⟨c, _ | ⟨d, as⟩⟩⟩⟩ <;> simp [instantiate, evalOk]
  by_cases hlaunch_log_dir : name = "launch_log_dir"
  · subst hlaunch_log_dir
    rcases args with _ | ⟨a, _ | ⟨b, _ | ⟨c, _ | ⟨d, as⟩⟩⟩⟩ <;> simp [instantiate, evalOk]
  by_cases hlog_dir : name = "log_dir"
  · subst hlog_dir
    rcases args with _ | ⟨a, _ | ⟨b, _ | ⟨c, _ | ⟨d, as⟩⟩⟩⟩ <;> simp [instantiate, evalOk]
  simp [instantiate, hvar, henv, hanon, hnot, hand, hor, hany, hall, hequals, hnot_equals, hif, heval, hcommand, hfind_exec, hfile_content, hfilename, hdirname, hlaunch_log_dir, hlog_dir]


theorem instantiate_not_text (name : String) (args : List (List Sub)) (t : String) : instantiate name args ≠ .ok (.text t) := by
  by_cases hvar : name = "var"
  · subst hvar
    rcases args with _ | ⟨a, _ | ⟨b, _ | ⟨c, _ | ⟨d, as⟩⟩⟩⟩ <;> simp [instantiate]
  by_cases henv : name = "env"
  · subst henv
    rcases args with _ | ⟨a, _ | ⟨b, _ | ⟨c, _ | ⟨d, as⟩⟩⟩⟩ <;> simp [instantiate]
  by_cases hanon : name = "anon"
  · subst hanon
    rcases args with _ | ⟨a, _ | ⟨b, _ | ⟨c, _ | ⟨d, as⟩⟩⟩⟩ <;> simp [instantiate]
  by_cases hnot : name = "not"
  · subst hnot
    rcases args with _ | ⟨a, _ | ⟨b, _ | ⟨c, _ | ⟨d, as⟩⟩⟩⟩ <;> simp [instantiate]
  by_cases hand : name = "and"
  · subst hand
    rcases args with _ | ⟨a, _ | ⟨b, _ | ⟨c, _ | ⟨d, as⟩⟩⟩⟩ <;> simp [instantiate]
  by_cases hor : name = "or"
  · subst hor
    rcases args with _ | ⟨a, _ | ⟨b, _ | ⟨c, _ | ⟨d, as⟩⟩⟩⟩ <;> simp [instantiate]
  by_cases hany : name = "any"
  · subst hany
    rcases args with _ | ⟨a, _ | ⟨b, _ | ⟨c, _ | ⟨d, as⟩⟩⟩⟩ <;> simp [instantiate]
  by_cases hall : name = "all"
  · subst hall
    rcases args with _ | ⟨a, _ | ⟨b, _ | ⟨c, _ | ⟨d, as⟩⟩⟩⟩ <;> simp [instantiate]
  by_cases hequals : name = "equals"
  · subst hequals
    rcases args with _ | ⟨a, _ | ⟨b, _ | ⟨c, _ | ⟨d, as⟩⟩⟩⟩ <;> simp [instantiate]
  by_cases hnot_equals : name = "not-equals"
  · subst hnot_equals
    rcases args with _ | ⟨a, _ | ⟨b, _ | ⟨c, _ | ⟨d, as⟩⟩⟩⟩ <;> simp [instantiate]
  by_cases hif : name = "if"
  · subst hif
    rcases args with _ | ⟨a, _ | ⟨b, _ | ⟨c, _ | ⟨d, as⟩⟩⟩⟩ <;> simp [instantiate]
  by_cases heval : name = "eval"
  · subst heval
    rcases args with _ | ⟨a, _ | ⟨b, _ | ⟨c, as⟩⟩⟩
    · simp [instantiate]
    · simp [instantiate]
    · cases h : evalModules b <;> simp [instantiate, h]
    · simp [instantiate]
  by_cases hcommand : name = "command"
  · subst hcommand
    rcases args with _ | ⟨a, _ | ⟨b, _ | ⟨c, _ | ⟨d, as⟩⟩⟩⟩ <;> simp [instantiate]
  by_cases hfind_exec : name = "find-exec"
  · subst hfind_exec
    rcases args with _ | ⟨a, _ | ⟨b, _ | ⟨c, _ | ⟨d, as⟩⟩⟩⟩ <;> simp [instantiate]
  by_cases hfile_content : name = "file-content"
  · subst hfile_content
    rcases args with _ | ⟨a, _ | ⟨b, _ | ⟨c, _ | ⟨d, as⟩⟩⟩⟩ <;> simp [instantiate]
  by_cases hfilename : name = "filename"
  · subst hfilename
    rcases args with _ | ⟨a, _ | ⟨b, _ | ⟨c, _ | ⟨d, as⟩⟩⟩⟩ <;> simp [instantiate]
  by_cases hdirname : name = "dirname"
  · subst hdirname
    rcases args with _ | ⟨a, _ | ⟨b, _ | ⟨c, _ | ⟨d, as⟩⟩⟩⟩ <;> simp [instantiate]
  by_cases hlaunch_log_dir : name = "launch_log_dir"
  · subst hlaunch_log_dir
    rcases args with _ | ⟨a, _ | ⟨b, _ | ⟨c, _ | ⟨d, as⟩⟩⟩⟩ <;> simp [instantiate]
  by_cases hlog_dir : name = "log_dir"
  · subst hlog_dir
    rcases args with _ | ⟨a, _ | ⟨b, _ | ⟨c, _ | ⟨d, as⟩⟩⟩⟩ <;> simp [instantiate]
  simp [instantiate, hvar, henv, hanon, hnot, hand, hor, hany, hall, hequals, hnot_equals, hif, heval, hcommand, hfind_exec, hfile_content, hfilename, hdirname, hlaunch_log_dir, hlog_dir]


/-- Texts stay texts, and nothing else becomes one. -/
theorem build_text {f : Frag} {x : Sub} (h : f.build = .ok x) : f.isText = true ↔ ∃ t, x = Sub.text t := by
  cases f with
  | text t =>
    simp only [Frag.build, Except.ok.injEq] at h
    subst h
    simp [Frag.isText]
  | sub name args =>
    simp only [Frag.isText, Bool.false_eq_true, false_iff, not_exists]
    rintro t rfl
    simp only [Frag.build] at h
    split at h
    · cases h
    · rename_i as _
      exact instantiate_not_text _ _ _ h

theorem buildAll_cons_ok {f : Frag} {fs : List Frag} {l : List Sub} :
    Frag.buildAll (f :: fs) = .ok l ↔ ∃ x xs, f.build = .ok x ∧ Frag.buildAll fs = .ok xs ∧ l = x :: xs := by
  simp only [Frag.buildAll]
  cases f.build with
  | error e => simp
  | ok x =>
    cases Frag.buildAll fs with
    | error e => simp
    | ok xs =>
      simp only [Except.ok.injEq]
      constructor
      · rintro rfl; exact ⟨x, xs, rfl, rfl, rfl⟩
      · rintro ⟨x', xs', rfl, rfl, rfl⟩; rfl

theorem buildArgs_cons_ok {a : List Frag} {as : List (List Frag)} {l : List (List Sub)} :
    Frag.buildArgs (a :: as) = .ok l ↔ ∃ x xs, Frag.buildAll a = .ok x ∧ Frag.buildArgs as = .ok xs ∧ l = x :: xs := by
  simp only [Frag.buildArgs]
  cases Frag.buildAll a with
  | error e => simp
  | ok x =>
    cases Frag.buildArgs as with
    | error e => simp
    | ok xs =>
      simp only [Except.ok.injEq]
      constructor
      · rintro rfl; exact ⟨x, xs, rfl, rfl, rfl⟩
      · rintro ⟨x', xs', rfl, rfl, rfl⟩; rfl

theorem buildArgs_length {as : List (List Frag)} {l : List (List Sub)} (h : Frag.buildArgs as = .ok l) : l.length = as.length := by
  induction as generalizing l with
  | nil => simp only [Frag.buildArgs, Except.ok.injEq] at h; subst h; rfl
  | cons a as ih =>
    obtain ⟨x, xs, _, h2, rfl⟩ := buildArgs_cons_ok.1 h
    simp [ih h2]

/-- The second argument begins with a text before construction exactly if it does after it. -/
theorem second_text {as : List (List Frag)} {l : List (List Sub)} (h : Frag.buildArgs as = .ok l) :
    (∀ f fs, as[1]? = some (f :: fs) → f.isText = true) ↔ (∀ f fs, l[1]? = some (f :: fs) → ∃ t, f = Sub.text t) := by
  match as, h with
  | [], h => simp only [Frag.buildArgs, Except.ok.injEq] at h; subst h; simp
  | [a], h =>
    obtain ⟨x, xs, _, h2, rfl⟩ := buildArgs_cons_ok.1 h
    simp only [Frag.buildArgs, Except.ok.injEq] at h2; subst h2; simp
  | a :: b :: as, h =>
    obtain ⟨x, xs, _, h2, rfl⟩ := buildArgs_cons_ok.1 h
    obtain ⟨y, ys, h3, _, rfl⟩ := buildArgs_cons_ok.1 h2
    simp only [List.getElem?_cons_succ, List.getElem?_cons_zero, Option.some.injEq]
    cases b with
    | nil => simp only [Frag.buildAll, Except.ok.injEq] at h3; subst h3; simp
    | cons f fs =>
      obtain ⟨z, zs, h4, _, rfl⟩ := buildAll_cons_ok.1 h3
      have := build_text h4
      constructor
      · intro hh g gs hg; cases hg; exact this.1 (hh f fs rfl)
      · intro hh g gs hg; cases hg; exact this.2 (hh z zs rfl)

mutual

theorem build_iff : (f : Frag) → ((∃ x, f.build = .ok x) ↔ f.Valid)
  | .text t => by simp [Frag.build, Frag.Valid]
  | .sub name args => by
    have ih := buildArgs_iff args
    simp only [Frag.Valid, Frag.build]
    constructor
    · rintro ⟨x, hx⟩
      split at hx
      · cases hx
      · rename_i as has
        obtain ⟨h1, h2⟩ := (instantiate_iff _ _).1 ⟨x, hx⟩
        rw [buildArgs_length has] at h1
        exact ⟨h1, ih.1 ⟨_, has⟩, fun he => (second_text has).2 (h2 he)⟩
    · rintro ⟨h1, h2, h3⟩
      obtain ⟨as, has⟩ := ih.2 h2
      rw [has]
      refine (instantiate_iff _ _).2 ⟨by rw [buildArgs_length has]; exact h1, fun he => (second_text has).1 (h3 he)⟩

theorem buildArgs_iff : (as : List (List Frag)) → ((∃ l, Frag.buildArgs as = .ok l) ↔ Frag.ValidArgs as)
  | [] => by simp [Frag.buildArgs, Frag.ValidArgs]
  | a :: as => by
    have ih1 := buildAll_iff a
    have ih2 := buildArgs_iff as
    simp only [Frag.ValidArgs, ← ih1, ← ih2, buildArgs_cons_ok]
    constructor
    · rintro ⟨l, x, xs, h1, h2, rfl⟩; exact ⟨⟨x, h1⟩, ⟨xs, h2⟩⟩
    · rintro ⟨⟨x, h1⟩, ⟨xs, h2⟩⟩; exact ⟨_, x, xs, h1, h2, rfl⟩

theorem buildAll_iff : (fs : List Frag) → ((∃ l, Frag.buildAll fs = .ok l) ↔ Frag.ValidAll fs)
  | [] => by simp [Frag.buildAll, Frag.ValidAll]
  | f :: fs => by
    have ih1 := build_iff f
    have ih2 := buildAll_iff fs
    simp only [Frag.ValidAll, ← ih1, ← ih2, buildAll_cons_ok]
    constructor
    · rintro ⟨l, x, xs, h1, h2, rfl⟩; exact ⟨⟨x, h1⟩, ⟨xs, h2⟩⟩
    · rintro ⟨⟨x, h1⟩, ⟨xs, h2⟩⟩; exact ⟨_, x, xs, h1, h2, rfl⟩

end

end Verif
