import Verif.Spec.TestWorker

namespace Verif

theorem preTests_snoc (as : List WorkerStep) (a : WorkerStep) :
    preTests (as ++ [a]) = preTests as ++ (match a with | .preTest cs => [cs] | _ => []) := by
  induction as with
  | nil => cases a <;> rfl
  | cons x xs ih => cases x <;> simp [preTests, ih]

theorem postTests_snoc (as : List WorkerStep) (a : WorkerStep) :
    postTests (as ++ [a]) = postTests as ++ (match a with | .postTest cs => [cs] | _ => []) := by
  induction as with
  | nil => cases a <;> rfl
  | cons x xs ih => cases x <;> simp [postTests, ih]

theorem lastEvent_snoc (p : String) (as : List WorkerStep) (a : WorkerStep) :
    lastEvent p (as ++ [a]) =
      match a with
      | .procStart q => if q = p then some none else lastEvent p as
      | .procExit q rc => if q = p then some (some rc) else lastEvent p as
      | _ => lastEvent p as := by
  rw [lastEvent, List.foldl_append]
  cases a <;> rfl

namespace Worker

theorem run_append (s : Worker) (as bs : List WorkerStep) : s.run (as ++ bs) = (s.run as).bind (fun t => t.run bs) := by
  induction as generalizing s with
  | nil => rfl
  | cons a as ih =>
    simp only [List.cons_append, run]
    cases h : s.step a with
    | none => rfl
    | some t => exact ih t

theorem run_snoc {s t : Worker} {as : List WorkerStep} {a : WorkerStep} :
    s.run (as ++ [a]) = some t ↔ ∃ u, s.run as = some u ∧ u.step a = some t := by
  rw [run_append]
  cases h : s.run as with
  | none => simp
  | some u =>
    simp only [Option.bind_some, Option.some.injEq, exists_eq_left', run]
    cases h2 : u.step a <;> simp

/-- Splitting a run at a step. -/
theorem run_split {s t : Worker} {as bs : List WorkerStep} {a : WorkerStep} (h : s.run (as ++ a :: bs) = some t) :
    ∃ u v, s.run as = some u ∧ u.step a = some v ∧ v.run bs = some t := by
  rw [run_append] at h
  cases h1 : s.run as with
  | none => rw [h1] at h; cases h
  | some u =>
    rw [h1] at h
    simp only [Option.bind_some, run] at h
    cases h2 : u.step a with
    | none => rw [h2] at h; cases h
    | some v => rw [h2] at h; exact ⟨u, v, rfl, h2, h⟩

/-- The launch has ended. -/
def over (s : Worker) : Bool :=
  match s.main with
  | .setup => false
  | .started => false
  | .launching => false
  | _ => true

/-- What is known about a state from the steps that lead to it. -/
structure Inv (k : Bool) (n m : Nat) (steps : List WorkerStep) (s : Worker) : Prop where
  keep : s.keepAlive = k
  npre : s.numPre = n
  npost : s.numPost = m
  pre : s.pre = preTests steps
  post : s.post = postTests steps
  preLe : s.pre.length ≤ n
  postLe : s.post.length ≤ m
  launched : s.launched = true ↔ WorkerStep.ready ∈ steps
  completed : s.completed = true ↔ WorkerStep.complete ∈ steps
  over : s.over = true ↔ Stopped steps
  launch : WorkerStep.launch ∈ steps ↔ (s.running = true ∨ s.over = true)
  readyLaunch : s.launched = true → (s.running = true ∨ s.over = true)
  threadTesting : s.thread = .testing ∨ s.thread = .finishing ∨ s.thread = .completing → s.launched = true
  completedThread : s.completed = true → s.launched = true ∧ (s.thread = .completing ∨ s.thread = .ended)
  fresh : s.thread = .notStarted ∨ s.thread = .waiting ∨ s.thread = .timedOut ∨ s.thread = .testing → s.results = none ∧ WorkerStep.interrupt ∉ steps ∧ s.completed = false
  fresh2 : s.thread = .finishing → s.completed = false
  results : ∀ r, s.results = some r → WorkerStep.interrupt ∉ steps ∧ s.pre.length = n ∧
    ((∀ x, s.main ≠ .ended (.results x)) → r = ({} : CaseResult).calls s.pre.flatten) ∧
    ∀ x, s.main = .ended (.results x) → r = (({} : CaseResult).calls s.pre.flatten).append (({} : CaseResult).calls s.post.flatten)
  noResults : s.results = none → (s.thread = .finishing ∨ s.thread = .completing) ∨ (s.thread = .ended ∧ s.completed = true) → WorkerStep.interrupt ∈ steps
  setup : s.main = .setup ↔ s.thread = .notStarted
  testing : s.main = .testing → s.completed = true ∧ WorkerStep.look ∈ steps
  postNone : s.main ≠ .testing → (∀ e, s.main ≠ .ended e) → s.post = []
  asked : s.asked = true → s.thread = .ended
  stopAsked : s.thread = .ended → s.completed = true → s.running = true → s.asked = true
  mainEnded : ∀ e, s.main = .ended e → WorkerStep.look ∈ steps ∧
    ((e = s.diedEnd ∧ s.post = []) ∨ (s.completed = true ∧ s.post.length = m ∧ ((∃ r, e = .results r ∧ s.results = some r) ∨ e = .raised .attributeError ∧ s.results = none)))
  procs : ∀ p, s.procs.get? p = lastEvent p steps
  wf : s.procs.Wf
  output : ∀ p b, (p, b) ∈ s.output ↔ WorkerStep.procOutput p b ∈ steps

theorem inv_init (k : Bool) (n m : Nat) : Inv k n m [] (init k n m) := by
  constructor <;> simp [init, preTests, postTests, Worker.over, running, Stopped, lastEvent, Dict.wf_nil]

/-- The proof of one clause. -/
macro "inv_clauses" : tactic => `(tactic| (constructor <;> simp_all [preTests_snoc, postTests_snoc, Worker.over, running, Stopped, lastEvent_snoc, diedEnd] <;> try omega))

theorem inv_startThread {k : Bool} {n m : Nat} {steps : List WorkerStep} {s t : Worker} (h : Inv k n m steps s)
    (hs : s.step .startThread = some t) : Inv k n m (steps ++ [.startThread]) t := by
  obtain ⟨h1, h2, h3, h4, h5, h6, h7, h8, h9, h10, h11, h12, h13, h14, h15, h16, h17, h18, h0, h19, h20, h21, h22, h23, h24, hw0, h25⟩ := h
  obtain ⟨keepAlive, numPre, numPost, main, thread, launched, completed, asked, pre, post, results, procs, output⟩ := s
  simp only at h1 h2 h3
  subst h1 h2 h3
  simp only [step] at hs
  cases main <;> simp at hs
  subst hs
  inv_clauses

theorem inv_launch {k : Bool} {n m : Nat} {steps : List WorkerStep} {s t : Worker} (h : Inv k n m steps s)
    (hs : s.step .launch = some t) : Inv k n m (steps ++ [.launch]) t := by
  obtain ⟨h1, h2, h3, h4, h5, h6, h7, h8, h9, h10, h11, h12, h13, h14, h15, h16, h17, h18, h0, h19, h20, h21, h22, h23, h24, hw0, h25⟩ := h
  obtain ⟨keepAlive, numPre, numPost, main, thread, launched, completed, asked, pre, post, results, procs, output⟩ := s
  simp only at h1 h2 h3
  subst h1 h2 h3
  simp only [step] at hs
  cases main <;> simp at hs
  subst hs
  inv_clauses

theorem inv_ready {k : Bool} {n m : Nat} {steps : List WorkerStep} {s t : Worker} (h : Inv k n m steps s)
    (hs : s.step .ready = some t) : Inv k n m (steps ++ [.ready]) t := by
  obtain ⟨h1, h2, h3, h4, h5, h6, h7, h8, h9, h10, h11, h12, h13, h14, h15, h16, h17, h18, h0, h19, h20, h21, h22, h23, h24, hw0, h25⟩ := h
  obtain ⟨keepAlive, numPre, numPost, main, thread, launched, completed, asked, pre, post, results, procs, output⟩ := s
  simp only at h1 h2 h3
  subst h1 h2 h3
  simp only [step] at hs
  cases main <;> simp [running] at hs
  subst hs
  inv_clauses

theorem inv_procStart {k : Bool} {n m : Nat} {steps : List WorkerStep} {s t : Worker} {p : String} (h : Inv k n m steps s)
    (hs : s.step (.procStart p) = some t) : Inv k n m (steps ++ [.procStart p]) t := by
  obtain ⟨h1, h2, h3, h4, h5, h6, h7, h8, h9, h10, h11, h12, h13, h14, h15, h16, h17, h18, h0, h19, h20, h21, h22, h23, h24, hw0, h25⟩ := h
  obtain ⟨keepAlive, numPre, numPost, main, thread, launched, completed, asked, pre, post, results, procs, output⟩ := s
  simp only at h1 h2 h3
  subst h1 h2 h3
  simp only [step] at hs
  cases main <;> simp [running] at hs
  subst hs
  inv_clauses
  · intro q
    rw [Dict.get?_set]; split <;> simp_all
  · exact Dict.Wf.set hw0 _ _

theorem inv_procExit {k : Bool} {n m : Nat} {steps : List WorkerStep} {s t : Worker} {p : String} {rc : Int} (h : Inv k n m steps s)
    (hs : s.step (.procExit p rc) = some t) : Inv k n m (steps ++ [.procExit p rc]) t := by
  obtain ⟨h1, h2, h3, h4, h5, h6, h7, h8, h9, h10, h11, h12, h13, h14, h15, h16, h17, h18, h0, h19, h20, h21, h22, h23, h24, hw0, h25⟩ := h
  obtain ⟨keepAlive, numPre, numPost, main, thread, launched, completed, asked, pre, post, results, procs, output⟩ := s
  simp only at h1 h2 h3
  subst h1 h2 h3
  simp only [step] at hs
  cases main <;> simp [running] at hs
  subst hs
  inv_clauses
  · intro q
    rw [Dict.get?_set]; split <;> simp_all
  · exact Dict.Wf.set hw0 _ _

theorem inv_procOutput {k : Bool} {n m : Nat} {steps : List WorkerStep} {s t : Worker} {p : String} {x : List UInt8} (h : Inv k n m steps s)
    (hs : s.step (.procOutput p x) = some t) : Inv k n m (steps ++ [.procOutput p x]) t := by
  obtain ⟨h1, h2, h3, h4, h5, h6, h7, h8, h9, h10, h11, h12, h13, h14, h15, h16, h17, h18, h0, h19, h20, h21, h22, h23, h24, hw0, h25⟩ := h
  obtain ⟨keepAlive, numPre, numPost, main, thread, launched, completed, asked, pre, post, results, procs, output⟩ := s
  simp only at h1 h2 h3
  subst h1 h2 h3
  simp only [step] at hs
  cases main <;> simp [running] at hs
  subst hs
  inv_clauses

theorem inv_stop {k : Bool} {n m : Nat} {steps : List WorkerStep} {s t : Worker} {why : StopReason} (h : Inv k n m steps s)
    (hs : s.step (.stop why) = some t) : Inv k n m (steps ++ [.stop why]) t := by
  obtain ⟨h1, h2, h3, h4, h5, h6, h7, h8, h9, h10, h11, h12, h13, h14, h15, h16, h17, h18, h0, h19, h20, h21, h22, h23, h24, hw0, h25⟩ := h
  obtain ⟨keepAlive, numPre, numPost, main, thread, launched, completed, asked, pre, post, results, procs, output⟩ := s
  simp only at h1 h2 h3
  subst h1 h2 h3
  simp only [step] at hs
  cases main <;> simp at hs
  obtain ⟨hw, hs⟩ := hs
  subst hs
  inv_clauses

set_option maxHeartbeats 1000000 in
theorem inv_look {k : Bool} {n m : Nat} {steps : List WorkerStep} {s t : Worker} (h : Inv k n m steps s)
    (hs : s.step .look = some t) : Inv k n m (steps ++ [.look]) t := by
  obtain ⟨h1, h2, h3, h4, h5, h6, h7, h8, h9, h10, h11, h12, h13, h14, h15, h16, h17, h18, h0, h19, h20, h21, h22, h23, h24, hw0, h25⟩ := h
  obtain ⟨keepAlive, numPre, numPost, main, thread, launched, completed, asked, pre, post, results, procs, output⟩ := s
  simp only at h1 h2 h3
  subst h1 h2 h3
  simp only [step] at hs
  cases main <;> simp at hs
  subst hs
  cases hsum : summaryError procs output <;> cases completed <;> inv_clauses

theorem inv_postTest {k : Bool} {n m : Nat} {steps : List WorkerStep} {s t : Worker} {cs : List ResultCall} (h : Inv k n m steps s)
    (hs : s.step (.postTest cs) = some t) : Inv k n m (steps ++ [.postTest cs]) t := by
  obtain ⟨h1, h2, h3, h4, h5, h6, h7, h8, h9, h10, h11, h12, h13, h14, h15, h16, h17, h18, h0, h19, h20, h21, h22, h23, h24, hw0, h25⟩ := h
  obtain ⟨keepAlive, numPre, numPost, main, thread, launched, completed, asked, pre, post, results, procs, output⟩ := s
  simp only at h1 h2 h3
  subst h1 h2 h3
  simp only [step] at hs
  cases main <;> simp at hs
  obtain ⟨hw, hs⟩ := hs
  subst hs
  inv_clauses

theorem inv_merge {k : Bool} {n m : Nat} {steps : List WorkerStep} {s t : Worker} (h : Inv k n m steps s)
    (hs : s.step .merge = some t) : Inv k n m (steps ++ [.merge]) t := by
  obtain ⟨h1, h2, h3, h4, h5, h6, h7, h8, h9, h10, h11, h12, h13, h14, h15, h16, h17, h18, h0, h19, h20, h21, h22, h23, h24, hw0, h25⟩ := h
  obtain ⟨keepAlive, numPre, numPost, main, thread, launched, completed, asked, pre, post, results, procs, output⟩ := s
  simp only at h1 h2 h3
  subst h1 h2 h3
  simp only [step] at hs
  cases main <;> simp at hs
  obtain ⟨hw, hs⟩ := hs
  have hm : post.length = numPost := Nat.le_antisymm h7 hw
  cases results <;> simp at hs <;> subst hs <;> inv_clauses

theorem inv_wake {k : Bool} {n m : Nat} {steps : List WorkerStep} {s t : Worker} (h : Inv k n m steps s)
    (hs : s.step .wake = some t) : Inv k n m (steps ++ [.wake]) t := by
  obtain ⟨h1, h2, h3, h4, h5, h6, h7, h8, h9, h10, h11, h12, h13, h14, h15, h16, h17, h18, h0, h19, h20, h21, h22, h23, h24, hw0, h25⟩ := h
  obtain ⟨keepAlive, numPre, numPost, main, thread, launched, completed, asked, pre, post, results, procs, output⟩ := s
  simp only at h1 h2 h3
  subst h1 h2 h3
  simp only [step] at hs
  split at hs <;> simp at hs
  subst hs
  inv_clauses

theorem inv_timeout {k : Bool} {n m : Nat} {steps : List WorkerStep} {s t : Worker} (h : Inv k n m steps s)
    (hs : s.step .timeout = some t) : Inv k n m (steps ++ [.timeout]) t := by
  obtain ⟨h1, h2, h3, h4, h5, h6, h7, h8, h9, h10, h11, h12, h13, h14, h15, h16, h17, h18, h0, h19, h20, h21, h22, h23, h24, hw0, h25⟩ := h
  obtain ⟨keepAlive, numPre, numPost, main, thread, launched, completed, asked, pre, post, results, procs, output⟩ := s
  simp only at h1 h2 h3
  subst h1 h2 h3
  simp only [step] at hs
  split at hs <;> simp at hs
  subst hs
  inv_clauses

theorem inv_giveUp {k : Bool} {n m : Nat} {steps : List WorkerStep} {s t : Worker} (h : Inv k n m steps s)
    (hs : s.step .giveUp = some t) : Inv k n m (steps ++ [.giveUp]) t := by
  obtain ⟨h1, h2, h3, h4, h5, h6, h7, h8, h9, h10, h11, h12, h13, h14, h15, h16, h17, h18, h0, h19, h20, h21, h22, h23, h24, hw0, h25⟩ := h
  obtain ⟨keepAlive, numPre, numPost, main, thread, launched, completed, asked, pre, post, results, procs, output⟩ := s
  simp only at h1 h2 h3
  subst h1 h2 h3
  simp only [step, callShutdown] at hs
  split at hs <;> simp at hs
  subst hs
  cases main <;> inv_clauses

theorem inv_preTest {k : Bool} {n m : Nat} {steps : List WorkerStep} {s t : Worker} {cs : List ResultCall} (h : Inv k n m steps s)
    (hs : s.step (.preTest cs) = some t) : Inv k n m (steps ++ [.preTest cs]) t := by
  obtain ⟨h1, h2, h3, h4, h5, h6, h7, h8, h9, h10, h11, h12, h13, h14, h15, h16, h17, h18, h0, h19, h20, h21, h22, h23, h24, hw0, h25⟩ := h
  obtain ⟨keepAlive, numPre, numPost, main, thread, launched, completed, asked, pre, post, results, procs, output⟩ := s
  simp only at h1 h2 h3
  subst h1 h2 h3
  simp only [step] at hs
  split at hs <;> simp at hs
  subst hs
  inv_clauses

theorem inv_keep {k : Bool} {n m : Nat} {steps : List WorkerStep} {s t : Worker} (h : Inv k n m steps s)
    (hs : s.step .keep = some t) : Inv k n m (steps ++ [.keep]) t := by
  obtain ⟨h1, h2, h3, h4, h5, h6, h7, h8, h9, h10, h11, h12, h13, h14, h15, h16, h17, h18, h0, h19, h20, h21, h22, h23, h24, hw0, h25⟩ := h
  obtain ⟨keepAlive, numPre, numPost, main, thread, launched, completed, asked, pre, post, results, procs, output⟩ := s
  simp only at h1 h2 h3
  subst h1 h2 h3
  simp only [step] at hs
  split at hs <;> simp at hs
  subst hs
  inv_clauses
  intro x hx
  have := (h23 _ hx).2.1
  cases hsum : summaryError procs output <;> simp [hsum] at this

theorem inv_interrupt {k : Bool} {n m : Nat} {steps : List WorkerStep} {s t : Worker} (h : Inv k n m steps s)
    (hs : s.step .interrupt = some t) : Inv k n m (steps ++ [.interrupt]) t := by
  obtain ⟨h1, h2, h3, h4, h5, h6, h7, h8, h9, h10, h11, h12, h13, h14, h15, h16, h17, h18, h0, h19, h20, h21, h22, h23, h24, hw0, h25⟩ := h
  obtain ⟨keepAlive, numPre, numPost, main, thread, launched, completed, asked, pre, post, results, procs, output⟩ := s
  simp only at h1 h2 h3
  subst h1 h2 h3
  simp only [step] at hs
  split at hs <;> simp at hs
  subst hs
  inv_clauses

theorem inv_complete {k : Bool} {n m : Nat} {steps : List WorkerStep} {s t : Worker} (h : Inv k n m steps s)
    (hs : s.step .complete = some t) : Inv k n m (steps ++ [.complete]) t := by
  obtain ⟨h1, h2, h3, h4, h5, h6, h7, h8, h9, h10, h11, h12, h13, h14, h15, h16, h17, h18, h0, h19, h20, h21, h22, h23, h24, hw0, h25⟩ := h
  obtain ⟨keepAlive, numPre, numPost, main, thread, launched, completed, asked, pre, post, results, procs, output⟩ := s
  simp only at h1 h2 h3
  subst h1 h2 h3
  simp only [step] at hs
  split at hs <;> simp at hs
  subst hs
  inv_clauses

set_option maxHeartbeats 1000000 in
theorem inv_shutdown {k : Bool} {n m : Nat} {steps : List WorkerStep} {s t : Worker} (h : Inv k n m steps s)
    (hs : s.step .shutdown = some t) : Inv k n m (steps ++ [.shutdown]) t := by
  obtain ⟨h1, h2, h3, h4, h5, h6, h7, h8, h9, h10, h11, h12, h13, h14, h15, h16, h17, h18, h0, h19, h20, h21, h22, h23, h24, hw0, h25⟩ := h
  obtain ⟨keepAlive, numPre, numPost, main, thread, launched, completed, asked, pre, post, results, procs, output⟩ := s
  simp only at h1 h2 h3
  subst h1 h2 h3
  simp only [step, callShutdown] at hs
  split at hs <;> simp at hs
  subst hs
  cases main <;> inv_clauses

theorem inv_step {k : Bool} {n m : Nat} {steps : List WorkerStep} {s t : Worker} {a : WorkerStep} (h : Inv k n m steps s)
    (hs : s.step a = some t) : Inv k n m (steps ++ [a]) t := by
  cases a
  · exact inv_startThread h hs
  · exact inv_launch h hs
  · exact inv_ready h hs
  · exact inv_procStart h hs
  · exact inv_procExit h hs
  · exact inv_procOutput h hs
  · exact inv_stop h hs
  · exact inv_look h hs
  · exact inv_postTest h hs
  · exact inv_merge h hs
  · exact inv_wake h hs
  · exact inv_timeout h hs
  · exact inv_giveUp h hs
  · exact inv_preTest h hs
  · exact inv_keep h hs
  · exact inv_interrupt h hs
  · exact inv_complete h hs
  · exact inv_shutdown h hs

theorem inv_run {k : Bool} {n m : Nat} {steps : List WorkerStep} {s : Worker} (h : (init k n m).run steps = some s) : Inv k n m steps s := by
  suffices H : ∀ (bs as : List WorkerStep) (t : Worker), Inv k n m as t → t.run bs = some s → Inv k n m (as ++ bs) s from H steps [] _ (inv_init k n m) h
  intro bs
  induction bs with
  | nil => intro as t h1 h2; cases h2; rw [List.append_nil]; exact h1
  | cons b bs ih =>
    intro as t h1 h2
    simp only [run] at h2
    cases hb : t.step b with
    | none => rw [hb] at h2; cases h2
    | some u =>
      rw [hb] at h2
      have := ih _ u (inv_step h1 hb) h2
      rwa [List.append_assoc] at this

/-- The run has got past the point where it is decided whether the launch died, and it has not. -/
def notDied (s : Worker) : Bool :=
  match s.main with
  | .testing => true
  | .ended .died => false
  | .ended _ => true
  | _ => false

theorem notDied_step {s t : Worker} {a : WorkerStep} (h : s.notDied = true) (hs : s.step a = some t) : t.notDied = true := by
  obtain ⟨keepAlive, numPre, numPost, main, thread, launched, completed, asked, pre, post, results, procs, output⟩ := s
  have hn : running ⟨keepAlive, numPre, numPost, main, thread, launched, completed, asked, pre, post, results, procs, output⟩ = false := by
    cases main <;> first | rfl | cases h
  have keepMain : ∀ u : Worker, u.main = main → u.notDied = true := by
    intro u hu
    simp only [notDied] at h ⊢
    rw [hu]
    exact h
  cases a <;> simp only [step, callShutdown, hn] at hs
  case postTest =>
    split at hs <;> simp at hs
    obtain ⟨_, rfl⟩ := hs
    exact keepMain _ rfl
  case merge =>
    split at hs <;> simp at hs
    obtain ⟨_, hs⟩ := hs
    cases results <;> simp at hs <;> subst hs <;> rfl
  case startThread => split at hs <;> simp at hs; cases h
  case launch => split at hs <;> simp at hs; cases h
  case ready => simp at hs
  case stop => split at hs <;> simp at hs; cases h
  case look => split at hs <;> simp at hs; cases h
  all_goals
    split at hs <;> simp at hs
    subst hs
    exact keepMain _ rfl

theorem notDied_run {s t : Worker} {as : List WorkerStep} (h : s.notDied = true) (hs : s.run as = some t) : t.notDied = true := by
  induction as generalizing s with
  | nil => cases hs; exact h
  | cons a as ih =>
    simp only [run] at hs
    cases ha : s.step a with
    | none => rw [ha] at hs; cases hs
    | some u => rw [ha] at hs; exact ih (notDied_step h ha) hs

/-- Once ended, always ended. -/
theorem ended_run {s t : Worker} {as : List WorkerStep} {e : WorkerEnd} (h : s.main = .ended e) (hs : s.run as = some t) : t.main = .ended e := by
  induction as generalizing s with
  | nil => cases hs; exact h
  | cons a as ih =>
    simp only [run] at hs
    cases ha : s.step a with
    | none => rw [ha] at hs; cases hs
    | some u =>
      rw [ha] at hs
      refine ih ?_ hs
      cases a <;> simp only [step, callShutdown, running, h] at ha <;> (repeat' split at ha) <;> simp only [Option.some.injEq, reduceCtorEq] at ha <;>
        first | (subst ha; exact h) | (subst ha; rfl) | (exfalso; simp_all)

theorem get?_eq_some_iff {V : Type} {d : Dict V} (h : d.Wf) (k : String) (v : V) : d.get? k = some v ↔ (k, v) ∈ d := by
  induction d with
  | nil => simp
  | cons p d ih =>
    obtain ⟨k', v'⟩ := p
    simp only [Dict.Wf, Dict.keys, List.map_cons, List.nodup_cons] at h
    simp only [Dict.get?, List.mem_cons, Prod.mk.injEq]
    by_cases hk : k' = k
    · subst hk
      simp only [if_true, Option.some.injEq, true_and]
      constructor
      · intro h1; exact .inl h1.symm
      · rintro (h1 | h1)
        · exact h1.symm
        · exact absurd (List.mem_map_of_mem (f := (·.1)) h1) h.1
    · rw [if_neg hk, ih h.2]
      simp [Ne.symm hk]

/-- What the summary raises, in terms of what happened. -/
theorem summaryError_eq {k : Bool} {n m : Nat} {steps : List WorkerStep} {s : Worker} (I : Inv k n m steps s) :
    (Unexited steps → summaryError s.procs s.output = some .attributeError) ∧
    (¬ Unexited steps → Unprintable steps → summaryError s.procs s.output = some .valueError) ∧
    (¬ Unexited steps → ¬ Unprintable steps → summaryError s.procs s.output = none) := by
  have h1 : s.procs.any (fun p => p.2.isNone) = true ↔ Unexited steps := by
    simp only [List.any_eq_true, Unexited, ← I.procs, get?_eq_some_iff I.wf]
    constructor
    · rintro ⟨⟨p, o⟩, h2, h3⟩
      cases o with
      | none => exact ⟨p, h2⟩
      | some _ => cases h3
    · rintro ⟨p, h2⟩; exact ⟨_, h2, rfl⟩
  have h2 : ¬ Unexited steps → (s.procs.any (fun p => decide (p.2 ≠ some 0) && s.output.any (fun o => decide (o.1 = p.1) && o.2.any (fun b => decide (128 ≤ b)))) = true ↔
      Unprintable steps) := by
    intro hu
    simp only [List.any_eq_true, Unprintable, ← I.procs, ← I.output, get?_eq_some_iff I.wf, Bool.and_eq_true, decide_eq_true_eq]
    constructor
    · rintro ⟨⟨p, o⟩, h3, h4, ⟨q, x⟩, h5, h6, b, h7, h8⟩
      cases o with
      | none => exact absurd ⟨p, by rw [← I.procs]; exact (get?_eq_some_iff I.wf _ _).2 h3⟩ hu
      | some rc =>
        simp only at h6
        subst h6
        exact ⟨q, rc, h3, fun h => h4 (by simp [h]), x, h5, b, h7, h8⟩
    · rintro ⟨p, rc, h3, h4, x, h5, b, h7, h8⟩
      exact ⟨_, h3, by simpa using h4, _, h5, rfl, b, h7, h8⟩
  refine ⟨fun h => ?_, fun h h' => ?_, fun h h' => ?_⟩
  · rw [summaryError, if_pos (h1.2 h)]
  · rw [summaryError, if_neg (fun x => h (h1.1 x)), if_pos ((h2 h).2 h')]
  · rw [summaryError, if_neg (fun x => h (h1.1 x)), if_neg (fun x => h' ((h2 h).1 x))]

end Worker
end Verif
