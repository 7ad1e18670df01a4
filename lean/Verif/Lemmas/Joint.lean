import Verif.Spec.Joint
import Verif.Lemmas.ExecuteLocal
import Verif.Lemmas.Run

/-! # Lemmas about the service and its processes with one queue -/

namespace Verif
namespace ProcAct

/-- The action with more events before those in its queue. -/
def pre (q : List ProcEv) (a : ProcAct) : ProcAct := { a with queue := q ++ a.queue }

theorem shutdownProcess_pre (b : Bool) (q : List ProcEv) (a : ProcAct) : (a.pre q).shutdownProcess b = (a.shutdownProcess b).pre q := by
  unfold shutdownProcess pre
  simp only
  repeat' split
  all_goals simp

theorem deferred_pre (q : List ProcEv) (bs : List Bool) : ∀ a : ProcAct,
    bs.foldl (fun a b => a.shutdownProcess b) (a.pre q) = (bs.foldl (fun a b => a.shutdownProcess b) a).pre q := by
  induction bs with
  | nil => intro a; rfl
  | cons b bs ih => intro a; rw [List.foldl_cons, List.foldl_cons, shutdownProcess_pre, ih]

theorem onSignal_pre (s : Sig) (o : Bool) (q : List ProcEv) (a : ProcAct) : (a.pre q).onSignal s o = (a.onSignal s o).pre q := by
  have h1 : (a.pre q).transport = a.transport := rfl
  have h2 : ∀ n, (a.pre q).complete n = a.complete n := fun _ => rfl
  unfold onSignal
  rw [h1]
  cases a.transport with
  | none => rfl
  | some n => simp only [h2]; split <;> rfl

/-- Handling an event does not depend on the events after it. -/
theorem process_pre (c : ProcCfg) (e : ProcEv) (q : List ProcEv) (a : ProcAct) :
    process c { a with queue := e :: q } = (process c { a with queue := [e] }).map (pre q) := by
  have hp : ({ a with queue := q } : ProcAct) = pre q { a with queue := [] } := by simp [pre]
  cases e with
  | shutdownProcess m =>
    simp only [process, Option.map_some, hp]
    split
    · rw [shutdownProcess_pre]
    · rfl
  | signal s m o =>
    simp only [process, Option.map_some, hp]
    split
    · rw [onSignal_pre]
    · rfl
  | shutdown sig =>
    simp only [process, Option.map_some]
    have hp : ({ a with queue := q, ctxShut := true } : ProcAct) = pre q { a with queue := [], ctxShut := true } := by simp [pre]
    split
    · rename_i h
      rw [hp, shutdownProcess_pre]
    · rw [hp]
  | started n => simp only [process, Option.map_some, hp, deferred_pre]
  | otherStarted => simp only [process, Option.map_some, hp, deferred_pre]
  | exited n code => simp only [process, Option.map_some, hp]
  | timer s => simp [process, pre]

theorem observe_pre (c : ProcCfg) (n : Nat) (code : Int) (q : List ProcEv) (a : ProcAct) :
    (a.pre q).observe c n code = (a.observe c n code).pre q := by
  unfold ProcAct.observe
  by_cases h : (!a.ctxShut && a.shut = .pending && c.respawn && (c.maxRetries < 0 || (a.retries : Int) < c.maxRetries)) = true
  · have h' : (!(a.pre q).ctxShut && (a.pre q).shut = .pending && c.respawn &&
      (c.maxRetries < 0 || ((a.pre q).retries : Int) < c.maxRetries)) = true := h
    simp only
    rw [if_pos h, if_pos h']
    simp [pre]
  · have h' : ¬(!(a.pre q).ctxShut && (a.pre q).shut = .pending && c.respawn &&
      (c.maxRetries < 0 || ((a.pre q).retries : Int) < c.maxRetries)) = true := h
    simp only
    rw [if_neg h, if_neg h']
    simp [pre, cleanup]

/-- No other step depends on the events in the queue. -/
theorem step_pre (c : ProcCfg) (q : List ProcEv) (a : ProcAct) (l : ProcLabel) (hl : l ≠ .process) :
    (a.pre q).step c l = (a.step c l).map (pre q) := by
  cases l with
  | process => exact absurd rfl hl
  | execute =>
    simp only [step, Option.map_some, execute]
    have h1 : (a.pre q).executed = a.executed := rfl
    have h2 : (a.pre q).ctxShut = a.ctxShut := rfl
    simp only [h1, h2]
    split
    · rfl
    · split <;> rfl
  | begin ok => by_cases h : a.task = .scheduled <;> simp [step, pre, h]
  | spawn => by_cases h : a.task = .starting <;> simp [step, pre, h]
  | spawnFail => by_cases h : a.task = .starting <;> simp [step, pre, h, cleanup]
  | attach =>
    have h1 : (a.pre q).task = a.task := rfl
    simp only [step, h1]
    split <;> simp [pre]
  | procExit n code => by_cases h : a.procs[n]? = some none <;> simp [step, pre, h]
  | observe =>
    have h1 : (a.pre q).task = a.task := rfl
    have h2 : (a.pre q).procs = a.procs := rfl
    simp only [step, h1, h2]
    split
    · split
      · rw [observe_pre]; rfl
      · rfl
    · rfl
  | delayOver =>
    by_cases h : a.task = .delaying
    · by_cases h' : a.shut = .done <;> simp [step, pre, h, h', cleanup]
    · simp [step, pre, h]
  | timerBegin s =>
    simp only [step]
    have : (a.pre q).timerOf s = a.timerOf s := by cases s <;> rfl
    rw [this]
    split
    · cases s <;> rfl
    · rfl
  | timerFire s =>
    simp only [step]
    have : (a.pre q).timerOf s = a.timerOf s := by cases s <;> rfl
    rw [this]
    split
    · have e : (a.pre q).now = a.now := rfl
      rw [e]
      split
      · cases s <;> simp [pre, setTimer]
      · rfl
    · rfl
  | tick => rfl
  | setShut => rfl
  | emit e => simp only [step]; split <;> simp [pre]
  | ask b => simp only [step, Option.map_some, shutdownProcess_pre]

theorem emits_run (c : ProcCfg) (es : List ProcEv) : ∀ a : ProcAct, (∀ e ∈ es, foreign e = true) →
    runSteps (step c) a (es.map .emit) = some { a with queue := a.queue ++ es } := by
  induction es with
  | nil => intro a _; simp [runSteps]
  | cons e es ih =>
    intro a h
    simp only [List.map_cons, runSteps, step, h e List.mem_cons_self, if_true]
    rw [ih _ fun x hx => h x (List.mem_cons_of_mem _ hx)]
    simp

theorem ticks_run (c : ProcCfg) (n : Nat) : ∀ a : ProcAct, runSteps (step c) a (List.replicate n .tick) = some { a with now := a.now + n } := by
  induction n with
  | zero => intro a; rfl
  | succ n ih =>
    intro a
    simp only [List.replicate_succ, runSteps, step]
    rw [ih]
    simp only [Option.some.injEq, mk.injEq, true_and, and_true]
    omega

theorem shutdownProcess_one (b : Bool) (a : ProcAct) (h : a.queue = []) :
    (a.shutdownProcess b).queue.length ≤ 1 ∧ ((a.shutdownProcess b).queue = [] ∨ (a.shutdownProcess b).shut = .done) := by
  unfold shutdownProcess
  repeat' split
  all_goals simp [h]
  all_goals (cases b <;> simp)

theorem deferred_one (bs : List Bool) : ∀ a : ProcAct, a.queue = [] → (bs.foldl (fun a b => a.shutdownProcess b) a).queue.length ≤ 1 := by
  induction bs with
  | nil => intro a h; simp [h]
  | cons b bs ih =>
    intro a h
    rw [List.foldl_cons]
    obtain ⟨h1, h2 | h2⟩ := shutdownProcess_one b a h
    · exact ih _ h2
    · have e : ∀ x : ProcAct, x.shut = .done → bs.foldl (fun a b => a.shutdownProcess b) x = x := by
        intro x hx
        clear ih h1 h2 h
        induction bs with
        | nil => rfl
        | cons b' bs ih2 =>
          rw [List.foldl_cons]
          have : x.shutdownProcess b' = x := by unfold shutdownProcess; simp [hx]
          rw [this]; exact ih2
      rw [e _ h2]; exact h1

/-- While an event is handled the action emits at most one event. -/
theorem handle_one (c : ProcCfg) (a : ProcAct) (e : Option ProcEv) : (a.handle c e).2.length ≤ 1 := by
  cases e with
  | none => exact Nat.zero_le _
  | some e =>
    simp only [handle]
    cases e with
    | shutdownProcess m =>
      simp only [process]
      split
      · exact (shutdownProcess_one _ _ rfl).1
      · exact Nat.zero_le _
    | signal s m o =>
      simp only [process]
      split
      · unfold onSignal; repeat' split
        all_goals exact Nat.zero_le _
      · exact Nat.zero_le _
    | shutdown sig =>
      simp only [process]
      split
      · exact (shutdownProcess_one _ _ rfl).1
      · exact Nat.zero_le _
    | started n => exact deferred_one _ _ rfl
    | otherStarted => exact deferred_one _ _ rfl
    | exited n code => exact Nat.zero_le _
    | timer s => exact Nat.le_refl _

theorem handle_queue (c : ProcCfg) (a : ProcAct) (e : Option ProcEv) (h : a.queue = []) : (a.handle c e).1.queue = [] := by
  cases e with
  | none => exact h
  | some e => simp only [handle]; split <;> first | exact h | rfl

/-- A list with at most one element of some kind. -/
theorem split_one {α : Type} (p : α → Bool) (l d : List α) (h : l.filter p = d) (hd : d.length ≤ 1) :
    ∃ l1 l2, l = l1 ++ d ++ l2 ∧ (∀ x ∈ l1, p x = false) ∧ (∀ x ∈ l2, p x = false) := by
  induction l generalizing d with
  | nil => subst h; exact ⟨[], [], by simp, by simp, by simp⟩
  | cons x l ih =>
    cases hx : p x with
    | false =>
      rw [List.filter_cons_of_neg (by simp [hx])] at h
      obtain ⟨l1, l2, e, h1, h2⟩ := ih d h hd
      refine ⟨x :: l1, l2, by rw [e]; simp, ?_, h2⟩
      intro y hy
      rcases List.mem_cons.mp hy with z | z
      · rw [z]; exact hx
      · exact h1 y z
    | true =>
      rw [List.filter_cons_of_pos hx] at h
      subst h
      have : l.filter p = [] := by
        apply List.eq_nil_of_length_eq_zero
        simp at hd ⊢
        exact hd
      refine ⟨[], l, by simp [this], by simp, ?_⟩
      intro y hy
      have := (List.filter_eq_nil_iff.mp this) y hy
      simpa using this

/-- The handling of the next event, with events of others emitted before and after what the action itself emits, is a run of the model of a single action. -/
theorem handle_run (c : ProcCfg) (a : ProcAct) (e : ProcEv) (rest q : List ProcEv) (h : q.filter (fun x => !foreign x) = (a.handle c (some e)).2) :
    ∃ ls, runSteps (step c) { a with queue := e :: rest } ls = some { (a.handle c (some e)).1 with queue := rest ++ q } ∧
      ∀ l ∈ ls, l = .process ∨ ∃ x ∈ q, foreign x = true ∧ l = .emit x := by
  obtain ⟨q1, q2, he, h1, h2⟩ := split_one _ q _ h (handle_one c a (some e))
  have h1 : ∀ x ∈ q1, foreign x = true := fun x hx => by simpa using h1 x hx
  have h2 : ∀ x ∈ q2, foreign x = true := fun x hx => by simpa using h2 x hx
  refine ⟨q1.map .emit ++ .process :: q2.map .emit, ?_, ?_⟩
  · rw [runSteps_append, emits_run c q1 _ h1]
    simp only [Option.bind_some, runSteps, step]
    have e1 := process_pre c e (rest ++ q1) a
    simp only [List.cons_append] at e1 ⊢
    rw [e1]
    have hs : ∃ a', process c { a with queue := [e] } = some a' := by cases e <;> exact ⟨_, rfl⟩
    obtain ⟨a', ha'⟩ := hs
    rw [ha']
    simp only [Option.map_some]
    rw [emits_run c q2 _ h2, he]
    simp [handle, ha', pre]
  · intro l hl
    rcases List.mem_append.mp hl with x | x
    · obtain ⟨y, hy, rfl⟩ := List.mem_map.mp x
      exact .inr ⟨y, by rw [he]; simp [hy], h1 y hy, rfl⟩
    · rcases List.mem_cons.mp x with x | x
      · exact .inl x
      · obtain ⟨y, hy, rfl⟩ := List.mem_map.mp x
        exact .inr ⟨y, by rw [he]; simp [hy], h2 y hy, rfl⟩

end ProcAct
end Verif
