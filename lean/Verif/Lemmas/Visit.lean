import Verif.Model.Visit
import Verif.Lemmas.SubstOps

/-! # Lemmas about visiting -/

namespace Verif

/-- The registered handlers are those registered and not removed. -/
def Kept (c c' : Ctx) : Prop := ∀ k, c.unregistered.count k ≤ c'.unregistered.count k ∧ c.registered.count k ≤ c'.registered.count k ∧
  c'.handlers.count k + c'.unregistered.count k + c.registered.count k = c.handlers.count k + c.unregistered.count k + c'.registered.count k

theorem Kept.same {c c' : Ctx} (h1 : c'.handlers = c.handlers) (h2 : c'.registered = c.registered) (h3 : c'.unregistered = c.unregistered) :
    Kept c c' := by
  intro k
  rw [h1, h2, h3]
  exact ⟨Nat.le_refl _, Nat.le_refl _, by omega⟩

theorem Kept.trans {a b c : Ctx} (h1 : Kept a b) (h2 : Kept b c) : Kept a c := by
  intro k
  have := h1 k
  have := h2 k
  omega

/-- What no visited entity can take back. -/
structure Mono (c c' : Ctx) : Prop where
  queue : ∃ q, c'.queue = c.queue ++ q
  trace : ∃ t, c'.trace = c.trace ++ t
  completion : ∃ t, c'.completion = c.completion ++ t
  onDone : ∃ t, c'.onDone = c.onDone ++ t
  envReset : c'.envReset = c.envReset
  isShutdown : c'.isShutdown = c.isShutdown
  localsStack : c'.locals.stack = c.locals.stack
  nextFut : c.nextFut ≤ c'.nextFut
  srcLoc : ∀ s l, c.srcLoc.lookup s = some l → c'.srcLoc.lookup s = some l
  emitted : ∃ q, c'.queue = c.queue ++ q ∧ c'.emitted = c.emitted ++ q
  handlers : ∀ h, c'.handlers.count h + c.registered.count h ≤ c.handlers.count h + c'.registered.count h
  kept : Kept c c'

theorem Mono.refl (c : Ctx) : Mono c c :=
  ⟨⟨[], by simp⟩, ⟨[], by simp⟩, ⟨[], by simp⟩, ⟨[], by simp⟩, rfl, rfl, rfl, Nat.le_refl _, fun _ _ h => h, ⟨[], by simp⟩, fun _ => Nat.le_refl _, Kept.same rfl rfl rfl⟩

theorem Mono.trans {a b c : Ctx} (h1 : Mono a b) (h2 : Mono b c) : Mono a c := by
  obtain ⟨⟨q1, e1⟩, ⟨t1, f1⟩, ⟨p1, g1⟩, ⟨d1, k1⟩, r1, s1, l1, n1, m1, ⟨v1, w1, x1⟩, y1, z1⟩ := h1
  obtain ⟨⟨q2, e2⟩, ⟨t2, f2⟩, ⟨p2, g2⟩, ⟨d2, k2⟩, r2, s2, l2, n2, m2, ⟨v2, w2, x2⟩, y2, z2⟩ := h2
  exact ⟨⟨q1 ++ q2, by rw [e2, e1, List.append_assoc]⟩, ⟨t1 ++ t2, by rw [f2, f1, List.append_assoc]⟩,
    ⟨p1 ++ p2, by rw [g2, g1, List.append_assoc]⟩, ⟨d1 ++ d2, by rw [k2, k1, List.append_assoc]⟩,
    r2.trans r1, s2.trans s1, l2.trans l1, Nat.le_trans n1 n2, fun s l h => m2 s l (m1 s l h),
    ⟨v1 ++ v2, by rw [w2, w1, List.append_assoc], by rw [x2, x1, List.append_assoc]⟩,
    fun h => by have := y1 h; have := y2 h; omega, z1.trans z2⟩

/-- Changes only to configurations, environment, their stacks and the random source. -/
theorem Mono.ofScope {c c' : Ctx} (h : c' = { c with lc := c'.lc, lcStack := c'.lcStack, env := c'.env, envStack := c'.envStack, rng := c'.rng }) :
    Mono c c' := by
  rw [h]
  exact ⟨⟨[], by simp⟩, ⟨[], by simp⟩, ⟨[], by simp⟩, ⟨[], by simp⟩, rfl, rfl, rfl, Nat.le_refl _, fun _ _ h => h, ⟨[], by simp⟩, fun _ => Nat.le_refl _, Kept.same rfl rfl rfl⟩

theorem AnonExt.mono {c c' : Ctx} (h : AnonExt c c') : Mono c c' := by
  apply Mono.ofScope
  have := h.rest
  rw [this]

/-- Both scope stacks are unchanged. -/
structure SameStacks (c c' : Ctx) : Prop where
  lc : c'.lcStack = c.lcStack
  env : c'.envStack = c.envStack

theorem SameStacks.refl (c : Ctx) : SameStacks c c := ⟨rfl, rfl⟩

theorem SameStacks.trans {a b c : Ctx} (h1 : SameStacks a b) (h2 : SameStacks b c) : SameStacks a c :=
  ⟨h2.lc.trans h1.lc, h2.env.trans h1.env⟩

theorem AnonExt.stacks {c c' : Ctx} (h : AnonExt c c') : SameStacks c c' := by
  have := h.rest
  constructor <;> rw [this]

/-- Both of the above. -/
structure Step (c c' : Ctx) : Prop extends Mono c c', SameStacks c c'

theorem Step.refl (c : Ctx) : Step c c := ⟨Mono.refl c, SameStacks.refl c⟩

theorem Step.trans {a b c : Ctx} (h1 : Step a b) (h2 : Step b c) : Step a c :=
  ⟨h1.toMono.trans h2.toMono, h1.toSameStacks.trans h2.toSameStacks⟩

theorem AnonExt.step {c c' : Ctx} (h : AnonExt c c') : Step c c' := ⟨h.mono, h.stacks⟩

theorem Step.of {c c' : Ctx} (h1 : Mono c c') (h2 : c'.lcStack = c.lcStack) (h3 : c'.envStack = c.envStack) :
    Step c c' := ⟨h1, ⟨h2, h3⟩⟩

theorem Step.scope {c : Ctx} (lc env : Dict String) : Step c { c with lc := lc, env := env } :=
  Step.of (Mono.ofScope rfl) rfl rfl

/-- A computation all of whose runs are steps. -/
def Steps {α : Type} (m : M α) : Prop := ∀ c, Step c (m c).1

theorem Frames.steps {α : Type} {m : M α} (h : Frames m) : Steps m := fun c => (h c).step

theorem Steps.bind {α β : Type} {m : M α} {f : α → M β} (hm : Steps m) (hf : ∀ a, Steps (f a)) :
    Steps (M.bind m f) := by
  intro c
  have h := hm c
  unfold M.bind
  split
  · rename_i e heq; rw [heq] at h; exact h
  · rename_i e heq; rw [heq] at h; exact h.trans (hf _ _)

theorem performSubs_steps (O : Oracle) (s : List Sub) : Steps (performSubs O s) :=
  (performSubs_frames O s).steps

theorem envSet_step (c : Ctx) (k v : String) : Step c (c.envSet k v).1 := by
  unfold Ctx.envSet
  split
  · exact Step.scope c.lc _
  · exact Step.refl c

theorem lcSet_step (c : Ctx) (k v : String) : Step c (c.lcSet k v) := Step.scope (c.lc.set k v) c.env

theorem emit_step (c : Ctx) (e : Event) : Step c (c.emit e) :=
  Step.of ⟨⟨[e], rfl⟩, ⟨[], by simp [Ctx.emit]⟩, ⟨[], by simp [Ctx.emit]⟩, ⟨[], by simp [Ctx.emit]⟩,
    rfl, rfl, rfl, Nat.le_refl _, fun _ _ h => h, ⟨[e], rfl, rfl⟩, fun _ => Nat.le_refl _, Kept.same rfl rfl rfl⟩ rfl rfl

theorem handlers_step (c : Ctx) (hs rs us : List Nat) (hk : Kept c { c with handlers := hs, registered := rs, unregistered := us }) :
    Step c { c with handlers := hs, registered := rs, unregistered := us } :=
  Step.of ⟨⟨[], by simp⟩, ⟨[], by simp⟩, ⟨[], by simp⟩, ⟨[], by simp⟩,
    rfl, rfl, rfl, Nat.le_refl _, fun _ _ h => h, ⟨[], by simp⟩, fun h => by
      have := hk h
      simp only at this ⊢
      omega, hk⟩ rfl rfl

theorem register_step (c : Ctx) (h : Nat) (a : Bool) : Step c (c.registerHandler h a) := by
  refine handlers_step c _ _ c.unregistered fun k => ?_
  cases a <;> simp [List.count_append, List.count_cons] <;> omega

theorem unregister_step (c : Ctx) (h : Nat) : Step c (c.unregisterHandler h).1 := by
  unfold Ctx.unregisterHandler
  split
  · rename_i hm
    refine handlers_step c _ c.registered _ fun k => ?_
    have hpos : 0 < c.handlers.count h := List.count_pos_iff.2 hm
    simp only [List.count_append, List.count_cons, List.count_nil, List.count_erase]
    by_cases hk : h = k
    · subst hk; simp; omega
    · simp [hk]
  · exact Step.refl c

theorem locals_step (c : Ctx) (l : Locals) (h : l.stack = c.locals.stack) : Step c { c with locals := l } :=
  Step.of ⟨⟨[], by simp⟩, ⟨[], by simp⟩, ⟨[], by simp⟩, ⟨[], by simp⟩,
    rfl, rfl, h, Nat.le_refl _, fun _ _ h => h, ⟨[], by simp⟩, fun _ => Nat.le_refl _, Kept.same rfl rfl rfl⟩ rfl rfl

theorem logged_step (c : Ctx) (l : List String) : Step c { c with logged := l } :=
  Step.of ⟨⟨[], by simp⟩, ⟨[], by simp⟩, ⟨[], by simp⟩, ⟨[], by simp⟩, rfl, rfl, rfl, Nat.le_refl _, fun _ _ h => h, ⟨[], by simp⟩, fun _ => Nat.le_refl _, Kept.same rfl rfl rfl⟩ rfl rfl

theorem applyEffect_step (self : Option ActId) (c : Ctx) (e : Effect) :
    Step c (Entity.applyEffect self c e) := by
  cases e with
  | setLC k v => exact lcSet_step c k v
  | unsetLC k => exact Step.scope (c.lc.erase k) c.env
  | setEnv k v => exact envSet_step c k v
  | unsetEnv k => exact Step.scope c.lc (c.env.erase k)
  | extendLocals d => exact locals_step c _ rfl
  | extendGlobals d => exact locals_step c _ rfl
  | emit e => exact emit_step c e
  | register h a => exact register_step c h a
  | unregister h => exact unregister_step c h
  | newFuture =>
    unfold Entity.applyEffect
    cases self with
    | none => exact Step.refl c
    | some a =>
      exact Step.of ⟨⟨[], by simp⟩, ⟨[], by simp⟩, ⟨[], by simp⟩, ⟨[], by simp⟩,
        rfl, rfl, rfl, Nat.le_succ _, fun _ _ h => h, ⟨[], by simp⟩, fun _ => Nat.le_refl _, Kept.same rfl rfl rfl⟩ rfl rfl
  | capture =>
    unfold Entity.applyEffect
    cases self with
    | none => exact Step.refl c
    | some a =>
      exact Step.of ⟨⟨[], by simp⟩, ⟨[], by simp⟩, ⟨[], by simp⟩, ⟨[], by simp⟩,
        rfl, rfl, rfl, Nat.le_refl _, fun _ _ h => h, ⟨[], by simp⟩, fun _ => Nat.le_refl _, Kept.same rfl rfl rfl⟩ rfl rfl
  | addCompletion f =>
    exact Step.of ⟨⟨[], by simp [Entity.applyEffect]⟩, ⟨[], by simp [Entity.applyEffect]⟩, ⟨[f], rfl⟩,
      ⟨[], by simp [Entity.applyEffect]⟩,
      rfl, rfl, rfl, Nat.le_refl _, fun _ _ h => h, ⟨[], by simp [Entity.applyEffect]⟩,
      fun _ => Nat.le_refl _, Kept.same rfl rfl rfl⟩ rfl rfl

theorem applyEffects_step (self : Option ActId) (c : Ctx) (es : List Effect) :
    Step c (Entity.applyEffects self c es) := by
  induction es generalizing c with
  | nil => exact Step.refl c
  | cons e es ih => exact (applyEffect_step self c e).trans (ih _)

theorem condEval_frames (O : Oracle) (preds : Nat → Ctx → Res Bool) (cd : Option Cond) :
    Frames (condEval O preds cd) := by
  have hE : ∀ e, Frames (evalConditionExpr O e) := fun e =>
    (performSubs_frames O e).bind fun _ => Frames.lift _
  have hL : ∀ n v, Frames (lcEqualsEval O n v) := by
    intro n v
    refine (performOpt_frames O v).bind fun e => ?_
    intro c
    dsimp only
    split <;> exact AnonExt.refl c
  cases cd with
  | none => exact Frames.pure _
  | some cd =>
    cases cd with
    | ifC e => exact hE e
    | unlessC e => exact (hE e).bind fun _ => Frames.pure _
    | lcEquals n v => exact hL n v
    | lcNotEquals n v => exact (hL n v).bind fun _ => Frames.pure _
    | pred n => exact fun c => AnonExt.refl c
    | noPred => exact Frames.pure _

theorem lookup_cons_keep {s src : Nat} {l l' : String} {t : List (Nat × String)}
    (h : t.lookup src = none) (hs : t.lookup s = some l) : ((src, l') :: t).lookup s = some l := by
  rw [List.lookup_cons]
  by_cases hc : s = src
  · subst hc; rw [h] at hs; cases hs
  · have : (s == src) = false := by simp [hc]
    rw [this]; exact hs

theorem getDescription_step (P : Prog) (O : Oracle) (src : Nat) (c : Ctx) :
    Step c (getDescription P O src c).1 := by
  unfold getDescription
  have key : ∀ (c1 : Ctx) (loc : String), Step c c1 →
      Step c (match (P.source src).load loc with
        | .error e => ((c1, .error e) : Ctx × Res (List Entity))
        | .ok es => ({ c1 with srcLoaded := src :: c1.srcLoaded }, .ok es)).1 := by
    intro c1 loc h
    cases (P.source src).load loc with
    | error e => exact h
    | ok es =>
      exact h.trans (Step.of ⟨⟨[], by simp⟩, ⟨[], by simp⟩, ⟨[], by simp⟩, ⟨[], by simp⟩,
        rfl, rfl, rfl, Nat.le_refl _, fun _ _ h => h, ⟨[], by simp⟩, fun _ => Nat.le_refl _, Kept.same rfl rfl rfl⟩ rfl rfl)
  cases hl : c.srcLoc.lookup src with
  | some l => exact key c l (Step.refl c)
  | none =>
    have hf := performSubs_frames O (P.source src).location c
    cases hp : performSubs O (P.source src).location c with
    | mk c1 r =>
      rw [hp] at hf
      have hs : Step c c1 := hf.step
      cases r with
      | error e => exact hs
      | ok l =>
        apply key
        refine hs.trans (Step.of ⟨⟨[], by simp⟩, ⟨[], by simp⟩, ⟨[], by simp⟩, ⟨[], by simp⟩,
          rfl, rfl, rfl, Nat.le_refl _, ?_, ⟨[], by simp⟩, fun _ => Nat.le_refl _, Kept.same rfl rfl rfl⟩ rfl rfl)
        intro s l' h
        have h0 : c1.srcLoc = c.srcLoc := by have h1 : c1 = _ := hf.rest; rw [h1]
        exact lookup_cons_keep (by rw [h0]; exact hl) h

theorem performNames_frames (O : Oracle) (args : List (List Sub × List Sub)) :
    Frames (performNames O args) := by
  induction args with
  | nil => exact Frames.pure _
  | cons a as ih =>
    exact (performSubs_frames O a.1).bind fun _ => ih.bind fun _ => Frames.pure _

theorem evalKeep_frames (O : Oracle) (ks : List (List Sub × List Sub)) (acc : Dict String) :
    Frames (evalKeep O ks acc) := by
  induction ks generalizing acc with
  | nil => exact Frames.pure _
  | cons a as ih =>
    exact (performSubs_frames O a.1).bind fun _ => (performSubs_frames O a.2).bind fun _ => ih _

theorem evalPrepend_frames (O : Oracle) (p : Bool ⊕ List Sub) : Frames (evalPrepend O p) := by
  cases p with
  | inl b => exact Frames.pure _
  | inr s => exact Frames.typedBool (performSubs_frames O s)

/-- The kinds that move a scope stack. -/
def ActKind.isScope : ActKind → Bool
  | .pushLC | .popLC | .pushEnv | .popEnv => true
  | _ => false

theorem executeInclude_step {P : Prog} {O : Oracle} {fuel : Nat} {id : ActId} {src : Nat}
    {args : List (List Sub × List Sub)} {c c' : Ctx} {r : Res (List Entity)}
    (h : executeInclude P O fuel id src args c = some (c', r)) : Step c c' := by
  unfold executeInclude at h
  have hd := getDescription_step P O src c
  cases hg : getDescription P O src c with
  | mk c1 r1 =>
    rw [hg] at h hd
    cases r1 with
    | error e => simp at h; rw [← h.1]; exact hd
    | ok es =>
      simp only at h
      generalize hl2 : ((c1.locals.extendLocals
        [("current_launch_file_path", LVal.str (P.launchFile ((c1.srcLoc.lookup src).getD "")).1)]).extendLocals
          [("current_launch_file_directory", LVal.str (P.launchFile ((c1.srcLoc.lookup src).getD "")).2)]) = l2 at h
      have hstk : l2.stack = c1.locals.stack := by rw [← hl2]; rfl
      have hs2 := hd.trans (locals_step c1 l2 hstk)
      have hp := performNames_frames O args { c1 with locals := l2 }
      cases hn : performNames O args { c1 with locals := l2 } with
      | mk c3 r3 =>
        rw [hn] at h hp
        have hs3 := hs2.trans hp.step
        cases r3 with
        | error e => simp at h; rw [← h.1]; exact hs3
        | ok names =>
          simp only at h
          repeat' split at h
          all_goals first | (simp at h; done) | skip
          all_goals (simp at h; rw [← h.1]; exact hs3)

/-- Executing an action that is not itself a push or pop is a step. -/
theorem execute_step {P : Prog} {O : Oracle} {fuel : Nat} {id : ActId} {kind : ActKind} {c c' : Ctx}
    {r : Res (List Entity)} (hk : kind.isScope = false)
    (h : execute P O fuel id kind c = some (c', r)) : Step c c' := by
  have fin : ∀ (m : M (List Entity)), Steps m → some (m c) = some (c', r) → Step c c' := by
    intro m hm he
    have := hm c
    rw [Option.some.inj he] at this
    exact this
  cases kind with
  | setLC n v =>
    refine fin _ ?_ h
    exact (performSubs_steps O v).bind fun vs => (performSubs_steps O n).bind fun ns c => lcSet_step c ns vs
  | unsetLC n =>
    refine fin _ ?_ h
    exact (performSubs_steps O n).bind fun ns c => Step.scope (c.lc.erase ns) c.env
  | resetLC keep =>
    cases keep with
    | none => simp [execute] at h; rw [← h.1]; exact Step.scope [] c.env
    | some k =>
      refine fin _ ?_ h
      exact (evalKeep_frames O k []).steps.bind fun d c => Step.scope (Dict.update [] d) c.env
  | setEnv n v =>
    refine fin _ ?_ h
    exact (performSubs_steps O v).bind fun vs => (performSubs_steps O n).bind fun ns c => envSet_step c ns vs
  | unsetEnv n =>
    refine fin _ ?_ h
    exact (performSubs_steps O n).bind fun ns c => Step.scope c.lc (c.env.erase ns)
  | appendEnv n v p sep =>
    refine fin _ ?_ h
    exact (performSubs_steps O n).bind fun ns => (performSubs_steps O v).bind fun vs =>
      (evalPrepend_frames O p).steps.bind fun pb => (performSubs_steps O sep).bind fun ss c =>
      envSet_step c ns _
  | resetEnv => simp [execute] at h; rw [← h.1]; exact Step.scope c.lc _
  | group s f cfg as => simp [execute] at h; rw [← h.1]; exact Step.refl c
  | includeLD src args => exact executeInclude_step h
  | declareArg name d ch =>
    refine fin _ ?_ h
    refine Steps.bind ?_ ?_
    · intro c
      dsimp only
      split
      · exact Step.refl c
      · split
        · exact Step.refl c
        · exact (performSubs_steps O _).bind (fun v c => lcSet_step c name v) c
    · intro _ c
      dsimp only
      repeat' split
      all_goals exact Step.refl c
  | logInfo msg =>
    refine fin _ ?_ h
    exact (performSubs_steps O msg).bind fun m c => logged_step c (c.logged ++ [m])
  | emitEvent e => simp [execute] at h; rw [← h.1]; exact emit_step c e
  | registerHandler hh d => simp [execute] at h; rw [← h.1]; exact register_step c _ _
  | unregisterHandler hh => simp [execute] at h; rw [← h.1]; exact unregister_step c hh
  | custom fn d => simp [execute] at h; rw [← h.1]; exact applyEffects_step _ c _
  | pushLC => simp [ActKind.isScope] at hk
  | popLC => simp [ActKind.isScope] at hk
  | pushEnv => simp [ActKind.isScope] at hk
  | popEnv => simp [ActKind.isScope] at hk

theorem execute_mono {P : Prog} {O : Oracle} {fuel : Nat} {id : ActId} {kind : ActKind} {c c' : Ctx}
    {r : Res (List Entity)} (h : execute P O fuel id kind c = some (c', r)) : Mono c c' := by
  cases hk : kind.isScope with
  | false => exact (execute_step hk h).toMono
  | true =>
    cases kind <;> simp [ActKind.isScope] at hk
    · simp [execute] at h; rw [← h.1]; exact Mono.ofScope rfl
    · simp [execute, Ctx.popLC] at h; rw [← h.1]; split <;> first | exact Mono.ofScope rfl | exact Mono.refl c
    · simp [execute] at h; rw [← h.1]; exact Mono.ofScope rfl
    · simp [execute, Ctx.popEnv] at h; rw [← h.1]; split <;> first | exact Mono.ofScope rfl | exact Mono.refl c

theorem announce_step (P : Prog) (id : ActId) (c : Ctx) : Step c (announce P id c) := by
  unfold announce
  split
  · split
    · rename_i f _
      exact Step.of ⟨⟨[], by simp⟩, ⟨[], by simp⟩, ⟨[], by simp⟩, ⟨[(f, id)], rfl⟩,
        rfl, rfl, rfl, Nat.le_refl _, fun _ _ h => h, ⟨[], by simp⟩, fun _ => Nat.le_refl _, Kept.same rfl rfl rfl⟩ rfl rfl
    · exact emit_step c _
  · exact Step.refl c

theorem trace_step (c : Ctx) (t : List ActId) : Step c { c with trace := c.trace ++ t } :=
  Step.of ⟨⟨[], by simp⟩, ⟨t, rfl⟩, ⟨[], by simp⟩, ⟨[], by simp⟩,
    rfl, rfl, rfl, Nat.le_refl _, fun _ _ h => h, ⟨[], by simp⟩, fun _ => Nat.le_refl _, Kept.same rfl rfl rfl⟩ rfl rfl

theorem enter_mono {P : Prog} {O : Oracle} {fuel : Nat} {e : Entity} {c c' : Ctx} {r : Res (List Entity)}
    (h : enter P O fuel e c = some (c', r)) : Mono c c' := by
  cases e with
  | desc es => simp [enter] at h; rw [← h.1]; exact Mono.refl c
  | act id cond kind =>
    simp only [enter] at h
    have hf := condEval_frames O P.preds cond c
    cases hc : condEval O P.preds cond c with
    | mk c1 r1 =>
      rw [hc] at h hf
      cases r1 with
      | error e => simp at h; rw [← h.1]; exact hf.mono
      | ok b =>
        cases b with
        | false => simp at h; rw [← h.1]; exact hf.mono
        | true =>
          simp only at h
          cases hx : execute P O fuel id kind { c1 with trace := c1.trace ++ [id] } with
          | none => rw [hx] at h; simp at h
          | some x =>
            obtain ⟨c2, r2⟩ := x
            rw [hx] at h; simp at h
            rw [← h.1]
            exact hf.mono.trans ((trace_step c1 [id]).toMono.trans
              ((execute_mono hx).trans (announce_step P id c2).toMono))

theorem visitList_mono {v : Entity → Ctx → Outcome (List Fut)}
    (hv : ∀ e c c' r, v e c = some (c', r) → Mono c c') :
    ∀ (es : List Entity) (c c' : Ctx) (r), visitList v es c = some (c', r) → Mono c c'
  | [], c, c', r, h => by simp [visitList] at h; rw [← h.1]; exact Mono.refl c
  | e :: es, c, c', r, h => by
    unfold visitList at h
    cases h1 : v e c with
    | none => rw [h1] at h; simp at h
    | some x =>
      obtain ⟨c1, r1⟩ := x
      have m1 := hv _ _ _ _ h1
      rw [h1] at h
      cases r1 with
      | error err => simp at h; rw [← h.1]; exact m1
      | ok fs =>
        simp only at h
        cases h2 : visitList v es c1 with
        | none => rw [h2] at h; simp at h
        | some y =>
          obtain ⟨c2, r2⟩ := y
          have m2 := visitList_mono hv es _ _ _ h2
          rw [h2] at h
          cases r2 <;> (simp at h; rw [← h.1]; exact m1.trans m2)

theorem visit_mono {P : Prog} {O : Oracle} : ∀ (n : Nat) (e : Entity) (c c' : Ctx) (r),
    visit P O n e c = some (c', r) → Mono c c'
  | 0, _, _, _, _, h => by simp [visit] at h
  | n + 1, e, c, c', r, h => by
    unfold visit at h
    cases h1 : enter P O n e c with
    | none => rw [h1] at h; simp at h
    | some x =>
      obtain ⟨c1, r1⟩ := x
      have m1 := enter_mono h1
      rw [h1] at h
      cases r1 with
      | error err => simp at h; rw [← h.1]; exact m1
      | ok subs =>
        simp only at h
        cases h2 : visitList (visit P O n) subs c1 with
        | none => rw [h2] at h; simp at h
        | some y =>
          obtain ⟨c2, r2⟩ := y
          have m2 := visitList_mono (visit_mono n) subs _ _ _ h2
          rw [h2] at h
          cases r2 <;> (simp at h; rw [← h.1]; exact m1.trans m2)

/-- How a successful visit decomposes. -/
theorem visit_ok {P : Prog} {O : Oracle} {n : Nat} {e : Entity} {c c' : Ctx} {fs : List Fut}
    (h : visit P O (n + 1) e c = some (c', .ok fs)) :
    ∃ c1 subs gs, enter P O n e c = some (c1, .ok subs) ∧
      visitList (visit P O n) subs c1 = some (c', .ok gs) ∧ fs = ownFuture e c1 ++ gs := by
  unfold visit at h
  cases h1 : enter P O n e c with
  | none => rw [h1] at h; simp at h
  | some x =>
    obtain ⟨c1, r1⟩ := x
    rw [h1] at h
    cases r1 with
    | error err => simp at h
    | ok subs =>
      simp only at h
      cases h2 : visitList (visit P O n) subs c1 with
      | none => rw [h2] at h; simp at h
      | some y =>
        obtain ⟨c2, r2⟩ := y
        rw [h2] at h
        cases r2 with
        | error err => simp at h
        | ok gs =>
          simp at h
          exact ⟨c1, subs, gs, rfl, by rw [h2, h.1], h.2.symm⟩

theorem visitList_cons_ok {v : Entity → Ctx → Outcome (List Fut)} {e : Entity} {es : List Entity}
    {c c' : Ctx} {fs : List Fut} (h : visitList v (e :: es) c = some (c', .ok fs)) :
    ∃ c1 gs hs, v e c = some (c1, .ok gs) ∧ visitList v es c1 = some (c', .ok hs) ∧ fs = gs ++ hs := by
  unfold visitList at h
  cases h1 : v e c with
  | none => rw [h1] at h; simp at h
  | some x =>
    obtain ⟨c1, r1⟩ := x
    rw [h1] at h
    cases r1 with
    | error err => simp at h
    | ok gs =>
      simp only at h
      cases h2 : visitList v es c1 with
      | none => rw [h2] at h; simp at h
      | some y =>
        obtain ⟨c2, r2⟩ := y
        rw [h2] at h
        cases r2 with
        | error err => simp at h
        | ok hs => simp at h; exact ⟨c1, gs, hs, rfl, by rw [h2, h.1], h.2.symm⟩

theorem visitList_append (v : Entity → Ctx → Outcome (List Fut)) (xs ys : List Entity) (c : Ctx) :
    visitList v (xs ++ ys) c =
      match visitList v xs c with
      | none => none
      | some (c1, .error e) => some (c1, .error e)
      | some (c1, .ok fs) =>
        match visitList v ys c1 with
        | none => none
        | some (c2, .error e) => some (c2, .error e)
        | some (c2, .ok gs) => some (c2, .ok (fs ++ gs)) := by
  induction xs generalizing c with
  | nil =>
    simp only [List.nil_append, visitList]
    cases visitList v ys c with
    | none => rfl
    | some x => obtain ⟨c1, r⟩ := x; cases r <;> rfl
  | cons x xs ih =>
    simp only [List.cons_append, visitList]
    cases v x c with
    | none => rfl
    | some y =>
      obtain ⟨c1, r⟩ := y
      cases r with
      | error e => rfl
      | ok fs =>
        simp only [ih]
        cases visitList v xs c1 with
        | none => rfl
        | some z =>
          obtain ⟨c2, r2⟩ := z
          cases r2 with
          | error e => rfl
          | ok gs =>
            simp only
            cases visitList v ys c2 with
            | none => rfl
            | some w => obtain ⟨c3, r3⟩ := w; cases r3 <;> simp

theorem visitList_append_ok {v : Entity → Ctx → Outcome (List Fut)} {xs ys : List Entity} {c c' : Ctx}
    {fs : List Fut} (h : visitList v (xs ++ ys) c = some (c', .ok fs)) :
    ∃ c1 gs hs, visitList v xs c = some (c1, .ok gs) ∧ visitList v ys c1 = some (c', .ok hs) ∧
      fs = gs ++ hs := by
  rw [visitList_append] at h
  cases h1 : visitList v xs c with
  | none => rw [h1] at h; simp at h
  | some x =>
    obtain ⟨c1, r⟩ := x
    rw [h1] at h
    cases r with
    | error e => simp at h
    | ok gs =>
      simp only at h
      cases h2 : visitList v ys c1 with
      | none => rw [h2] at h; simp at h
      | some y =>
        obtain ⟨c2, r2⟩ := y
        rw [h2] at h
        cases r2 with
        | error e => simp at h
        | ok hs => simp at h; exact ⟨c1, gs, hs, rfl, by rw [h2, h.1], h.2.symm⟩

end Verif
