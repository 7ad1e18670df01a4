import Verif.Spec.Visit
import Verif.Lemmas.Scope

/-! # Lemmas about the order of visiting and about fuel -/

namespace Verif

/-- The dictionaries of the context's locals have no key twice, and the cache holds the combination of globals and locals. -/
structure Locals.OK (l : Locals) : Prop where
  cache : l.cache = none ∨ l.cache = some (l.globals.update l.cur)
  globals : l.globals.Wf
  cur : l.cur.Wf
  stack : ∀ f ∈ l.stack, f.Wf

/-- The same for the context, and for the locals kept by timers. -/
def LocOK (c : Ctx) : Prop := c.locals.OK ∧ ∀ p ∈ c.captured, p.2.Wf

theorem Locals.OK.extendLocals {l : Locals} (h : l.OK) (d : Dict LVal) : (l.extendLocals d).OK :=
  ⟨.inl rfl, h.globals, h.cur.update d, h.stack⟩

theorem Locals.OK.extendGlobals {l : Locals} (h : l.OK) (d : Dict LVal) : (l.extendGlobals d).OK :=
  ⟨.inl rfl, h.globals.update d, h.cur, h.stack⟩

theorem Locals.OK.combined {l : Locals} (h : l.OK) : l.getCombined.1 = l.globals.update l.cur := by
  unfold Locals.getCombined
  rcases h.cache with hc | hc <;> rw [hc]

theorem Locals.OK.combined_wf {l : Locals} (h : l.OK) : l.getCombined.1.Wf := by
  rw [h.combined]; exact h.globals.update _

theorem Locals.OK.push {l : Locals} (h : l.OK) : l.push.OK :=
  ⟨h.cache, h.globals, h.cur, fun f hf => by
    rcases List.mem_cons.mp hf with rfl | hf
    · exact h.cur
    · exact h.stack f hf⟩

theorem Locals.OK.pop {l l' : Locals} (h : l.OK) (hp : l.pop = .ok l') : l'.OK := by
  unfold Locals.pop at hp
  split at hp
  · cases hp
  · rename_i f fs hs
    cases hp
    exact ⟨.inl rfl, h.globals, h.stack f (by rw [hs]; simp), fun g hg => h.stack g (by rw [hs]; simp [hg])⟩

/-- Executing the action `a` does not touch the trace nor the done-callbacks, adds futures and kept locals only for
`a`, and takes no message back. -/
structure Core (a : ActId) (c c' : Ctx) : Prop where
  trace : c'.trace = c.trace
  onDone : c'.onDone = c.onDone
  futures : ∃ l, c'.futures = l ++ c.futures ∧ ∀ p ∈ l, p.1 = a
  captured : ∃ l, c'.captured = l ++ c.captured ∧ ∀ p ∈ l, p.1 = a
  logged : ∃ l, c'.logged = c.logged ++ l
  ok : LocOK c → LocOK c'

theorem Core.refl (a : ActId) (c : Ctx) : Core a c c := ⟨rfl, rfl, ⟨[], rfl, by simp⟩, ⟨[], rfl, by simp⟩, ⟨[], by simp⟩, id⟩

theorem Core.trans {s : ActId} {a b c : Ctx} (h1 : Core s a b) (h2 : Core s b c) : Core s a c := by
  obtain ⟨t1, d1, ⟨l1, e1, m1⟩, ⟨k1, f1, n1⟩, ⟨g1, o1⟩, w1⟩ := h1
  obtain ⟨t2, d2, ⟨l2, e2, m2⟩, ⟨k2, f2, n2⟩, ⟨g2, o2⟩, w2⟩ := h2
  refine ⟨t2.trans t1, d2.trans d1, ⟨l2 ++ l1, by rw [e2, e1, List.append_assoc], ?_⟩, ⟨k2 ++ k1, by rw [f2, f1, List.append_assoc], ?_⟩,
    ⟨g1 ++ g2, by rw [o2, o1, List.append_assoc]⟩, w2 ∘ w1⟩
  · intro p hp
    rcases List.mem_append.mp hp with h | h
    · exact m2 p h
    · exact m1 p h
  · intro p hp
    rcases List.mem_append.mp hp with h | h
    · exact n2 p h
    · exact n1 p h

theorem Core.same {a : ActId} {c c' : Ctx} (h1 : c'.trace = c.trace) (h2 : c'.onDone = c.onDone)
    (h3 : c'.futures = c.futures) (h4 : c'.captured = c.captured := by rfl) (h5 : c'.logged = c.logged := by rfl)
    (h6 : LocOK c → LocOK c' := by exact fun h => h) : Core a c c' :=
  ⟨h1, h2, ⟨[], by simpa using h3, by simp⟩, ⟨[], by simpa using h4, by simp⟩, ⟨[], by simpa using h5⟩, h6⟩

theorem AnonExt.core {a : ActId} {c c' : Ctx} (h : AnonExt c c') : Core a c c' := by
  have := h.rest
  refine Core.same ?_ ?_ ?_ ?_ ?_ ?_ <;> rw [this]
  exact id

/-- All runs satisfy `Core`. -/
def Cores {α : Type} (a : ActId) (m : M α) : Prop := ∀ c, Core a c (m c).1

theorem Frames.cores {α : Type} {a : ActId} {m : M α} (h : Frames m) : Cores a m := fun c => (h c).core

theorem Cores.bind {α β : Type} {a : ActId} {m : M α} {f : α → M β} (hm : Cores a m) (hf : ∀ x, Cores a (f x)) :
    Cores a (M.bind m f) := by
  intro c
  have h := hm c
  unfold M.bind
  split
  · rename_i e heq; rw [heq] at h; exact h
  · rename_i e heq; rw [heq] at h; exact h.trans (hf _ _)

theorem applyEffect_core (a : ActId) (c : Ctx) (e : Effect) : Core a c (Entity.applyEffect (some a) c e) := by
  cases e with
  | setEnv k v => show Core a c (c.envSet k v).1; unfold Ctx.envSet; split <;> exact Core.same rfl rfl rfl
  | unregister h => show Core a c (c.unregisterHandler h).1; unfold Ctx.unregisterHandler; split <;> exact Core.same rfl rfl rfl
  | newFuture => exact ⟨rfl, rfl, ⟨[(a, c.nextFut)], rfl, by simp⟩, ⟨[], rfl, by simp⟩, ⟨[], by simp [Entity.applyEffect]⟩, id⟩
  | capture =>
    refine ⟨rfl, rfl, ⟨[], rfl, by simp⟩, ⟨[(a, c.locals.getCombined.1)], rfl, by simp⟩, ⟨[], by simp [Entity.applyEffect]⟩, fun h => ⟨h.1, fun p hp => ?_⟩⟩
    rcases List.mem_cons.mp hp with rfl | hp
    · exact h.1.combined_wf
    · exact h.2 p hp
  | extendLocals d => exact Core.same rfl rfl rfl rfl rfl fun h => ⟨h.1.extendLocals d, h.2⟩
  | extendGlobals d => exact Core.same rfl rfl rfl rfl rfl fun h => ⟨h.1.extendGlobals d, h.2⟩
  | _ => exact Core.same rfl rfl rfl

theorem applyEffects_core (a : ActId) (c : Ctx) (es : List Effect) :
    Core a c (Entity.applyEffects (some a) c es) := by
  induction es generalizing c with
  | nil => exact Core.refl a c
  | cons e es ih => exact (applyEffect_core a c e).trans (ih _)

theorem getDescription_core (a : ActId) (P : Prog) (O : Oracle) (src : Nat) (c : Ctx) :
    Core a c (getDescription P O src c).1 := by
  unfold getDescription
  have key : ∀ (c1 : Ctx) (loc : String), Core a c c1 →
      Core a c (match (P.source src).load loc with
        | .error e => ((c1, .error e) : Ctx × Res (List Entity))
        | .ok es => ({ c1 with srcLoaded := src :: c1.srcLoaded }, .ok es)).1 := by
    intro c1 loc h
    cases (P.source src).load loc with
    | error e => exact h
    | ok es => exact h.trans (Core.same rfl rfl rfl)
  cases hl : c.srcLoc.lookup src with
  | some l => exact key c l (Core.refl a c)
  | none =>
    have hf := performSubs_frames O (P.source src).location c
    cases hp : performSubs O (P.source src).location c with
    | mk c1 r =>
      rw [hp] at hf
      have hs : Core a c c1 := hf.core
      cases r with
      | error e => exact hs
      | ok l => exact key _ l (hs.trans (Core.same rfl rfl rfl))

theorem executeInclude_core {P : Prog} {O : Oracle} {fuel : Nat} {id : ActId} {src : Nat}
    {args : List (List Sub × List Sub)} {c c' : Ctx} {r : Res (List Entity)} (a : ActId)
    (h : executeInclude P O fuel id src args c = some (c', r)) : Core a c c' := by
  unfold executeInclude at h
  have hd := getDescription_core a P O src c
  cases hg : getDescription P O src c with
  | mk c1 r1 =>
    rw [hg] at h hd
    cases r1 with
    | error e => simp at h; rw [← h.1]; exact hd
    | ok es =>
      simp only at h
      generalize hl2 : ((c1.locals.extendLocals
        [("current_launch_file_path", LVal.str (P.launchFile ((c1.srcLoc.lookup src).getD "")).1)]).extendLocals
          [("current_launch_file_directory", LVal.str (P.launchFile ((c1.srcLoc.lookup src).getD "")).2)]) = l2 at h
      have hs2 : Core a c { c1 with locals := l2 } :=
        hd.trans (Core.same rfl rfl rfl rfl rfl fun h => ⟨by rw [← hl2]; exact (h.1.extendLocals _).extendLocals _, h.2⟩)
      have hp := performNames_frames O args { c1 with locals := l2 }
      cases hn : performNames O args { c1 with locals := l2 } with
      | mk c3 r3 =>
        rw [hn] at h hp
        have hs3 := hs2.trans hp.core
        cases r3 with
        | error e => simp at h; rw [← h.1]; exact hs3
        | ok names =>
          simp only at h
          repeat' split at h
          all_goals first | (simp at h; done) | skip
          all_goals (simp at h; rw [← h.1]; exact hs3)

theorem execute_core {P : Prog} {O : Oracle} {fuel : Nat} {id : ActId} {kind : ActKind} {c c' : Ctx}
    {r : Res (List Entity)} (h : execute P O fuel id kind c = some (c', r)) : Core id c c' := by
  have fin : ∀ (m : M (List Entity)), Cores id m → some (m c) = some (c', r) → Core id c c' := by
    intro m hm he
    have := hm c
    rw [Option.some.inj he] at this
    exact this
  have sub : ∀ s, Cores id (performSubs O s) := fun s => (performSubs_frames O s).cores
  have env : ∀ (c : Ctx) k v, Core id c (c.envSet k v).1 := by
    intro c k v; unfold Ctx.envSet; split <;> exact Core.same rfl rfl rfl
  cases kind with
  | setLC n v =>
    exact fin _ ((sub v).bind fun vs => (sub n).bind fun ns c => Core.same rfl rfl rfl) h
  | unsetLC n => exact fin _ ((sub n).bind fun ns c => Core.same rfl rfl rfl) h
  | resetLC keep =>
    cases keep with
    | none => simp [execute] at h; rw [← h.1]; exact Core.same rfl rfl rfl
    | some k => exact fin _ ((evalKeep_frames O k []).cores.bind fun d c => Core.same rfl rfl rfl) h
  | setEnv n v =>
    exact fin _ ((sub v).bind fun vs => (sub n).bind fun ns c => env c ns vs) h
  | unsetEnv n => exact fin _ ((sub n).bind fun ns c => Core.same rfl rfl rfl) h
  | appendEnv n v p sep =>
    exact fin _ ((sub n).bind fun ns => (sub v).bind fun vs =>
      (evalPrepend_frames O p).cores.bind fun pb => (sub sep).bind fun ss c => env c ns _) h
  | resetEnv => simp [execute] at h; rw [← h.1]; exact Core.same rfl rfl rfl
  | group s f cfg as => simp [execute] at h; rw [← h.1]; exact Core.refl _ c
  | includeLD src args => exact executeInclude_core id h
  | declareArg name d ch =>
    refine fin _ ?_ h
    refine Cores.bind ?_ ?_
    · intro c
      dsimp only
      split
      · exact Core.refl _ c
      · split
        · exact Core.refl _ c
        · exact (sub _).bind (fun v c => Core.same rfl rfl rfl) c
    · intro _ c
      dsimp only
      repeat' split
      all_goals exact Core.refl _ c
  | logInfo msg => exact fin _ ((sub msg).bind fun m c => ⟨rfl, rfl, ⟨[], rfl, by simp⟩, ⟨[], rfl, by simp⟩, ⟨[m], rfl⟩, fun h => h⟩) h
  | emitEvent e => simp [execute] at h; rw [← h.1]; exact Core.same rfl rfl rfl
  | registerHandler hh d => simp [execute] at h; rw [← h.1]; exact Core.same rfl rfl rfl
  | unregisterHandler hh =>
    simp [execute, Ctx.unregisterHandler] at h; rw [← h.1]; split <;> exact Core.same rfl rfl rfl
  | custom fn d => simp [execute] at h; rw [← h.1]; exact applyEffects_core id c _
  | pushLC => simp [execute] at h; rw [← h.1]; exact Core.same rfl rfl rfl
  | popLC => simp [execute, Ctx.popLC] at h; rw [← h.1]; split <;> exact Core.same rfl rfl rfl
  | pushEnv => simp [execute] at h; rw [← h.1]; exact Core.same rfl rfl rfl
  | popEnv => simp [execute, Ctx.popEnv] at h; rw [← h.1]; split <;> exact Core.same rfl rfl rfl

theorem announce_trace (P : Prog) (id : ActId) (c : Ctx) : (announce P id c).trace = c.trace := by
  unfold announce
  split
  · split <;> rfl
  · rfl

theorem announce_futures (P : Prog) (id : ActId) (c : Ctx) : (announce P id c).futures = c.futures := by
  unfold announce
  split
  · split <;> rfl
  · rfl

theorem enter_trace {P : Prog} {O : Oracle} {n : Nat} {e : Entity} {c c' : Ctx} {r : Res (List Entity)}
    (h : enter P O n e c = some (c', r)) : c'.trace = c.trace ++ (executedId P O e c).toList := by
  cases e with
  | desc es => simp [enter] at h; simp [executedId, h.1]
  | act id cond kind =>
    simp only [enter] at h
    have hf := condEval_frames O P.preds cond c
    simp only [executedId]
    cases hc : condEval O P.preds cond c with
    | mk c1 r1 =>
      rw [hc] at h hf
      have ht : c1.trace = c.trace := by have h1 : c1 = _ := hf.rest; rw [h1]
      cases r1 with
      | error e => simp at h; simp [← h.1, ht]
      | ok b =>
        cases b with
        | false => simp at h; simp [← h.1, ht]
        | true =>
          simp only at h
          cases hx : execute P O n id kind { c1 with trace := c1.trace ++ [id] } with
          | none => rw [hx] at h; simp at h
          | some x =>
            obtain ⟨c2, r2⟩ := x
            rw [hx] at h; simp at h
            have hcore := execute_core hx
            rw [← h.1, announce_trace, hcore.trace]
            simp [ht]

mutual
theorem Visits.trace {P : Prog} {O : Oracle} {e : Entity} {c c' : Ctx} {r : Res (List Fut)} {t : VTree}
    (h : Visits P O e c c' r t) : c'.trace = c.trace ++ t.preorder := by
  cases h with
  | raises n h => rw [enter_trace h]; simp [VTree.preorder, preorderAll]
  | descends n h hs => rw [VisitsAll.trace hs, enter_trace h, List.append_assoc]; rfl

theorem VisitsAll.trace {P : Prog} {O : Oracle} {es : List Entity} {c c' : Ctx} {r : Res (List Fut)}
    {ts : List VTree} (h : VisitsAll P O es c c' r ts) : c'.trace = c.trace ++ preorderAll ts := by
  cases h with
  | nil => simp [preorderAll]
  | stop h => rw [Visits.trace h]; simp [preorderAll]
  | next h hs => rw [VisitsAll.trace hs, Visits.trace h, List.append_assoc]; rfl
end

mutual
theorem Visits.results {P : Prog} {O : Oracle} {e : Entity} {c c' : Ctx} {fs : List Fut} {t : VTree} :
    ∀ {r}, Visits P O e c c' r t → r = .ok fs → fs = t.results
  | _, .raises n h, hr => by cases hr
  | _, .descends (r := .error _) n h hs, hr => by simp [Except.map] at hr
  | _, .descends (r := .ok gs) n h hs, hr => by
    simp [Except.map] at hr
    rw [← hr, VisitsAll.results hs rfl]; rfl

theorem VisitsAll.results {P : Prog} {O : Oracle} {es : List Entity} {c c' : Ctx} {fs : List Fut}
    {ts : List VTree} : ∀ {r}, VisitsAll P O es c c' r ts → r = .ok fs → fs = resultsAll ts
  | _, .nil, hr => by cases hr; rfl
  | _, .stop h, hr => by cases hr
  | _, .next (r := .error _) h hs, hr => by simp [Except.map] at hr
  | _, .next (r := .ok gs) h hs, hr => by
    simp [Except.map] at hr
    rw [← hr, VisitsAll.results hs rfl, Visits.results h rfl]; rfl
end

/-! ## More fuel does not change a result -/

theorem searchAll_mono {f g : List Entity → ArgState → Option ArgState}
    (hfg : ∀ l s x, f l s = some x → g l s = some x) :
    ∀ (ls : List (List Entity)) (s x : ArgState), searchAll f ls s = some x → searchAll g ls s = some x
  | [], s, x, h => h
  | l :: ls, s, x, h => by
    unfold searchAll at h ⊢
    cases h1 : f l s with
    | none => rw [h1] at h; simp at h
    | some y =>
      rw [h1] at h
      rw [hfg _ _ _ h1]
      exact searchAll_mono hfg ls _ _ h

theorem processEntities_fuel (res : Nat → Option (List Entity)) :
    ∀ (n : Nat) (es : List Entity) (b : Bool) (k : Option Nat) (s x : ArgState),
      processEntities res n es b k s = some x → processEntities res (n + 1) es b k s = some x
  | 0, _, _, _, _, _, h => by simp [processEntities] at h
  | n + 1, [], b, k, s, x, h => by simpa [processEntities] using h
  | n + 1, e :: rest, b, k, s, x, h => by
    have ih := processEntities_fuel res n
    unfold processEntities at h ⊢
    cases e with
    | desc es =>
      simp only at h ⊢
      cases h1 : processEntities res n (Entity.describeSub res (.desc es)) false k s with
      | none => rw [h1] at h; simp at h
      | some s2 =>
        rw [h1] at h
        rw [ih _ _ _ _ _ h1]
        simp only [Entity.describeConditional, searchAll] at h ⊢
        exact ih _ _ _ _ _ h
    | act id c kind =>
      have gen : ∀ (s1 : ArgState) (next : Option Nat) (e : Entity),
          (match processEntities res n (e.describeSub res) false next s1 with
            | none => none
            | some s2 =>
              match searchAll (fun l => processEntities res n l true next) (e.describeConditional res) s2 with
              | none => none
              | some s3 => processEntities res n rest b k s3) = some x →
          (match processEntities res (n + 1) (e.describeSub res) false next s1 with
            | none => none
            | some s2 =>
              match searchAll (fun l => processEntities res (n + 1) l true next) (e.describeConditional res) s2 with
              | none => none
              | some s3 => processEntities res (n + 1) rest b k s3) = some x := by
        intro s1 next e h
        cases h1 : processEntities res n (e.describeSub res) false next s1 with
        | none => rw [h1] at h; simp at h
        | some s2 =>
          rw [h1] at h
          rw [ih _ _ _ _ _ h1]
          simp only at h ⊢
          cases h2 : searchAll (fun l => processEntities res n l true next) (e.describeConditional res) s2 with
          | none => rw [h2] at h; simp at h
          | some s3 =>
            rw [h2] at h
            rw [searchAll_mono (fun l s x hx => ih _ _ _ _ _ hx) _ _ _ h2]
            exact ih _ _ _ _ _ h
      cases kind with
      | resetLC _ => exact h
      | declareArg name d ch => exact ih _ _ _ _ _ h
      | registerHandler hd d => cases d <;> exact gen _ _ _ h
      | _ => exact gen _ _ _ h

theorem getLaunchArguments_fuel {res : Nat → Option (List Entity)} {n : Nat} {es : List Entity} {b : Bool}
    {x : Res ArgState} (h : getLaunchArguments res n es b = some x) :
    getLaunchArguments res (n + 1) es b = some x := by
  unfold getLaunchArguments at h ⊢
  cases hp : processEntities res n es b none {} with
  | none => rw [hp] at h; simp at h
  | some st => rw [hp] at h; rw [processEntities_fuel res n es b none {} st hp]; exact h

theorem execute_fuel {P : Prog} {O : Oracle} {n : Nat} {id : ActId} {kind : ActKind} {c : Ctx}
    {x : Ctx × Res (List Entity)} (h : execute P O n id kind c = some x) :
    execute P O (n + 1) id kind c = some x := by
  cases kind with
  | includeLD src args =>
    simp only [execute, executeInclude] at h ⊢
    cases hg : getDescription P O src c with
    | mk c1 r1 =>
      rw [hg] at h
      cases r1 with
      | error e => exact h
      | ok es =>
        simp only at h ⊢
        split at h
        · exact h
        · rename_i c3 names hn
          cases hst : getLaunchArguments (tryDescription P O c3) n es false with
          | none => rw [hst] at h; simp at h
          | some rs =>
            rw [hst] at h
            rw [getLaunchArguments_fuel hst]
            exact h
  | resetLC keep => cases keep <;> exact h
  | _ => exact h

theorem enter_fuel {P : Prog} {O : Oracle} {n : Nat} {e : Entity} {c : Ctx} {x : Ctx × Res (List Entity)}
    (h : enter P O n e c = some x) : enter P O (n + 1) e c = some x := by
  cases e with
  | desc es => exact h
  | act id cond kind =>
    simp only [enter] at h ⊢
    split at h
    · exact h
    · exact h
    · rename_i c1 hc
      cases hx : execute P O n id kind { c1 with trace := c1.trace ++ [id] } with
      | none => rw [hx] at h; simp at h
      | some y => rw [hx] at h; rw [execute_fuel hx]; exact h

theorem visitList_fuel {v w : Entity → Ctx → Outcome (List Fut)}
    (hvw : ∀ e c x, v e c = some x → w e c = some x) :
    ∀ (es : List Entity) (c : Ctx) (x), visitList v es c = some x → visitList w es c = some x
  | [], c, x, h => h
  | e :: es, c, x, h => by
    unfold visitList at h ⊢
    cases h1 : v e c with
    | none => rw [h1] at h; simp at h
    | some y =>
      rw [h1] at h
      rw [hvw _ _ _ h1]
      obtain ⟨c1, r⟩ := y
      cases r with
      | error err => exact h
      | ok fs =>
        simp only at h ⊢
        cases h2 : visitList v es c1 with
        | none => rw [h2] at h; simp at h
        | some z => rw [h2] at h; rw [visitList_fuel hvw _ _ _ h2]; exact h

theorem visit_fuel {P : Prog} {O : Oracle} : ∀ (n : Nat) (e : Entity) (c : Ctx) (x),
    visit P O n e c = some x → visit P O (n + 1) e c = some x
  | 0, _, _, _, h => by simp [visit] at h
  | n + 1, e, c, x, h => by
    unfold visit at h ⊢
    cases h1 : enter P O n e c with
    | none => rw [h1] at h; simp at h
    | some y =>
      rw [h1] at h
      rw [enter_fuel h1]
      obtain ⟨c1, r⟩ := y
      cases r with
      | error err => exact h
      | ok subs =>
        simp only at h ⊢
        cases h2 : visitList (visit P O n) subs c1 with
        | none => rw [h2] at h; simp at h
        | some z =>
          rw [h2] at h
          rw [visitList_fuel (visit_fuel n) _ _ _ h2]
          exact h

theorem visit_fuel_le {P : Prog} {O : Oracle} {n m : Nat} (hle : n ≤ m) {e : Entity} {c : Ctx} {x}
    (h : visit P O n e c = some x) : visit P O m e c = some x := by
  induction hle with
  | refl => exact h
  | step _ ih => exact visit_fuel _ _ _ _ ih

theorem enter_fuel_le {P : Prog} {O : Oracle} {n m : Nat} (hle : n ≤ m) {e : Entity} {c : Ctx} {x}
    (h : enter P O n e c = some x) : enter P O m e c = some x := by
  induction hle with
  | refl => exact h
  | step _ ih => exact enter_fuel ih

theorem visitList_fuel_le {P : Prog} {O : Oracle} {n m : Nat} (hle : n ≤ m) {es : List Entity} {c : Ctx} {x}
    (h : visitList (visit P O n) es c = some x) : visitList (visit P O m) es c = some x :=
  visitList_fuel (fun _ _ _ hx => visit_fuel_le hle hx) _ _ _ h

/-! ## The function and the relation -/

theorem visit_visits {P : Prog} {O : Oracle} : ∀ (n : Nat) (e : Entity) (c c' : Ctx) (r : Res (List Fut)),
    visit P O n e c = some (c', r) → ∃ t, Visits P O e c c' r t
  | 0, _, _, _, _, h => by simp [visit] at h
  | n + 1, e, c, c', r, h => by
    have all : ∀ (es : List Entity) (c c' : Ctx) (r : Res (List Fut)),
        visitList (visit P O n) es c = some (c', r) → ∃ ts, VisitsAll P O es c c' r ts := by
      intro es
      induction es with
      | nil => intro c c' r h; simp [visitList] at h; obtain ⟨rfl, rfl⟩ := h; exact ⟨_, .nil⟩
      | cons e es ih =>
        intro c c' r h
        unfold visitList at h
        cases h1 : visit P O n e c with
        | none => rw [h1] at h; simp at h
        | some y =>
          rw [h1] at h
          obtain ⟨c1, r1⟩ := y
          obtain ⟨t, ht⟩ := visit_visits n e c c1 r1 h1
          cases r1 with
          | error err => simp at h; obtain ⟨rfl, rfl⟩ := h; exact ⟨_, .stop ht⟩
          | ok fs =>
            simp only at h
            cases h2 : visitList (visit P O n) es c1 with
            | none => rw [h2] at h; simp at h
            | some z =>
              rw [h2] at h
              obtain ⟨c2, r2⟩ := z
              obtain ⟨ts, hts⟩ := ih _ _ _ h2
              have := VisitsAll.next ht hts
              cases r2 with
              | error err => simp at h; obtain ⟨rfl, rfl⟩ := h; exact ⟨_, this⟩
              | ok gs => simp at h; obtain ⟨rfl, rfl⟩ := h; exact ⟨_, this⟩
    unfold visit at h
    cases h1 : enter P O n e c with
    | none => rw [h1] at h; simp at h
    | some y =>
      rw [h1] at h
      obtain ⟨c1, r1⟩ := y
      cases r1 with
      | error err => simp at h; obtain ⟨rfl, rfl⟩ := h; exact ⟨_, .raises n h1⟩
      | ok subs =>
        simp only at h
        cases h2 : visitList (visit P O n) subs c1 with
        | none => rw [h2] at h; simp at h
        | some z =>
          rw [h2] at h
          obtain ⟨c2, r2⟩ := z
          obtain ⟨ts, hts⟩ := all _ _ _ _ h2
          have := Visits.descends n h1 hts
          cases r2 with
          | error err => simp at h; obtain ⟨rfl, rfl⟩ := h; exact ⟨_, this⟩
          | ok gs => simp at h; obtain ⟨rfl, rfl⟩ := h; exact ⟨_, this⟩

mutual
theorem Visits.visit {P : Prog} {O : Oracle} {e : Entity} {c c' : Ctx} {r : Res (List Fut)} {t : VTree}
    (h : Visits P O e c c' r t) : ∃ n, visit P O n e c = some (c', r) := by
  cases h with
  | raises n h => exact ⟨n + 1, by simp [Verif.visit, h]⟩
  | descends n h hs =>
    rename_i c1 subs r0 ts
    obtain ⟨m, hm⟩ := VisitsAll.visit hs
    refine ⟨max n m + 1, ?_⟩
    simp only [Verif.visit, enter_fuel_le (Nat.le_max_left n m) h,
      visitList_fuel_le (Nat.le_max_right n m) hm]
    cases r0 <;> rfl

theorem VisitsAll.visit {P : Prog} {O : Oracle} {es : List Entity} {c c' : Ctx} {r : Res (List Fut)}
    {ts : List VTree} (h : VisitsAll P O es c c' r ts) :
    ∃ n, visitList (Verif.visit P O n) es c = some (c', r) := by
  cases h with
  | nil => exact ⟨0, rfl⟩
  | stop h =>
    obtain ⟨n, hn⟩ := Visits.visit h
    exact ⟨n, by simp [visitList, hn]⟩
  | next h hs =>
    rename_i c1 fs r0 t ts
    obtain ⟨n, hn⟩ := Visits.visit h
    obtain ⟨m, hm⟩ := VisitsAll.visit hs
    refine ⟨max n m, ?_⟩
    simp only [visitList, visit_fuel_le (Nat.le_max_left n m) hn,
      visitList_fuel_le (Nat.le_max_right n m) hm]
    cases r0 <;> rfl
end

end Verif
