import Verif.Spec.Service
import Verif.Lemmas.Service
import Verif.Lemmas.Order

/-! # Lemmas about the locals while an event is handled -/

namespace Verif

/-- The cache is right and the event is among the current locals. -/
structure EvOK (v : LVal) (l : Locals) : Prop where
  cache : l.cache = none ∨ l.cache = some (l.globals.update l.cur)
  wf : l.cur.Wf
  cur : l.cur.get? "event" = some v

theorem EvOK.visible {v : LVal} {c : Ctx} (h : EvOK v c.locals) : c.localEvent = some v := by
  have key : c.locals.getCombined.1 = c.locals.globals.update c.locals.cur := by
    unfold Locals.getCombined
    rcases h.cache with hc | hc <;> rw [hc]
  unfold Ctx.localEvent
  rw [key, Dict.get?_update _ _ _ h.wf, h.cur]
  rfl

theorem get?_update_not_mem {V : Type} (e d : Dict V) (k : String) (h : k ∉ e.keys) :
    (d.update e).get? k = d.get? k := by
  induction e generalizing d with
  | nil => rfl
  | cons p e ih =>
    simp [Dict.keys] at h
    show ((d.set p.1 p.2).update e).get? k = _
    rw [ih _ (by simpa [Dict.keys] using h.2)]
    exact Dict.get?_set_ne _ _ (Ne.symm h.1)

theorem EvOK.extendLocals {v : LVal} {l : Locals} (h : EvOK v l) {d : Dict LVal} (hd : NoEvent d) :
    EvOK v (l.extendLocals d) :=
  ⟨.inl rfl, h.wf.update d, (get?_update_not_mem d l.cur "event" hd).trans h.cur⟩

theorem EvOK.extendGlobals {v : LVal} {l : Locals} (h : EvOK v l) (d : Dict LVal) :
    EvOK v (l.extendGlobals d) := ⟨.inl rfl, h.wf, h.cur⟩

/-- The event stays visible. -/
def EvKeep (c c' : Ctx) : Prop := ∀ v, EvOK v c.locals → EvOK v c'.locals

theorem EvKeep.refl (c : Ctx) : EvKeep c c := fun _ h => h
theorem EvKeep.trans {a b c : Ctx} (h1 : EvKeep a b) (h2 : EvKeep b c) : EvKeep a c := fun v h => h2 v (h1 v h)
theorem EvKeep.same {c c' : Ctx} (h : c'.locals = c.locals) : EvKeep c c' := fun _ hv => by rw [h]; exact hv
theorem AnonExt.evKeep {c c' : Ctx} (h : AnonExt c c') : EvKeep c c' := by
  have := h.rest
  apply EvKeep.same; rw [this]

def EvKeeps {α : Type} (m : M α) : Prop := ∀ c, EvKeep c (m c).1

theorem Frames.evKeeps {α : Type} {m : M α} (h : Frames m) : EvKeeps m := fun c => (h c).evKeep

theorem EvKeeps.bind {α β : Type} {m : M α} {f : α → M β} (hm : EvKeeps m) (hf : ∀ x, EvKeeps (f x)) :
    EvKeeps (M.bind m f) := by
  intro c
  have h := hm c
  unfold M.bind
  split
  · rename_i e heq; rw [heq] at h; exact h
  · rename_i e heq; rw [heq] at h; exact h.trans (hf _ _)

theorem applyEffect_evKeep (self : Option ActId) (c : Ctx) (e : Effect) (he : e.keepsEvent) :
    EvKeep c (Entity.applyEffect self c e) := by
  cases e with
  | setEnv k v => apply EvKeep.same; show (c.envSet k v).1.locals = _; unfold Ctx.envSet; split <;> rfl
  | unregister h =>
    apply EvKeep.same; show (c.unregisterHandler h).1.locals = _; unfold Ctx.unregisterHandler; split <;> rfl
  | newFuture => cases self <;> exact EvKeep.same rfl
  | capture => cases self <;> exact EvKeep.same rfl
  | extendLocals d => exact fun v h => h.extendLocals he
  | extendGlobals d => exact fun v h => h.extendGlobals d
  | _ => exact EvKeep.same rfl

theorem applyEffects_evKeep (self : Option ActId) (c : Ctx) (es : List Effect) (he : ∀ e ∈ es, e.keepsEvent) :
    EvKeep c (Entity.applyEffects self c es) := by
  induction es generalizing c with
  | nil => exact EvKeep.refl c
  | cons e es ih =>
    exact (applyEffect_evKeep self c e (he e (by simp))).trans (ih _ fun x hx => he x (by simp [hx]))

theorem getDescription_evKeep (P : Prog) (O : Oracle) (src : Nat) (c : Ctx) :
    EvKeep c (getDescription P O src c).1 := by
  unfold getDescription
  have key : ∀ (c1 : Ctx) (loc : String), EvKeep c c1 →
      EvKeep c (match (P.source src).load loc with
        | .error e => ((c1, .error e) : Ctx × Res (List Entity))
        | .ok es => ({ c1 with srcLoaded := src :: c1.srcLoaded }, .ok es)).1 := by
    intro c1 loc h
    cases (P.source src).load loc with
    | error e => exact h
    | ok es => exact h.trans (EvKeep.same rfl)
  cases hl : c.srcLoc.lookup src with
  | some l => exact key c l (EvKeep.refl c)
  | none =>
    have hf := performSubs_frames O (P.source src).location c
    cases hp : performSubs O (P.source src).location c with
    | mk c1 r =>
      rw [hp] at hf
      have hs : EvKeep c c1 := hf.evKeep
      cases r with
      | error e => exact hs
      | ok l => exact key _ l (hs.trans (EvKeep.same rfl))

theorem executeInclude_evKeep {P : Prog} {O : Oracle} {fuel : Nat} {id : ActId} {src : Nat}
    {args : List (List Sub × List Sub)} {c c' : Ctx} {r : Res (List Entity)}
    (h : executeInclude P O fuel id src args c = some (c', r)) : EvKeep c c' := by
  unfold executeInclude at h
  have hd := getDescription_evKeep P O src c
  cases hg : getDescription P O src c with
  | mk c1 r1 =>
    rw [hg] at h hd
    cases r1 with
    | error e => simp at h; rw [← h.1]; exact hd
    | ok es =>
      simp only at h
      generalize hl2 : ((c1.locals.extendLocals
        [("current_launch_file_path", LVal.str (P.launchFile ((c1.srcLoc.lookup src).getD "")).1)]).extendLocals
          [("current_launch_file_directory", LVal.str (P.launchFile ((c1.srcLoc.lookup src).getD "")).2)]) = l2 at h
      have hs2 : EvKeep c { c1 with locals := l2 } := by
        refine hd.trans fun v hv => ?_
        show EvOK v l2
        rw [← hl2]
        exact (hv.extendLocals (by simp [NoEvent, Dict.keys])).extendLocals (by simp [NoEvent, Dict.keys])
      have hp := performNames_frames O args { c1 with locals := l2 }
      cases hn : performNames O args { c1 with locals := l2 } with
      | mk c3 r3 =>
        rw [hn] at h hp
        have hs3 := hs2.trans hp.evKeep
        cases r3 with
        | error e => simp at h; rw [← h.1]; exact hs3
        | ok names =>
          simp only at h
          repeat' split at h
          all_goals first | (simp at h; done) | skip
          all_goals (simp at h; rw [← h.1]; exact hs3)

theorem execute_evKeep {P : Prog} (hP : P.KeepsEvent) {O : Oracle} {fuel : Nat} {id : ActId} {kind : ActKind}
    {c c' : Ctx} {r : Res (List Entity)} (h : execute P O fuel id kind c = some (c', r)) : EvKeep c c' := by
  have fin : ∀ (m : M (List Entity)), EvKeeps m → some (m c) = some (c', r) → EvKeep c c' := by
    intro m hm he
    have := hm c
    rw [Option.some.inj he] at this
    exact this
  have sub : ∀ s, EvKeeps (performSubs O s) := fun s => (performSubs_frames O s).evKeeps
  have env : ∀ (c : Ctx) k v, EvKeep c (c.envSet k v).1 := by
    intro c k v; unfold Ctx.envSet; split <;> exact EvKeep.same rfl
  cases kind with
  | setLC n v =>
    exact fin _ ((sub v).bind fun vs => (sub n).bind fun ns c => EvKeep.same rfl) h
  | unsetLC n => exact fin _ ((sub n).bind fun ns c => EvKeep.same rfl) h
  | resetLC keep =>
    cases keep with
    | none => simp [execute] at h; rw [← h.1]; exact EvKeep.same rfl
    | some k => exact fin _ ((evalKeep_frames O k []).evKeeps.bind fun d c => EvKeep.same rfl) h
  | setEnv n v =>
    exact fin _ ((sub v).bind fun vs => (sub n).bind fun ns c => env c ns vs) h
  | unsetEnv n => exact fin _ ((sub n).bind fun ns c => EvKeep.same rfl) h
  | appendEnv n v p sep =>
    exact fin _ ((sub n).bind fun ns => (sub v).bind fun vs =>
      (evalPrepend_frames O p).evKeeps.bind fun pb => (sub sep).bind fun ss c => env c ns _) h
  | resetEnv => simp [execute] at h; rw [← h.1]; exact EvKeep.same rfl
  | group s f cfg as => simp [execute] at h; rw [← h.1]; exact EvKeep.refl c
  | includeLD src args => exact executeInclude_evKeep h
  | declareArg name d ch =>
    refine fin _ ?_ h
    refine EvKeeps.bind ?_ ?_
    · intro c
      dsimp only
      split
      · exact EvKeep.refl c
      · split
        · exact EvKeep.refl c
        · exact (sub _).bind (fun v c => EvKeep.same rfl) c
    · intro _ c
      dsimp only
      repeat' split
      all_goals exact EvKeep.refl c
  | logInfo msg => exact fin _ ((sub msg).bind fun _ c => EvKeep.same rfl) h
  | emitEvent e => simp [execute] at h; rw [← h.1]; exact EvKeep.same rfl
  | registerHandler hh d => simp [execute] at h; rw [← h.1]; exact EvKeep.same rfl
  | unregisterHandler hh =>
    simp [execute, Ctx.unregisterHandler] at h; rw [← h.1]; split <;> exact EvKeep.same rfl
  | custom fn d => simp [execute] at h; rw [← h.1]; exact applyEffects_evKeep _ c _ (hP.fn fn c)
  | pushLC => simp [execute] at h; rw [← h.1]; exact EvKeep.same rfl
  | popLC => simp [execute, Ctx.popLC] at h; rw [← h.1]; split <;> exact EvKeep.same rfl
  | pushEnv => simp [execute] at h; rw [← h.1]; exact EvKeep.same rfl
  | popEnv => simp [execute, Ctx.popEnv] at h; rw [← h.1]; split <;> exact EvKeep.same rfl

theorem announce_evKeep (P : Prog) (id : ActId) (c : Ctx) : EvKeep c (announce P id c) := by
  apply EvKeep.same
  unfold announce
  split
  · split <;> rfl
  · rfl

theorem condEval_same {O : Oracle} {preds preds' : Nat → Ctx → Res Bool} {c : Ctx}
    (h : ∀ n, preds' n c = preds n c) (cd : Option Cond) : condEval O preds' cd c = condEval O preds cd c := by
  cases cd with
  | none => rfl
  | some cd =>
    cases cd with
    | pred n => exact congrArg (fun r => (c, r)) (h n)
    | _ => rfl

theorem enter_same {v : LVal} {P Q : Prog} (hS : SameWhile v P Q) (hP : P.KeepsEvent) (O : Oracle) (n : Nat)
    (e : Entity) (c : Ctx) (hc : EvOK v c.locals) :
    enter Q O n e c = enter P O n e c ∧ ∀ c' r, enter P O n e c = some (c', r) → EvOK v c'.locals := by
  cases e with
  | desc es => exact ⟨rfl, fun c' r h => by simp [enter] at h; rw [← h.1]; exact hc⟩
  | act id cond kind =>
    have hcond : condEval O Q.preds cond c = condEval O P.preds cond c :=
      condEval_same (fun n => hS.preds n c hc.visible) cond
    have hf := (condEval_frames O P.preds cond c).evKeep
    simp only [enter]
    rw [hcond]
    cases hce : condEval O P.preds cond c with
    | mk c1 r1 =>
      rw [hce] at hf
      have hc1 : EvOK v c1.locals := hf v hc
      cases r1 with
      | error err => exact ⟨rfl, fun c' r h => by simp at h; rw [← h.1]; exact hc1⟩
      | ok b =>
        cases b with
        | false => exact ⟨rfl, fun c' r h => by simp at h; rw [← h.1]; exact hc1⟩
        | true =>
          simp only
          have hx : execute Q O n id kind { c1 with trace := c1.trace ++ [id] } =
              execute P O n id kind { c1 with trace := c1.trace ++ [id] } := by
            cases kind with
            | custom fn d =>
              have hv : ({ c1 with trace := c1.trace ++ [id] } : Ctx).localEvent = some v :=
                EvOK.visible (c := { c1 with trace := c1.trace ++ [id] }) hc1
              simp only [execute]
              rw [hS.fn fn _ hv]
            | includeLD src args => rw [hS.rest]; rfl
            | resetLC k => cases k <;> rfl
            | _ => rfl
          rw [hx]
          cases hxe : execute P O n id kind { c1 with trace := c1.trace ++ [id] } with
          | none => exact ⟨rfl, fun c' r h => by simp at h⟩
          | some x =>
            obtain ⟨c2, r2⟩ := x
            have hk := execute_evKeep hP hxe
            have hc2 : EvOK v c2.locals := hk v hc1
            refine ⟨?_, fun c' r h => by simp at h; rw [← h.1]; exact announce_evKeep P id c2 v hc2⟩
            have : announce Q id c2 = announce P id c2 := by rw [hS.rest]; rfl
            simp only [this]

theorem visitList_same {v : LVal} {f g : Entity → Ctx → Outcome (List Fut)}
    (hfg : ∀ e c, EvOK v c.locals → g e c = f e c ∧ ∀ c' r, f e c = some (c', r) → EvOK v c'.locals) :
    ∀ (es : List Entity) (c : Ctx), EvOK v c.locals →
      visitList g es c = visitList f es c ∧ ∀ c' r, visitList f es c = some (c', r) → EvOK v c'.locals
  | [], c, hc => ⟨rfl, fun c' r h => by simp [visitList] at h; rw [← h.1]; exact hc⟩
  | e :: es, c, hc => by
    obtain ⟨h1, h2⟩ := hfg e c hc
    simp only [visitList]
    rw [h1]
    cases hf : f e c with
    | none => exact ⟨rfl, fun c' r h => by simp at h⟩
    | some x =>
      obtain ⟨c1, r1⟩ := x
      have hc1 := h2 c1 r1 hf
      cases r1 with
      | error err => exact ⟨rfl, fun c' r h => by simp at h; rw [← h.1]; exact hc1⟩
      | ok fs =>
        simp only
        obtain ⟨k1, k2⟩ := visitList_same hfg es c1 hc1
        rw [k1]
        cases hl : visitList f es c1 with
        | none => exact ⟨rfl, fun c' r h => by simp at h⟩
        | some y =>
          obtain ⟨c2, r2⟩ := y
          have hc2 := k2 c2 r2 hl
          cases r2 with
          | error err => exact ⟨rfl, fun c' r h => by simp at h; rw [← h.1]; exact hc2⟩
          | ok gs => exact ⟨rfl, fun c' r h => by simp at h; rw [← h.1]; exact hc2⟩

theorem visit_same {v : LVal} {P Q : Prog} (hS : SameWhile v P Q) (hP : P.KeepsEvent) (O : Oracle) :
    ∀ (n : Nat) (e : Entity) (c : Ctx), EvOK v c.locals →
      visit Q O n e c = visit P O n e c ∧ ∀ c' r, visit P O n e c = some (c', r) → EvOK v c'.locals
  | 0, e, c, hc => ⟨rfl, fun c' r h => by simp [visit] at h⟩
  | n + 1, e, c, hc => by
    obtain ⟨h1, h2⟩ := enter_same hS hP O n e c hc
    simp only [visit]
    rw [h1]
    cases hf : enter P O n e c with
    | none => exact ⟨rfl, fun c' r h => by simp at h⟩
    | some x =>
      obtain ⟨c1, r1⟩ := x
      have hc1 := h2 c1 r1 hf
      cases r1 with
      | error err => exact ⟨rfl, fun c' r h => by simp at h; rw [← h.1]; exact hc1⟩
      | ok subs =>
        simp only
        obtain ⟨k1, k2⟩ := visitList_same (visit_same hS hP O n) subs c1 hc1
        rw [k1]
        cases hl : visitList (visit P O n) subs c1 with
        | none => exact ⟨rfl, fun c' r h => by simp at h⟩
        | some y =>
          obtain ⟨c2, r2⟩ := y
          have hc2 := k2 c2 r2 hl
          cases r2 with
          | error err => exact ⟨rfl, fun c' r h => by simp at h; rw [← h.1]; exact hc2⟩
          | ok gs => exact ⟨rfl, fun c' r h => by simp at h; rw [← h.1]; exact hc2⟩

theorem visitEach_same {v : LVal} {P Q : Prog} (hS : SameWhile v P Q) (hP : P.KeepsEvent) (O : Oracle) (n : Nat) :
    ∀ (es : List Entity) (s : Proc), EvOK v s.ctx.locals → visitEach Q O n es s = visitEach P O n es s
  | [], s, _ => rfl
  | e :: es, s, hs => by
    obtain ⟨h1, h2⟩ := visit_same hS hP O n e s.ctx hs
    simp only [visitEach]
    rw [h1]
    cases hf : visit P O n e s.ctx with
    | none => rfl
    | some x =>
      obtain ⟨c1, r1⟩ := x
      cases r1 with
      | error err => rfl
      | ok fs => exact visitEach_same hS hP O n es _ (h2 c1 _ hf)

theorem extendLocals_event (l : Locals) (hw : l.cur.Wf) (v : LVal) : EvOK v (l.extendLocals [("event", v)]) :=
  ⟨.inl rfl, hw.update _, Dict.get?_set_self _ _ _⟩

theorem handleOne_same {ev : Event} {P Q : Prog} (hS : SameWhile (.event ev) P Q) (hP : P.KeepsEvent)
    (O : Oracle) (n h : Nat) (s : Proc) (hw : s.ctx.locals.cur.Wf) :
    handleOne Q O n ev h s = handleOne P O n ev h s := by
  have hb : baseHandle Q ev h { s.ctx with locals := s.ctx.locals.push } =
      baseHandle P ev h { s.ctx with locals := s.ctx.locals.push } := by rw [hS.rest]; rfl
  unfold handleOne
  rw [hb]
  cases hbe : baseHandle P ev h { s.ctx with locals := s.ctx.locals.push } with
  | mk c r =>
    cases r with
    | error err => rfl
    | ok u =>
      cases u
      obtain ⟨f1, _⟩ := baseHandle_facts hbe
      have hev : EvOK (.event ev) c.locals := by rw [f1]; exact extendLocals_event s.ctx.locals.push hw _
      simp only
      have hrc : runCallback Q ev h { s with ctx := c } = runCallback P ev h { s with ctx := c } := by
        unfold runCallback
        simp only
        have : ∀ c' : Ctx, c'.locals = c.locals → Q.callback h ev c' = P.callback h ev c' := by
          intro c' hc'
          refine hS.callback h ev c' (EvOK.visible ?_)
          rw [hc']; exact hev
        have hl : (if h = shutdownHandler then { c with isShutdown := true } else c : Ctx).locals = c.locals := by
          split <;> rfl
        rw [this _ hl]
      rw [hrc]
      cases hr : runCallback P ev h { s with ctx := c } with
      | mk s1 r1 =>
        cases r1 with
        | error err => rfl
        | ok es =>
          simp only
          have hs1 : EvOK (.event ev) s1.ctx.locals := by
            have : s1 = (runCallback P ev h { s with ctx := c }).1 := by rw [hr]
            rw [this]
            unfold runCallback
            refine applyEffects_evKeep none _ _ (hP.callback h ev _) _ ?_
            simp only
            split <;> exact hev
          rw [visitEach_same hS hP O n es s1 hs1]

theorem handleOne_wf {P : Prog} {O : Oracle} {fuel : Nat} {ev : Event} {h : Nat} {s s' : Proc}
    (hh : handleOne P O fuel ev h s = some (s', .ok ())) : s'.ctx.locals.cur = s.ctx.locals.cur :=
  ((handleOne_facts hh).2.2 rfl).2.1

theorem handleAll_same {ev : Event} {P Q : Prog} (hS : SameWhile (.event ev) P Q) (hP : P.KeepsEvent)
    (O : Oracle) (n : Nat) : ∀ (hs : List Nat) (s : Proc), s.ctx.locals.cur.Wf →
      handleAll Q O n ev hs s = handleAll P O n ev hs s
  | [], s, _ => rfl
  | h :: hs, s, hw => by
    have hm : Q.matchesEv = P.matchesEv := by rw [hS.rest]
    unfold handleAll
    rw [hm, handleOne_same hS hP O n h s hw]
    split
    · cases hh : handleOne P O n ev h s with
      | none => rfl
      | some x =>
        obtain ⟨s1, r⟩ := x
        cases r with
        | error e => rfl
        | ok u =>
          cases u
          exact handleAll_same hS hP O n hs s1 (by rw [handleOne_wf hh]; exact hw)
    · exact handleAll_same hS hP O n hs s hw

end Verif
