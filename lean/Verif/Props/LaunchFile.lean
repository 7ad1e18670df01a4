import Verif.Lemmas.LaunchFile
import Verif.Props.Grammar
import Verif.Props.Meaning

/-!
# Property C98: what a launch file does
-/

namespace Verif

/-! ## What the tags say determines what is done -/

theorem Evals.det {O : Oracle} {l : List Sub} {w : FileState} {s s' : String} {w1 w1' : FileState} (h : Evals O l w s w1) (h' : Evals O l w s' w1') : s = s' ∧ w1 = w1' := by
  obtain ⟨a, b⟩ := h
  obtain ⟨a', b'⟩ := h'
  rw [a, Prod.mk.injEq] at a'
  obtain ⟨e, f⟩ := a'
  refine ⟨by simpa using f, ?_⟩
  have e1 : w1.lc = w1'.lc := congrArg Ctx.lc e
  have e2 : w1.rng = w1'.rng := congrArg Ctx.rng e
  rw [b, b', e1, e2]

theorem Holds.det {O : Oracle} {c : Option Cond} {w : FileState} {b b' : Bool} {w1 w1' : FileState} (h : Holds O c w b w1) (h' : Holds O c w b' w1') : b = b' ∧ w1 = w1' := by
  cases h with
  | always => cases h'; exact ⟨rfl, rfl⟩
  | ifC e t =>
    cases h' with
    | ifC e' t' =>
      obtain ⟨rfl, rfl⟩ := e.det e'
      rw [t, Except.ok.injEq] at t'
      exact ⟨t', rfl⟩
  | unlessC e t =>
    cases h' with
    | unlessC e' t' =>
      obtain ⟨rfl, rfl⟩ := e.det e'
      rw [t, Except.ok.injEq] at t'
      exact ⟨by rw [t'], rfl⟩

theorem AssignsAll.det {O : Oracle} {l : List (List Sub × List Sub)} {w w1 w1' : FileState} (h : AssignsAll O l w w1) (h' : AssignsAll O l w w1') : w1 = w1' := by
  induction h with
  | nil => cases h'; rfl
  | cons a b _ ih =>
    cases h' with
    | cons a' b' r' =>
      obtain ⟨rfl, rfl⟩ := a.det a'
      obtain ⟨rfl, rfl⟩ := b.det b'
      exact ih r'

theorem EvalPairs.det {O : Oracle} {l : List (List Sub × List Sub)} {w w1 w1' : FileState} {ps ps' : List (String × String)} (h : EvalPairs O l w ps w1)
    (h' : EvalPairs O l w ps' w1') : ps = ps' ∧ w1 = w1' := by
  induction h generalizing ps' with
  | nil => cases h'; exact ⟨rfl, rfl⟩
  | cons a b _ ih =>
    cases h' with
    | cons a' b' r' =>
      obtain ⟨rfl, rfl⟩ := a.det a'
      obtain ⟨rfl, rfl⟩ := b.det b'
      obtain ⟨rfl, rfl⟩ := ih r'
      exact ⟨rfl, rfl⟩

theorem EvalNames.det {O : Oracle} {l : List (List Sub × List Sub)} {w w1 w1' : FileState} (h : EvalNames O l w w1) (h' : EvalNames O l w w1') : w1 = w1' := by
  induction h with
  | nil => cases h'; rfl
  | cons a _ ih =>
    cases h' with
    | cons a' r' =>
      obtain ⟨rfl, rfl⟩ := a.det a'
      exact ih r'

theorem map_sub_inj {l l' : List Sub} (h : l.map TVal.sub = l'.map TVal.sub) : l = l' := by
  induction l generalizing l' with
  | nil => cases l' with
    | nil => rfl
    | cons _ _ => simp at h
  | cons a l ih => cases l' with
    | nil => simp at h
    | cons b l' =>
      simp only [List.map_cons, List.cons.injEq, TVal.sub.injEq] at h
      rw [h.1, ih h.2]

theorem Prepends.det {O : Oracle} {p : Option TVal} {w : FileState} {b b' : Bool} {w1 w1' : FileState} (h : Prepends O p w b w1) (h' : Prepends O p w b' w1') :
    b = b' ∧ w1 = w1' := by
  cases h with
  | absent => cases h'; exact ⟨rfl, rfl⟩
  | flag => cases h'; exact ⟨rfl, rfl⟩
  | @text l s _ _ _ ne e t =>
    generalize hp : some (TVal.seq (l.map TVal.sub)) = p at h'
    cases h' with
    | absent => cases hp
    | flag => cases hp
    | text ne' e' t' =>
      simp only [Option.some.injEq, TVal.seq.injEq] at hp
      have := map_sub_inj hp
      subst this
      obtain ⟨rfl, rfl⟩ := e.det e'
      rw [t] at t'
      simp only [Except.ok.injEq, PyVal.bool.injEq] at t'
      exact ⟨t', rfl⟩

mutual
theorem Does.det {O : Oracle} {S : Surroundings} : ∀ {a : PAct} {w w1 w1' : FileState}, Does O S a w w1 → Does O S a w w1' → w1 = w1'
  | _, _, _, _, .skipped h, h' => by
    cases h' with
    | skipped h2 => exact (h.det h2).2
    | done h2 _ => cases (h.det h2).1
  | _, _, _, _, .done h p, h' => by
    cases h' with
    | skipped h2 => cases (h.det h2).1
    | done h2 p2 =>
      obtain ⟨_, rfl⟩ := h.det h2
      exact p.det p2

theorem Performs.det {O : Oracle} {S : Surroundings} : ∀ {k : PKind} {w w1 w1' : FileState}, Performs O S k w w1 → Performs O S k w w1' → w1 = w1'
  | _, _, _, _, .letLC a b, h' => by
    cases h' with
    | letLC a' b' =>
      obtain ⟨rfl, rfl⟩ := a.det a'
      obtain ⟨rfl, rfl⟩ := b.det b'
      rfl
  | _, _, _, _, .argGiven a b, h' => by
    cases h' with
    | argGiven a' b' => rfl
    | argDefault a' _ _ => rw [a] at a'; cases a'
  | _, _, _, _, .argDefault a e _, h' => by
    cases h' with
    | argGiven a' b' => rw [a] at a'; cases a'
    | argDefault a' e' _ =>
      obtain ⟨rfl, rfl⟩ := e.det e'
      rfl
  | _, _, _, _, .scopedGroup hs hf a d, h' => by
    cases h' with
    | scopedGroup hs' hf' a' d' =>
      obtain rfl := a.det a'
      obtain rfl := d.det d'
      rfl
    | cleanGroup hs' hf' a' d' => rw [hf] at hf'; cases hf'
    | openGroup hs' a' d' => rw [hs] at hs'; cases hs'
  | _, _, _, _, .cleanGroup hs hf a d, h' => by
    cases h' with
    | scopedGroup hs' hf' a' d' => rw [hf] at hf'; cases hf'
    | cleanGroup hs' hf' a' d' =>
      obtain ⟨rfl, rfl⟩ := a.det a'
      obtain rfl := d.det d'
      rfl
    | openGroup hs' a' d' => rw [hs] at hs'; cases hs'
  | _, _, _, _, .openGroup hs a d, h' => by
    cases h' with
    | scopedGroup hs' hf' a' d' => rw [hs] at hs'; cases hs'
    | cleanGroup hs' hf' a' d' => rw [hs] at hs'; cases hs'
    | openGroup hs' a' d' =>
      obtain rfl := a.det a'
      exact d.det d'
  | _, _, _, _, .includeFile e f n a d, h' => by
    cases h' with
    | includeFile e' f' n' a' d' =>
      obtain ⟨rfl, rfl⟩ := e.det e'
      rw [f, Except.ok.injEq] at f'
      subst f'
      obtain rfl := n.det n'
      obtain rfl := a.det a'
      exact d.det d'
  | _, _, _, _, .setEnv a b, h' => by
    cases h' with
    | setEnv a' b' =>
      obtain ⟨rfl, rfl⟩ := a.det a'
      obtain ⟨rfl, rfl⟩ := b.det b'
      rfl
  | _, _, _, _, .unsetEnv a, h' => by
    cases h' with
    | unsetEnv a' =>
      obtain ⟨rfl, rfl⟩ := a.det a'
      rfl
  | _, _, _, _, .appendEnvNew a b p s g, h' => by
    cases h' with
    | appendEnvNew a' b' p' s' g' =>
      obtain ⟨rfl, rfl⟩ := a.det a'
      obtain ⟨rfl, rfl⟩ := b.det b'
      obtain ⟨rfl, rfl⟩ := p.det p'
      obtain ⟨rfl, rfl⟩ := s.det s'
      rfl
    | appendEnv a' b' p' s' g' =>
      obtain ⟨rfl, rfl⟩ := a.det a'
      obtain ⟨rfl, rfl⟩ := b.det b'
      obtain ⟨rfl, rfl⟩ := p.det p'
      obtain ⟨rfl, rfl⟩ := s.det s'
      rw [g] at g'; cases g'
    | prependEnv a' b' p' s' g' =>
      obtain ⟨rfl, rfl⟩ := a.det a'
      obtain ⟨rfl, rfl⟩ := b.det b'
      obtain ⟨rfl, rfl⟩ := p.det p'
      obtain ⟨rfl, rfl⟩ := s.det s'
      rw [g] at g'; cases g'
  | _, _, _, _, .appendEnv a b p s g, h' => by
    cases h' with
    | appendEnvNew a' b' p' s' g' =>
      obtain ⟨rfl, rfl⟩ := a.det a'
      obtain ⟨rfl, rfl⟩ := b.det b'
      obtain ⟨rfl, rfl⟩ := p.det p'
      obtain ⟨rfl, rfl⟩ := s.det s'
      rw [g] at g'; cases g'
    | appendEnv a' b' p' s' g' =>
      obtain ⟨rfl, rfl⟩ := a.det a'
      obtain ⟨rfl, rfl⟩ := b.det b'
      obtain ⟨_, rfl⟩ := p.det p'
      obtain ⟨rfl, rfl⟩ := s.det s'
      rw [g, Option.some.injEq] at g'
      subst g'
      rfl
    | prependEnv a' b' p' s' g' =>
      obtain ⟨rfl, rfl⟩ := a.det a'
      obtain ⟨rfl, rfl⟩ := b.det b'
      cases (p.det p').1
  | _, _, _, _, .prependEnv a b p s g, h' => by
    cases h' with
    | appendEnvNew a' b' p' s' g' =>
      obtain ⟨rfl, rfl⟩ := a.det a'
      obtain ⟨rfl, rfl⟩ := b.det b'
      obtain ⟨rfl, rfl⟩ := p.det p'
      obtain ⟨rfl, rfl⟩ := s.det s'
      rw [g] at g'; cases g'
    | appendEnv a' b' p' s' g' =>
      obtain ⟨rfl, rfl⟩ := a.det a'
      obtain ⟨rfl, rfl⟩ := b.det b'
      cases (p.det p').1
    | prependEnv a' b' p' s' g' =>
      obtain ⟨rfl, rfl⟩ := a.det a'
      obtain ⟨rfl, rfl⟩ := b.det b'
      obtain ⟨_, rfl⟩ := p.det p'
      obtain ⟨rfl, rfl⟩ := s.det s'
      rw [g, Option.some.injEq] at g'
      subst g'
      rfl
  | _, _, _, _, .resetEnv, h' => by cases h'; rfl
  | _, _, _, _, .resetAll, h' => by cases h'; rfl
  | _, _, _, _, .resetLC e, h' => by
    cases h' with
    | resetLC e' =>
      obtain ⟨rfl, rfl⟩ := e.det e'
      rfl
  | _, _, _, _, .log e, h' => by
    cases h' with
    | log e' =>
      obtain ⟨rfl, rfl⟩ := e.det e'
      rfl
  | _, _, _, _, .shutdown, h' => by cases h'; rfl
  | _, _, _, _, .timer e, h' => by
    cases h' with
    | timer e' => rw [e, Option.some.injEq] at e'; exact e'
  | _, _, _, _, .executable e, h' => by
    cases h' with
    | executable e' => rw [e, Option.some.injEq] at e'; exact e'

theorem DoesAll.det {O : Oracle} {S : Surroundings} : ∀ {as : List PAct} {w w1 w1' : FileState}, DoesAll O S as w w1 → DoesAll O S as w w1' → w1 = w1'
  | _, _, _, _, .nil, h' => by cases h'; rfl
  | _, _, _, _, .cons a r, h' => by
    cases h' with
    | cons a' r' =>
      obtain rfl := a.det a'
      exact r.det r'
end

/-- C98.  The tags of a launch file determine what they do. -/
theorem C98_determined (O : Oracle) (S : Surroundings) (as : List PAct) (w w1 w2 : FileState) (h1 : DoesAll O S as w w1) (h2 : DoesAll O S as w w2) : w1 = w2 := h1.det h2

/-! ## The launch file is done -/

/-- C98 (partial).  Whenever a launch description made from a launch file is visited successfully, everything was done that the tags of the file say, in
their order and nothing else.  It is assumed that no action object is visited twice, and that timers and processes
do to the context at once what `start` says.  Missing for the full property: the directory of the launch file after an include
(`C98_dirname_after_include_violated`) and the reason of a shutdown (`C98_shutdown_reason_violated`) are not what the file says. -/
theorem C98_launch_file_partial (F : Front) (fuel : Nat) (file : Ent) (d : PDesc) (hfile : parseDescription F fuel file = .ok d)
    (P : Prog) (O : Oracle) (X : Objects) (start : PKind → FileState → Option FileState) (hstart : StartsAs P X start) (hloads : Loads P X)
    (es : List Entity) (hb : BuiltAll P X d.actions es) (n : Nat) (c c' : Ctx) (fs : List Fut) (henv : c.env.Wf) (hreset : c.envReset.Wf) (hsrc : c.srcLoc = [])
    (h : visit P O n (.desc es) c = some (c', .ok fs)) (honce : c'.trace.Nodup) :
    ∃ acts, Each2 (fun y a => Says F y a) (childEnts file) acts ∧ DoesAll O (surroundings P X start) acts (stateOf X c) (stateOf X c') := by
  refine ⟨d.actions, (C65_description F fuel file d hfile).2.2, ?_⟩
  cases n with
  | zero => simp [visit] at h
  | succ n =>
    obtain ⟨c1, subs, gs, hent, hvl, _⟩ := visit_ok h
    simp only [enter, Option.some.injEq, Prod.mk.injEq, Except.ok.injEq] at hent
    obtain ⟨rfl, rfl⟩ := hent
    exact (visitList_doneBy (doneBy hstart hloads n) _ _ _ _ _ hb hvl ⟨henv, hreset, fun s l hm => by rw [hsrc] at hm; cases hm⟩ honce).1

/-! ## Examples -/

/-- A parser for the example: it knows the texts of the example. -/
def fileFront : Front where
  subst := fun s =>
    if s = "in $(var a)" then .ok [.text "in ", .launchConfig [.text "a"] none]
    else if s = "$(var a)" then .ok [.launchConfig [.text "a"] none]
    else if s = "out $(var a) $(dirname)" then .ok [.text "out ", .launchConfig [.text "a"] none, .text " ", .thisLaunchFileDir]
    else .ok [.text s]
  negative := fun _ => false
  O := sampleOracle

/-- The parser of substitutions reads them so. -/
example : parseSubstitution "out $(var a) $(dirname)" = fileFront.subst "out $(var a) $(dirname)" := by
  refine (C74_parse_substitution _ (by decide) _).2
    ⟨[.text "out ".toList, .sub "var".toList [[.text "a".toList]], .text " ".toList, .sub "dirname".toList []], (parseFrags_iff _ _).1 (by decide +kernel), ?_⟩
  simp [Frag.buildAll, Frag.build, Frag.buildArgs, instantiate]

/-- A launch file: a configuration, a group that changes it for itself, a message that is not wanted, an included file, and a message. -/
def sampleFile : Ent := .xml (.elem "launch" [] [
  .elem "let" [("name", "a"), ("value", "1")] [],
  .elem "group" [] [.elem "let" [("name", "a"), ("value", "2")] [], .elem "log" [("message", "in $(var a)")] []],
  .elem "log" [("message", "never"), ("if", "0")] [],
  .elem "include" [("file", "/sub/b.xml")] [.elem "arg" [("name", "b"), ("value", "$(var a)")] []],
  .elem "log" [("message", "out $(var a) $(dirname)")] []])

/-- The tags of the file. -/
def fileActs : List PAct :=
  [.mk none (.letLC [.text "a"] [.text "1"]),
   .mk none (.group none none none [.mk none (.letLC [.text "a"] [.text "2"]), .mk none (.log [.text "in ", .launchConfig [.text "a"] none])]),
   .mk (some (.ifC [.text "0"])) (.log [.text "never"]),
   .mk none (.includeFile [.text "/sub/b.xml"] (some [([.text "b"], [.launchConfig [.text "a"] none])])),
   .mk none (.log [.text "out ", .launchConfig [.text "a"] none, .text " ", .thisLaunchFileDir])]

/-- The tags of the included file. -/
def sampleIncluded : List PAct := [.mk none (.log [.text "sub ", .launchConfig [.text "b"] none])]

def sampleIncludedEntities : List Entity := [.act (.user 7) none (.logInfo [.text "sub ", .launchConfig [.text "b"] none])]

def fileEntities : List Entity :=
  [.act (.user 0) none (.setLC [.text "a"] [.text "1"]),
   .act (.user 1) none (.group true true [] [.act (.user 2) none (.setLC [.text "a"] [.text "2"]), .act (.user 3) none (.logInfo [.text "in ", .launchConfig [.text "a"] none])]),
   .act (.user 4) (some (.ifC [.text "0"])) (.logInfo [.text "never"]),
   .act (.user 5) none (.includeLD 5 [([.text "b"], [.launchConfig [.text "a"] none])]),
   .act (.user 6) none (.logInfo [.text "out ", .launchConfig [.text "a"] none, .text " ", .thisLaunchFileDir])]

def fileProg : Prog where
  source := fun _ => ⟨[.text "/sub/b.xml"], fun loc => if loc = "/sub/b.xml" then .ok sampleIncludedEntities else .error .runtimeError⟩
  launchFile := fun loc => (loc, "/sub")

def fileObjects : Objects where
  tag := fun
    | .user 0 => .mk none (.letLC [.text "a"] [.text "1"])
    | .user 1 => .mk none (.group none none none [.mk none (.letLC [.text "a"] [.text "2"]), .mk none (.log [.text "in ", .launchConfig [.text "a"] none])])
    | .user 2 => .mk none (.letLC [.text "a"] [.text "2"])
    | .user 3 => .mk none (.log [.text "in ", .launchConfig [.text "a"] none])
    | .user 4 => .mk (some (.ifC [.text "0"])) (.log [.text "never"])
    | .user 5 => .mk none (.includeFile [.text "/sub/b.xml"] (some [([.text "b"], [.launchConfig [.text "a"] none])]))
    | .user 6 => .mk none (.log [.text "out ", .launchConfig [.text "a"] none, .text " ", .thisLaunchFileDir])
    | _ => .mk none (.log [.text "sub ", .launchConfig [.text "b"] none])
  reason := fun _ => "reason"
  files := fun loc => if loc = "/sub/b.xml" then .ok sampleIncluded else .error .runtimeError
  code := fun _ => 0

/-- While the file in `/top` is read. -/
def fileStart : Ctx := { locals := Locals.extendLocals {} [("current_launch_file_path", .str "/top/a.xml"), ("current_launch_file_directory", .str "/top")] }

theorem sampleIncluded_built : BuiltAll fileProg fileObjects sampleIncluded sampleIncludedEntities := .cons (.mk .always rfl .log) .nil

theorem sample_built : BuiltAll fileProg fileObjects fileActs fileEntities :=
  .cons (.mk .always rfl .letLC) <| .cons (.mk .always rfl (.group (.cons (.mk .always rfl .letLC) (.cons (.mk .always rfl .log) .nil)))) <|
    .cons (.mk .ifC rfl .log) <| .cons (.mk .always rfl (.includeFile rfl)) <| .cons (.mk .always rfl .log) .nil

theorem sample_loads : Loads fileProg fileObjects := by
  intro i loc es h
  simp only [fileProg] at h
  split at h
  · rename_i hl
    injection h with h
    subst h
    exact ⟨_, by simp [fileObjects, hl], sampleIncluded_built⟩
  · cases h

theorem sample_starts : StartsAs fileProg fileObjects (fun _ w => some w) := by
  intro k i c es h
  simp only [fileProg] at h
  injection h with h
  exact ⟨h.symm, rfl⟩

/-- The file is parsed into these tags. -/
theorem sample_parsed : ∃ d, parseDescription fileFront 5 sampleFile = .ok d ∧ d.actions = fileActs := ⟨_, rfl, rfl⟩

/-- It is visited successfully, no action twice, and the messages are those that the file asks for (except that the directory is that of the included file). -/
example : ((visit fileProg sampleOracle 30 (.desc fileEntities) fileStart).map fun r => (r.2.isOk, decide r.1.trace.Nodup, r.1.logged)) =
    some (true, true, ["in 2", "sub 1", "out 1 /sub"]) := by decide +kernel

example : ((visit fileProg sampleOracle 30 (.desc fileEntities) fileStart).map fun r => (r.1.trace.filter ActId.isUser, r.1.lc.get? "a", r.1.lc.get? "b")) =
    some ([.user 0, .user 1, .user 2, .user 3, .user 5, .user 7, .user 6], some "1", some "1") := by decide +kernel

/-! ## What a launch file does not do -/

/-- C98 (negation).  `$(dirname)` in a launch file is not always the directory of that file: here the directory is `/top` before an include, and a tag after the include
logs `/sub`, the directory of the included file. -/
theorem C98_dirname_after_include_violated :
    ∃ (P : Prog) (O : Oracle) (c : Ctx) (file sub after : Entity), (performSubs O [.thisLaunchFileDir] c).2 = .ok "/top" ∧ sub = .act (.user 5) none (.includeLD 5 []) ∧
      after = .act (.user 6) none (.logInfo [.thisLaunchFileDir]) ∧ file = .desc [sub, after] ∧
      (visit P O 30 file c).map (fun r => (r.2.isOk, r.1.logged)) = some (true, ["/sub"]) :=
  ⟨{ fileProg with source := fun _ => ⟨[.text "/sub/b.xml"], fun _ => .ok []⟩ }, sampleOracle, fileStart, _, _, _, rfl, rfl, rfl, rfl, by decide +kernel⟩

/-- C98 (negation).  The value of the attribute `reason` of `<shutdown>` plays no role: in two contexts where `$(var a)` has different values
the same reason is given. -/
theorem C98_shutdown_reason_violated (P : Prog) (O : Oracle) (X : Objects) (e : Entity) (h : Built P X (.mk none (.shutdown (some [.launchConfig [.text "a"] none]))) e) :
    ∃ c1 c2 d1 d2 f1 f2, (performSubs O [.launchConfig [.text "a"] none] c1).2 = .ok "1" ∧ (performSubs O [.launchConfig [.text "a"] none] c2).2 = .ok "2" ∧
      visit P O 3 e c1 = some (d1, .ok f1) ∧ visit P O 3 e c2 = some (d2, .ok f2) ∧
      d1.emitted.filterMap Event.shutdownReason = d2.emitted.filterMap Event.shutdownReason ∧ (d1.emitted.filterMap Event.shutdownReason).length = 1 := by
  cases h with
  | mk _ _ hb =>
    cases hb with
    | shutdown => exact ⟨{ lc := [("a", "1")] }, { lc := [("a", "2")] }, _, _, _, _, rfl, rfl, rfl, rfl, rfl, rfl⟩

end Verif
