import Verif.Props.Accept

/-!
# Which error a badly written process gives (C43, C113)
-/

namespace Verif

/-- The piece of a parse method raises this error, whatever was read before. -/
def Raises {α : Type} (m : P α) (e : Ent) (x : Err) : Prop := ∀ r, ∃ r', m e r = (r', .error x)

namespace Raises

variable {α β : Type} {e : Ent} {x : Err}

theorem first {m : P α} {f : α → P β} (h : Raises m e x) : Raises (P.bind m f) e x := by
  intro r
  obtain ⟨r', h⟩ := h r
  exact ⟨r', by simp [P.bind, h]⟩

theorem next {m : P α} {f : α → P β} {a : α} {A N : List String} {C : Bool} (hm : Gives m e a A N C) (h : Raises (f a) e x) :
    Raises (P.bind m f) e x := by
  intro r
  obtain ⟨r', h1, _⟩ := hm r
  obtain ⟨r2, h2⟩ := h r'
  exact ⟨r2, by simp [P.bind, h1, h2]⟩

theorem lift {y : Res α} (h : y = .error x) : Raises (P.lift y) e x := fun r => ⟨r, by simp [P.lift, h]⟩

end Raises

theorem exec_raises {F : Front} {fuel : Nat} {e : Ent} {c : Option Cond} {x : Err} (ht : e.typeName = "executable") (R : ReadyToParse F e "executable" c)
    (h : Raises (parseExec F) e x) : parseAction F (fuel + 1) e = .error x := by
  obtain ⟨r, hr⟩ := Raises.next (f := fun c => P.bind (parseExec F) fun x => P.pure (PAct.mk c x)) R.base h.first {}
  have hm : parseMethod F (mapRes (parseAction F fuel)) "executable" = some (P.bind (parseBase F) fun c => P.bind (parseExec F) fun x => P.pure (.mk c x)) := by
    simp [parseMethod, parseKind]
  rw [parseAction, ht, hm]
  simp [checked, onFresh, hr]

theorem toPieces_mem (l : List Sub) (k : Nat) (t : String) (h : .text t ∈ l) : Piece.text t.toList ∈ toPieces l k := by
  induction l generalizing k with
  | nil => simp at h
  | cons y l ih =>
    rcases List.mem_cons.1 h with rfl | h
    · simp [toPieces]
    · have := ih (k + 1) h
      cases y <;> simp [toPieces, this]

theorem cmdSubs_error_iff (F : Front) (s : String) (l : List Sub) (hl : F.subst s = .ok l) :
    (cmdSubs F s = .error .valueError ↔ ∃ t, .text t ∈ l ∧ Shlex.split t.toList = none) ∧
    ((∀ t, .text t ∈ l → Shlex.split t.toList ≠ none) → ∃ cmd, cmdSubs F s = .ok cmd) := by
  have key := C43_error_iff (toPieces l 0)
  have key2 : (∃ t, Piece.text t ∈ toPieces l 0 ∧ Shlex.split t = none) ↔ ∃ t : String, .text t ∈ l ∧ Shlex.split t.toList = none := by
    constructor
    · rintro ⟨t, h1, h2⟩
      obtain ⟨y, hy, rfl⟩ := toPieces_texts l 0 t h1
      exact ⟨y, hy, h2⟩
    · rintro ⟨t, h1, h2⟩
      exact ⟨_, toPieces_mem l 0 t h1, h2⟩
  rw [key2] at key
  simp only [cmdSubs, hl]
  cases hp : parseCmdline (toPieces l 0) with
  | none => exact ⟨⟨fun _ => key.1 hp, fun _ => by simp⟩, fun h => absurd (key.1 hp) (by rintro ⟨t, h1, h2⟩; exact h t h1 h2)⟩
  | some args =>
    refine ⟨⟨fun h => by simp at h, fun h => ?_⟩, fun _ => by simp⟩
    rw [key.2 h] at hp
    simp at hp

/-- C43 in launch files: a command line with a text that by itself has an unclosed quotation (or ends in a backslash) is rejected with ValueError, whatever
the other attributes of the process are. -/
theorem C43_unclosed_rejected (F : Front) (fuel : Nat) (e : Ent) (c : Option Cond) (s t : String) (l : List Sub) (ht : e.typeName = "executable")
    (hd : Documented e) (hf : Formed e) (hc : CondGiven F e c) (hs : e.text "cmd" = some s) (hl : F.subst s = .ok l) (hm : .text t ∈ l)
    (hq : Shlex.split t.toList = none) : parseAction F (fuel + 1) e = .error .valueError := by
  have R := readyToParse ht hc hd hf
  refine exec_raises ht R ?_
  unfold parseExec
  refine Raises.next (.text hs (R.look _ (by decide))) ?_
  exact .first (.lift ((cmdSubs_error_iff F s l hl).1.2 ⟨t, hm, hq⟩))

/-- C113: a process whose `on_exit` is something else than `shutdown` is rejected with ValueError. -/
theorem C113_on_exit_rejected (F : Front) (fuel : Nat) (e : Ent) (c : Option Cond) (s o : String) (l : List Sub) (cwd name : Option (List Sub))
    (ht : e.typeName = "executable") (hd : Documented e) (hf : Formed e) (hc : CondGiven F e c) (hs : e.text "cmd" = some s) (hl : F.subst s = .ok l)
    (hq : ∀ t, .text t ∈ l → Shlex.split t.toList ≠ none) (h1 : MayDenote F e "cwd" cwd) (h2 : MayDenote F e "name" name)
    (ho : e.text "on_exit" = some o) (hne : o ≠ "shutdown") : parseAction F (fuel + 1) e = .error .valueError := by
  have R := readyToParse ht hc hd hf
  obtain ⟨cmd, hcmd⟩ := (cmdSubs_error_iff F s l hl).2 hq
  refine exec_raises ht R ?_
  unfold parseExec
  refine Raises.next (.text hs (R.look _ (by decide))) ?_
  refine Raises.next (.lift hcmd) ?_
  refine Raises.next (.subs? h1 (R.texts _ (by decide)) (R.look _ (by decide))) ?_
  refine Raises.next (.subs? h2 (R.texts _ (by decide)) (R.look _ (by decide))) ?_
  refine Raises.next (.text? ho (R.texts _ (by decide)) (R.look _ (by decide))) ?_
  exact .first (.lift (by simp [checkOnExit, hne]))

/-- C113: a timer whose period is a text that is not a number is rejected with ValueError. -/
theorem C113_period_rejected (F : Front) (fuel : Nat) (e : Ent) (c : Option Cond) (s t : String) (ht : e.typeName = "timer") (hd : Documented e) (hf : Formed e)
    (hc : CondGiven F e c) (hp : HasValue F.O .float "period" e (.str s)) (hs : F.subst s = .ok [.text t]) (hn : F.O.parseFloat t = none) :
    parseAction F (fuel + 1) e = .error .valueError := by
  have R := readyToParse ht hc hd hf
  have h : Raises (parseTimer F (mapRes (parseAction F fuel))) e .valueError := by
    unfold parseTimer
    refine Raises.next (.present hp (R.look _ (by decide))) ?_
    exact .first (.lift (by simp [periodArg, parseIfSubs, hs, hn]))
  obtain ⟨r, hr⟩ := Raises.next (f := fun c => P.bind (parseTimer F (mapRes (parseAction F fuel))) fun x => P.pure (PAct.mk c x)) R.base h.first {}
  have hm : parseMethod F (mapRes (parseAction F fuel)) "timer" =
      some (P.bind (parseBase F) fun c => P.bind (parseTimer F (mapRes (parseAction F fuel))) fun x => P.pure (.mk c x)) := by
    simp [parseMethod, parseKind]
  rw [parseAction, ht, hm]
  simp [checked, onFresh, hr]

/-- A delay or timeout that is given, and negative. -/
def GivenNegative (F : Front) (o : Option PyVal) : Prop := ∃ f, o = some (.float f) ∧ F.negative f = true

theorem nonNeg_error {F : Front} {o : Option PyVal} (h : GivenNegative F o) : checkNonNeg F o = .error .valueError := by
  obtain ⟨f, rfl, hf⟩ := h
  simp [checkNonNeg, hf]

/-- C113: a process with a negative delay before respawning, or a negative time to wait before SIGTERM or SIGKILL, is rejected with ValueError. -/
theorem C113_negative_rejected (F : Front) (fuel : Nat) (e : Ent) (c : Option Cond) (s : String) (l : List Sub) (cwd name pre output respawn : Option (List Sub))
    (retries delay sk st : Option PyVal) (ht : e.typeName = "executable") (hd : Documented e) (hf : Formed e) (hc : CondGiven F e c)
    (hs : e.text "cmd" = some s) (hl : F.subst s = .ok l) (hq : ∀ t, .text t ∈ l → Shlex.split t.toList ≠ none) (h1 : MayDenote F e "cwd" cwd)
    (h2 : MayDenote F e "name" name) (ho : e.text "on_exit" = none ∨ e.text "on_exit" = some "shutdown") (h3 : MayDenote F e "launch-prefix" pre)
    (h4 : MayDenote F e "output" output) (h5 : MayDenote F e "respawn" respawn) (h6 : MayHave F.O .int "respawn_max_retries" e retries)
    (h7 : MayHave F.O .float "respawn_delay" e delay) (h8 : MayHave F.O .float "sigkill_timeout" e sk) (h9 : MayHave F.O .float "sigterm_timeout" e st)
    (hn : GivenNegative F delay ∨ NotNegative F delay ∧ (GivenNegative F sk ∨ NotNegative F sk ∧ GivenNegative F st)) :
    parseAction F (fuel + 1) e = .error .valueError := by
  have R := readyToParse ht hc hd hf
  obtain ⟨cmd, hcmd⟩ := (cmdSubs_error_iff F s l hl).2 hq
  refine exec_raises ht R ?_
  unfold parseExec
  refine Raises.next (.text hs (R.look _ (by decide))) ?_
  refine Raises.next (.lift hcmd) ?_
  refine Raises.next (.subs? h1 (R.texts _ (by decide)) (R.look _ (by decide))) ?_
  refine Raises.next (.subs? h2 (R.texts _ (by decide)) (R.look _ (by decide))) ?_
  obtain ⟨o, b, ho1, ho2⟩ : ∃ o b, e.text "on_exit" = o ∧ checkOnExit o = .ok b := by
    rcases ho with ho | ho
    · exact ⟨_, _, ho, rfl⟩
    · exact ⟨_, _, ho, rfl⟩
  refine Raises.next (.text? ho1 (R.texts _ (by decide)) (R.look _ (by decide))) ?_
  refine Raises.next (.lift ho2) ?_
  refine Raises.next (.subs? h3 (R.texts _ (by decide)) (R.look _ (by decide))) ?_
  refine Raises.next (.subs? h4 (R.texts _ (by decide)) (R.look _ (by decide))) ?_
  refine Raises.next (.subs? h5 (R.texts _ (by decide)) (R.look _ (by decide))) ?_
  refine Raises.next (.may h6 (R.look _ (by decide))) ?_
  refine Raises.next (.may h7 (R.look _ (by decide))) ?_
  rcases hn with hn | ⟨hp, hn⟩
  · exact .first (.lift (nonNeg_error hn))
  refine Raises.next (.lift (nonNeg_ok hp)) ?_
  refine Raises.next (.may h8 (R.look _ (by decide))) ?_
  rcases hn with hn | ⟨hp, hn⟩
  · exact .first (.lift (nonNeg_error hn))
  refine Raises.next (.lift (nonNeg_ok hp)) ?_
  refine Raises.next (.may h9 (R.look _ (by decide))) ?_
  exact .first (.lift (nonNeg_error hn))

/-! A process with an unclosed quotation, one with a wrong `on_exit`, and one with a negative delay. -/

example : Shlex.split "say 'hello".toList = none := by decide +kernel

example : parseAction textFront 1 (.xml (.elem "executable" [("cmd", "say 'hello"), ("cwd", "/")] [])) = .error .valueError := rfl

example : parseAction textFront 1 (.xml (.elem "executable" [("cmd", "say hello"), ("on_exit", "restart")] [])) = .error .valueError := rfl

example : Documented (.xml (.elem "executable" [("cmd", "say 'hello"), ("cwd", "/")] [])) ∧ Formed (.xml (.elem "executable" [("cmd", "say 'hello"), ("cwd", "/")] [])) := by
  refine ⟨.mk (by decide) ⟨by decide, fun _ y hy => absurd hy (by simp [Xml.nested])⟩ ?_ (fun h => absurd h (by decide)),
    .mk ?_ (fun n _ => by simp [NestedListed]) (fun n hn => absurd hn (by decide +revert)) (fun h => absurd h (by decide)) (fun h => absurd h (by decide))⟩
  · intro n _ y hy
    simp [nestedEnts, Xml.nested] at hy
  · intro n _
    cases h : (Xml.elem "executable" [("cmd", "say 'hello"), ("cwd", "/")] []).attrs.get? n with
    | none => exact .inl h
    | some t => exact .inr ⟨t, h⟩

example : ∃ e : Ent, e.typeName = "executable" ∧ e.text "cmd" = some "say" ∧
    MayHave textFront.O .float "respawn_delay" e (some (.float ⟨"-1"⟩)) ∧ GivenNegative { textFront with negative := fun f => f == ⟨"-1"⟩ } (some (.float ⟨"-1"⟩)) ∧
    parseAction { textFront with negative := fun f => f == ⟨"-1"⟩ } 1 e = .error .valueError :=
  ⟨.yaml (.dict [("cmd", .scalar (.str "say")), ("respawn_delay", .scalar (.float ⟨"-1"⟩))]) "executable", rfl, rfl,
    .inr ⟨_, rfl, rfl, .inl rfl⟩, ⟨_, rfl, rfl⟩, rfl⟩

end Verif
