import Verif.Props.Executable
import Verif.Lemmas.Typed
import Verif.Spec.Meaning
import Verif.Spec.Subst
import Verif.Lemmas.Parse

/-!
# The actions that launch files describe (C65)
-/

namespace Verif

theorem attrVal_inv {O : Oracle} {n : String} {t : ScalarTy} {o : Bool} {e : Ent} {r r' : Reads} {v : Option PyVal}
    (h : attrVal O n (.scalar t) o e r = (r', .ok v)) : MayHave O t n e v ∧ (o = false → v ≠ none) := by
  unfold attrVal at h
  cases e with
  | xml x =>
    simp only [Ent.getAttr, xmlGetAttr] at h
    cases hx : x.attrs.get? n with
    | none =>
      simp only [hx] at h
      cases o with
      | false => simp at h
      | true => simp at h; exact ⟨.inl ⟨h.2.symm, hx⟩, by simp⟩
    | some s =>
      simp only [hx] at h
      cases hs : x.attrs.get? (n ++ "-sep") with
      | none =>
        simp only [hs, xmlTyped, getTypedValue] at h
        cases hc : coerceToType O s (some (.scalar t)) true with
        | error e =>
          simp only [hc] at h
          cases e <;> simp at h
        | ok w =>
          simp only [hc] at h
          simp at h
          exact ⟨.inr ⟨w, h.2.symm, s, hx, hc⟩, by simp [← h.2]⟩
      | some sep =>
        simp only [hs] at h
        by_cases he : sep = ""
        · simp [he] at h
        · simp [he, xmlTyped, getTypedValue] at h
  | yaml y tn =>
    simp only [Ent.getAttr, yamlGetAttr] at h
    cases y with
    | dict d =>
      simp only [yamlLookup] at h
      cases hd : Dict.get? d n with
      | none =>
        simp only [hd] at h
        cases o with
        | false => simp at h
        | true => simp at h; exact ⟨.inl ⟨h.2.symm, hd⟩, by simp⟩
      | some z =>
        simp only [hd] at h
        cases hi : isInstanceOf z.toPyVal (some (.scalar t)) true with
        | false => simp [hi] at h
        | true =>
          simp only [hi] at h
          simp at h
          cases z with
          | dict w => cases t <;> simp [Yaml.toPyVal, isInstanceOf, isInstOrStr, PyVal.isInst, PyVal.isStr] at hi
          | list w => cases t <;> simp [Yaml.toPyVal, isInstanceOf, isInstOrStr, PyVal.isInst, PyVal.isStr] at hi
          | scalar w =>
            simp only [Yaml.toPyVal] at h hi
            refine ⟨.inr ⟨w, h.2.symm, hd, ?_⟩, by simp [← h.2]⟩
            simp only [isInstanceOf, isInstOrStr, Bool.true_and, Bool.or_eq_true] at hi
            rcases hi with hi | hi
            · exact .inl hi
            · right
              cases w <;> simp [PyVal.isStr] at hi
              exact ⟨_, rfl⟩
    | list l =>
      cases hl : yamlLookup (.list l) n with
      | error x => simp [hl] at h
      | ok q =>
        cases q with
        | none =>
          simp only [hl] at h
          cases o with
          | false => simp at h
          | true => simp at h; exact ⟨.inl ⟨h.2.symm, trivial⟩, by simp⟩
        | some d =>
          exfalso
          simp only [yamlLookup] at hl
          split at hl <;> simp at hl
    | scalar w =>
      cases hl : yamlLookup (.scalar w) n with
      | error x => simp [hl] at h
      | ok q =>
        cases q with
        | none =>
          simp only [hl] at h
          cases o with
          | false => simp at h
          | true => simp at h; exact ⟨.inl ⟨h.2.symm, trivial⟩, by simp⟩
        | some d =>
          exfalso
          revert hl
          unfold yamlLookup
          split
          · simp at *
          · simp at *
          · split <;> simp
          · simp

theorem text_of_absent {n : String} {e : Ent} (h : Absent n e) : e.text n = none := by
  cases e with
  | xml x => exact h
  | yaml y t =>
    cases y with
    | dict d => simp only [Absent] at h; simp [Ent.text, h]
    | list l => rfl
    | scalar w => rfl

theorem text_of_hasValue {O : Oracle} {n : String} {e : Ent} {s : String} (h : HasValue O .str n e (.str s)) : e.text n = some s := by
  cases e with
  | xml x =>
    obtain ⟨t, h1, h2⟩ := h
    simp [coerceToType] at h2
    subst h2
    exact h1
  | yaml y t =>
    cases y with
    | dict d => simp [Ent.text, h.1]
    | list l => exact absurd h (by simp [HasValue])
    | scalar w => exact absurd h (by simp [HasValue])

theorem attrText?_inv {O : Oracle} {n : String} {e : Ent} {r r' : Reads} {v : Option String} (h : attrText? O n e r = (r', .ok v)) : e.text n = v := by
  obtain ⟨r1, w, h1, h2⟩ := P.bind_ok h
  rcases (attrVal_inv h1).1 with ⟨rfl, ha⟩ | ⟨w', rfl, hv⟩
  · simp [P.pure] at h2
    rw [← h2.2, text_of_absent ha]
  · cases w' <;> simp [P.pure, P.raise] at h2
    rw [← h2.2, text_of_hasValue hv]

theorem attrText_inv {O : Oracle} {n : String} {e : Ent} {r r' : Reads} {v : String} (h : attrText O n e r = (r', .ok v)) : e.text n = some v := by
  obtain ⟨r1, w, h1, h2⟩ := P.bind_ok h
  rcases (attrVal_inv h1).1 with ⟨rfl, ha⟩ | ⟨w', rfl, hv⟩
  · simp [P.raise] at h2
  · cases w' <;> simp [P.pure, P.raise] at h2
    rw [← h2.2, text_of_hasValue hv]

theorem lift_inv {α : Type} {x : Res α} {e : Ent} {r r' : Reads} {a : α} (h : P.lift x e r = (r', .ok a)) : x = .ok a := by
  simp [P.lift] at h; exact h.2

theorem attrSubs_inv {F : Front} {n : String} {e : Ent} {r r' : Reads} {l : List Sub} (h : attrSubs F n e r = (r', .ok l)) : Denotes F e n l := by
  obtain ⟨r1, s, h1, h2⟩ := P.bind_ok h
  exact ⟨s, attrText_inv h1, lift_inv h2⟩

theorem attrSubs?_inv {F : Front} {n : String} {e : Ent} {r r' : Reads} {o : Option (List Sub)} (h : attrSubs? F n e r = (r', .ok o)) : MayDenote F e n o := by
  obtain ⟨r1, v, h1, h2⟩ := P.bind_ok h
  have ht := attrText?_inv h1
  cases v with
  | none => simp [P.pure] at h2; exact .inl ⟨h2.2.symm, ht⟩
  | some s =>
    obtain ⟨r2, l, h3, h4⟩ := P.bind_ok h2
    simp [P.pure] at h4
    exact .inr ⟨l, h4.2.symm, s, ht, lift_inv h3⟩

theorem parseBase_inv {F : Front} {e : Ent} {r r' : Reads} {c : Option Cond} (h : parseBase F e r = (r', .ok c)) : CondGiven F e c := by
  obtain ⟨r1, i, h1, h⟩ := P.bind_ok h
  obtain ⟨r2, u, h2, h⟩ := P.bind_ok h
  have ti := attrText?_inv h1
  have tu := attrText?_inv h2
  cases i with
  | none =>
    cases u with
    | none => simp [P.pure] at h; exact .inl ⟨h.2.symm, ti, tu⟩
    | some u =>
      obtain ⟨r3, l, h3, h4⟩ := P.bind_ok h
      simp [P.pure] at h4
      exact .inr (.inr ⟨l, h4.2.symm, ⟨u, tu, lift_inv h3⟩, ti⟩)
  | some i =>
    cases u with
    | none =>
      obtain ⟨r3, l, h3, h4⟩ := P.bind_ok h
      simp [P.pure] at h4
      exact .inr (.inl ⟨l, h4.2.symm, ⟨i, ti, lift_inv h3⟩, tu⟩)
    | some u => simp [P.raise] at h

theorem mapRes_each2 {α β : Type} {f : α → Res β} {l : List α} {bs : List β} (h : mapRes f l = .ok bs) : Each2 (fun a b => f a = .ok b) l bs := by
  induction l generalizing bs with
  | nil => simp [mapRes] at h; subst h; exact .nil
  | cons x xs ih =>
    unfold mapRes at h
    cases hx : f x with
    | error e => simp [hx] at h
    | ok b =>
      cases hs : mapRes f xs with
      | error e => simp [hx, hs] at h
      | ok cs =>
        simp [hx, hs] at h
        subst h
        exact .cons hx (ih hs)

theorem Each2.imp {α β : Type} {R S : α → β → Prop} (hRS : ∀ a b, R a b → S a b) {l : List α} {l' : List β} (h : Each2 R l l') : Each2 S l l' := by
  induction h with
  | nil => exact .nil
  | cons h _ ih => exact .cons (hRS _ _ h) ih

theorem Each2.map_right {α β γ : Type} {R : α → γ → Prop} {g : β → γ} {l : List α} {l' : List β} (h : Each2 (fun a b => R a (g b)) l l') : Each2 R l (l'.map g) := by
  induction h with
  | nil => exact .nil
  | cons h _ ih => exact .cons h ih

theorem parsePairs_inv {F : Front} {es : List Ent} {ps : List (List Sub × List Sub)} (h : parsePairs F es = .ok ps) :
    Each2 (fun y p => Denotes F y "name" p.1 ∧ Denotes F y "value" p.2) es ps := by
  unfold parsePairs at h
  split at h
  · simp at h
  · rename_i l hl
    split at h
    · simp at h
    · simp at h
      subst h
      refine Each2.map_right ((mapRes_each2 hl).imp ?_)
      intro e q hq
      unfold readPair onFresh at hq
      split at hq
      · rename_i hp
        simp at hq
        subst hq
        obtain ⟨r1, n, h1, hp⟩ := P.bind_ok hp
        obtain ⟨r2, v, h2, hp⟩ := P.bind_ok hp
        simp [P.pure] at hp
        obtain ⟨_, rfl⟩ := hp
        exact ⟨attrSubs_inv h1, attrSubs_inv h2⟩
      · simp at hq

theorem attrEnts?_none_or {O : Oracle} {n : String} {e : Ent} {r r' : Reads} {l : List Ent} (h : attrEnts? O n e r = (r', .ok (some l))) : l ≠ [] := by
  unfold attrEnts? at h
  cases e with
  | xml x =>
    simp only [Ent.getAttr, xmlGetAttr] at h
    cases hl : x.nested.filter (fun y => y.tag = n) with
    | nil => simp [hl] at h
    | cons y ys => simp [hl] at h; rw [← h.2]; simp
  | yaml y t =>
    simp only [Ent.getAttr, yamlGetAttr] at h
    split at h
    · rename_i h1
      split at h1
      · simp at h1
      · simp at h1
      · split at h1 <;> simp at h1
        simp at h
        rw [← h.2, ← h1.2]
        simp
    · simp at h
    · simp at h

theorem attrPairs?_inv {F : Front} {n : String} {e : Ent} {r r' : Reads} {o : Option (List (List Sub × List Sub))} (h : attrPairs? F n e r = (r', .ok o)) :
    PairsGiven F e n o := by
  obtain ⟨r1, es, h1, h2⟩ := P.bind_ok h
  have hn := attrEnts?_ok h1
  cases es with
  | none => simp [P.pure] at h2; exact .inl ⟨h2.2.symm, by rw [← hn]; rfl⟩
  | some l =>
    obtain ⟨r2, ps, h3, h4⟩ := P.bind_ok h2
    simp [P.pure] at h4
    refine .inr ⟨ps, h4.2.symm, ?_, ?_⟩
    · rw [← hn]; exact attrEnts?_none_or h1
    · rw [← hn]; exact parsePairs_inv (lift_inv h3)

theorem attrChoices?_inv {F : Front} {e : Ent} {r r' : Reads} {o : Option (List String)} (h : attrChoices? F e r = (r', .ok o)) : ChoicesGiven e o := by
  obtain ⟨r1, es, h1, h2⟩ := P.bind_ok h
  have hn := attrEnts?_ok h1
  cases es with
  | none => simp [P.pure] at h2; exact .inl ⟨h2.2.symm, by rw [← hn]; rfl⟩
  | some l =>
    obtain ⟨r2, ps, h3, h4⟩ := P.bind_ok h2
    simp [P.pure] at h4
    refine .inr ⟨ps, h4.2.symm, ?_, ?_⟩
    · rw [← hn]; exact attrEnts?_none_or h1
    · rw [← hn]
      refine (mapRes_each2 (lift_inv h3)).imp ?_
      intro y s hs
      unfold onFresh at hs
      cases hp : parseChoice F y {} with
      | mk r3 x =>
        rw [hp] at hs
        simp only at hs
        subst hs
        obtain ⟨r4, t, h5, h6⟩ := P.bind_ok hp
        simp [P.pure] at h6
        exact ⟨t, attrText_inv h5, h6.2.symm⟩

theorem Each2.length_eq' {α β : Type} {R : α → β → Prop} {l : List α} {l' : List β} (h : Each2 R l l') : l'.length = l.length := by
  induction h with
  | nil => rfl
  | cons _ _ ih => simp [ih]

theorem Each2.zip {α β : Type} {R : α → β → Prop} {l : List α} {l' : List β} (h : Each2 R l l') : ∀ p ∈ l.zip l', R p.1 p.2 := by
  induction h with
  | nil => simp
  | cons h _ ih =>
    intro p hp
    simp at hp
    rcases hp with rfl | hp
    · exact h
    · exact ih p hp

theorem toSub_subs (l : List Sub) : mapRes TVal.toSub (l.map .sub) = .ok l := by
  induction l with
  | nil => rfl
  | cons x l ih => simp [mapRes, TVal.toSub, ih]

theorem normalize_subs {O : Oracle} {l : List Sub} {t : ScalarTy} {u : TVal} (h : normalizeTyped O (.seq (l.map .sub)) (some (.scalar t)) = .ok u) :
    l ≠ [] ∧ u = .seq (l.map .sub) := by
  cases l with
  | nil => simp [normalizeTyped, TVal.scalar?, TVal.isSubstitution, mapRes] at h
  | cons x l =>
    refine ⟨by simp, ?_⟩
    have hs : (TVal.seq ((x :: l).map .sub)).isSubstitution = true := by
      simp [TVal.isSubstitution, TVal.isSubOrStr, TVal.isSub]
    have ht : (TVal.seq ((x :: l).map .sub)).toSubs = .ok (x :: l) := by
      simp only [TVal.toSubs]
      exact toSub_subs (x :: l)
    simp only [normalizeTyped, TVal.scalar?, hs, if_true, ht, Except.ok.injEq] at h
    exact h.symm

theorem typedValue_inv {F : Front} {v : PyVal} {t : ScalarTy} {u : TVal} (hu : normalizeTyped F.O (TVal.ofScalar v) (some (.scalar t)) = .ok u) :
    IsA v t ∧ u = TVal.ofValue v := by
  have key : ∀ w, (TVal.ofScalar v).scalar? = some w → w = v ∧ TVal.ofValue v = TVal.ofScalar v := by
    intro w hw
    cases v <;> simp [TVal.ofScalar, TVal.scalar?] at hw <;> subst hw <;> exact ⟨rfl, rfl⟩
  unfold normalizeTyped at hu
  split at hu
  · rename_i w hw
    obtain ⟨rfl, he⟩ := key w hw
    split at hu
    · rename_i hi
      simp only [Except.ok.injEq] at hu
      exact ⟨isInstanceOf_ofType hi, by rw [← hu, he]⟩
    · simp at hu
  · rename_i hn
    cases v <;> simp [TVal.ofScalar, TVal.isSubstitution] at hu hn

theorem typedArg_inv {F : Front} {v : PyVal} {t : ScalarTy} {u : TVal} (hts : t ≠ .str) (h : typedArg F v t = .ok u) : TypedGiven F t v u := by
  unfold typedArg at h
  split at h
  · simp at h
  · rename_i i hi
    unfold parseIfSubs at hi
    split at hi
    · rename_i s
      split at hi
      · rename_i x _
        simp only [Except.ok.injEq] at hi
        subst hi
        have := (typedValue_inv (F := F) (v := .str x) h).1
        cases this
        exact absurd rfl hts
      · rename_i l hne hl
        simp only [Except.ok.injEq] at hi
        subst hi
        obtain ⟨h1, h2⟩ := normalize_subs h
        rw [h2]
        exact .text hl h1 (fun x hx => hne x hx)
      · simp at hi
    · simp only [Except.ok.injEq] at hi
      subst hi
      obtain ⟨h1, h2⟩ := typedValue_inv h
      rw [h2]
      exact .value h1

theorem typedOpt_inv {F : Front} {p : Option PyVal} {q : Option TVal} {e : Ent} {r r' : Reads}
    (h : P.lift (match p with
      | none => .ok none
      | some x => match typedArg F x .bool with
        | .ok t => .ok (some t)
        | .error e => .error e) e r = (r', .ok q)) : MayTyped F .bool p q := by
  have h := lift_inv h
  cases p with
  | none => simp at h; exact .inl ⟨rfl, h.symm⟩
  | some w =>
    dsimp only at h
    split at h
    · rename_i t ht
      simp at h
      exact .inr ⟨w, t, rfl, h.symm, typedArg_inv (by decide) ht⟩
    · simp at h

theorem periodArg_inv {F : Front} {v : PyVal} {u : TVal} (h : periodArg F v = .ok u) : PeriodGiven F v u := by
  have hg := h
  unfold periodArg at h
  split at h
  · simp at h
  · rename_i s hi
    split at h
    · rename_i f hf
      simp only [Except.ok.injEq] at h
      unfold parseIfSubs at hi
      split at hi
      · rename_i t
        split at hi
        · rename_i x hx
          simp only [Except.ok.injEq, IfSub.val.injEq, PyVal.str.injEq] at hi
          subst hi
          exact .inr ⟨t, x, f, rfl, hx, hf, h.symm⟩
        · simp at hi
        · simp at hi
      · rename_i hns
        simp only [Except.ok.injEq, IfSub.val.injEq] at hi
        exact absurd hi (hns s)
    · simp at h
  · rename_i i hne hi
    left
    apply typedArg_inv (by decide)
    simp only [typedArg, hi]
    exact h

theorem checkNonNeg_inv {F : Front} {o o' : Option PyVal} {e : Ent} {r r' : Reads} (h : P.lift (checkNonNeg F o) e r = (r', .ok o')) :
    o' = o ∧ NotNegative F o := by
  have h := lift_inv h
  unfold checkNonNeg at h
  split at h
  · simp at h; exact ⟨h.symm, fun v hv => by simp at hv⟩
  · split at h
    · simp at h
    · rename_i f hf
      simp at h
      refine ⟨h.symm, fun v hv => ?_⟩
      simp at hv
      subst hv
      refine ⟨by simp, fun g hg => ?_⟩
      simp at hg
      subst hg
      simpa using hf
  · simp at h
  · rename_i v h1 h2 _
    simp at h
    refine ⟨h.symm, fun w hw => ?_⟩
    simp at hw
    subst hw
    exact ⟨fun s hs => h2 s hs, fun f hf => absurd hf (h1 f)⟩

/-- C65.  The action that a frontend makes of an entity is the one the entity describes: class, attributes, nested entities, nested actions and condition. -/
theorem C65_says (F : Front) (fuel : Nat) (e : Ent) (a : PAct) (h : parseAction F fuel e = .ok a) : Says F e a := by
  induction fuel generalizing e a with
  | zero => simp [parseAction] at h
  | succ fuel ih =>
    unfold parseAction at h
    split at h
    · simp at h
    · rename_i m hm
      obtain ⟨r, g1, g2⟩ := checked_inv h
      clear h g2
      unfold parseMethod at hm
      split at hm
      · simp at hm
      · rename_i k hk
        simp only [Option.some.injEq] at hm
        subst hm
        obtain ⟨r1, c, hb, g1⟩ := P.bind_ok g1
        obtain ⟨r2, x, hx, g1⟩ := P.bind_ok g1
        simp [P.pure] at g1
        obtain ⟨_, rfl⟩ := g1
        have hc := parseBase_inv hb
        clear hb
        unfold parseKind at hk
        by_cases ht : e.typeName = "let"
        · rw [if_pos ht] at hk
          simp only [Option.some.injEq] at hk
          subst hk
          obtain ⟨_, v1, h1, hx⟩ := P.bind_ok hx
          obtain ⟨_, v2, h2, hx⟩ := P.bind_ok hx
          simp [P.pure] at hx
          obtain ⟨_, rfl⟩ := hx
          exact .letLC hc ht (attrSubs_inv h1) (attrSubs_inv h2)
        rw [if_neg ht] at hk
        clear ht
        by_cases ht : e.typeName = "arg"
        · rw [if_pos ht] at hk
          simp only [Option.some.injEq] at hk
          subst hk
          obtain ⟨_, v1, h1, hx⟩ := P.bind_ok hx
          obtain ⟨_, v2, h2, hx⟩ := P.bind_ok hx
          obtain ⟨_, v3, h3, hx⟩ := P.bind_ok hx
          obtain ⟨_, v4, h4, hx⟩ := P.bind_ok hx
          simp [P.pure] at hx
          obtain ⟨_, rfl⟩ := hx
          exact .arg hc ht (attrText_inv h1) rfl (attrSubs?_inv h2) (attrText?_inv h3) (attrChoices?_inv h4)
        rw [if_neg ht] at hk
        clear ht
        by_cases ht : e.typeName = "group"
        · rw [if_pos ht] at hk
          simp only [Option.some.injEq] at hk
          subst hk
          obtain ⟨_, v1, h1, hx⟩ := P.bind_ok hx
          obtain ⟨_, v2, h2, hx⟩ := P.bind_ok hx
          obtain ⟨_, v3, h3, hx⟩ := P.bind_ok hx
          obtain ⟨_, v4, h4, hx⟩ := P.bind_ok hx
          obtain ⟨_, v5, h5, hx⟩ := P.bind_ok hx
          simp [P.pure] at hx
          obtain ⟨_, rfl⟩ := hx
          rw [entChildren_ok h4] at h5
          have he := (mapRes_each2 (lift_inv h5)).imp (S := fun y a => Says F y a) (fun y a h => ih y a h)
          exact .group hc ht (attrVal_inv h1).1 (attrVal_inv h2).1 (attrPairs?_inv h3) he.length_eq' he.zip
        rw [if_neg ht] at hk
        clear ht
        by_cases ht : e.typeName = "include"
        · rw [if_pos ht] at hk
          simp only [Option.some.injEq] at hk
          subst hk
          obtain ⟨_, v1, h1, hx⟩ := P.bind_ok hx
          obtain ⟨_, v2, h2, hx⟩ := P.bind_ok hx
          simp [P.pure] at hx
          obtain ⟨_, rfl⟩ := hx
          exact .includeFile hc ht (attrSubs_inv h1) (attrPairs?_inv h2)
        rw [if_neg ht] at hk
        clear ht
        by_cases ht : e.typeName = "set_env"
        · rw [if_pos ht] at hk
          simp only [Option.some.injEq] at hk
          subst hk
          obtain ⟨_, v1, h1, hx⟩ := P.bind_ok hx
          obtain ⟨_, v2, h2, hx⟩ := P.bind_ok hx
          simp [P.pure] at hx
          obtain ⟨_, rfl⟩ := hx
          exact .setEnv hc ht (attrSubs_inv h1) (attrSubs_inv h2)
        rw [if_neg ht] at hk
        clear ht
        by_cases ht : e.typeName = "unset_env"
        · rw [if_pos ht] at hk
          simp only [Option.some.injEq] at hk
          subst hk
          obtain ⟨_, v1, h1, hx⟩ := P.bind_ok hx
          simp [P.pure] at hx
          obtain ⟨_, rfl⟩ := hx
          exact .unsetEnv hc ht (attrSubs_inv h1)
        rw [if_neg ht] at hk
        clear ht
        by_cases ht : e.typeName = "append_env"
        · rw [if_pos ht] at hk
          simp only [Option.some.injEq] at hk
          subst hk
          obtain ⟨_, v1, h1, hx⟩ := P.bind_ok hx
          obtain ⟨_, v2, h2, hx⟩ := P.bind_ok hx
          obtain ⟨_, v3, h3, hx⟩ := P.bind_ok hx
          obtain ⟨_, v4, h4, hx⟩ := P.bind_ok hx
          obtain ⟨_, v5, h5, hx⟩ := P.bind_ok hx
          simp [P.pure] at hx
          obtain ⟨_, rfl⟩ := hx
          exact .appendEnv hc ht (attrSubs_inv h1) (attrSubs_inv h2) (attrVal_inv h3).1 (attrSubs?_inv h5) (typedOpt_inv h4)
        rw [if_neg ht] at hk
        clear ht
        by_cases ht : e.typeName = "reset_env"
        · rw [if_pos ht] at hk
          simp only [Option.some.injEq] at hk
          subst hk
          simp [P.pure] at hx
          obtain ⟨_, rfl⟩ := hx
          exact .resetEnv hc ht
        rw [if_neg ht] at hk
        clear ht
        by_cases ht : e.typeName = "reset"
        · rw [if_pos ht] at hk
          simp only [Option.some.injEq] at hk
          subst hk
          obtain ⟨_, v1, h1, hx⟩ := P.bind_ok hx
          simp [P.pure] at hx
          obtain ⟨_, rfl⟩ := hx
          exact .resetLC hc ht (attrPairs?_inv h1)
        rw [if_neg ht] at hk
        clear ht
        by_cases ht : e.typeName = "log"
        · rw [if_pos ht] at hk
          simp only [Option.some.injEq] at hk
          subst hk
          obtain ⟨_, v1, h1, hx⟩ := P.bind_ok hx
          simp [P.pure] at hx
          obtain ⟨_, rfl⟩ := hx
          exact .log hc ht (attrSubs_inv h1)
        rw [if_neg ht] at hk
        clear ht
        by_cases ht : e.typeName = "shutdown"
        · rw [if_pos ht] at hk
          simp only [Option.some.injEq] at hk
          subst hk
          obtain ⟨_, v1, h1, hx⟩ := P.bind_ok hx
          have ht1 := attrText?_inv h1
          split at hx
          · simp [P.pure] at hx
            obtain ⟨_, rfl⟩ := hx
            exact .shutdown hc ht (.inl ⟨rfl, .inl ht1⟩)
          · simp [P.pure] at hx
            obtain ⟨_, rfl⟩ := hx
            exact .shutdown hc ht (.inl ⟨rfl, .inr ht1⟩)
          · rename_i s hs
            obtain ⟨_, l, h2, hx⟩ := P.bind_ok hx
            simp [P.pure] at hx
            obtain ⟨_, rfl⟩ := hx
            exact .shutdown hc ht (.inr ⟨l, rfl, ⟨_, ht1, lift_inv h2⟩, by rw [ht1]; simpa using hs⟩)
        rw [if_neg ht] at hk
        clear ht
        by_cases ht : e.typeName = "timer"
        · rw [if_pos ht] at hk
          simp only [Option.some.injEq] at hk
          subst hk
          obtain ⟨_, v1, h1, hx⟩ := P.bind_ok hx
          obtain ⟨_, v2, h2, hx⟩ := P.bind_ok hx
          obtain ⟨_, v3, h3, hx⟩ := P.bind_ok hx
          obtain ⟨_, v4, h4, hx⟩ := P.bind_ok hx
          obtain ⟨_, v5, h5, hx⟩ := P.bind_ok hx
          obtain ⟨_, v6, h6, hx⟩ := P.bind_ok hx
          simp [P.pure] at hx
          obtain ⟨_, rfl⟩ := hx
          rw [entChildren_ok h3] at h4
          have he := (mapRes_each2 (lift_inv h4)).imp (S := fun y a => Says F y a) (fun y a h => ih y a h)
          rcases (attrVal_inv h1).1 with ⟨rfl, _⟩ | ⟨p, rfl, hp⟩
          · exact absurd (lift_inv h2) (by simp)
          · exact .timer hc ht hp (periodArg_inv (lift_inv h2)) he.length_eq' he.zip (attrVal_inv h5).1 (typedOpt_inv h6)
        rw [if_neg ht] at hk
        clear ht
        by_cases ht : e.typeName = "executable"
        · rw [if_pos ht] at hk
          simp only [Option.some.injEq] at hk
          subst hk
          obtain ⟨_, v1, h1, hx⟩ := P.bind_ok hx
          obtain ⟨_, v2, h2, hx⟩ := P.bind_ok hx
          obtain ⟨_, v3, h3, hx⟩ := P.bind_ok hx
          obtain ⟨_, v4, h4, hx⟩ := P.bind_ok hx
          obtain ⟨_, v5, h5, hx⟩ := P.bind_ok hx
          obtain ⟨_, v6, h6, hx⟩ := P.bind_ok hx
          obtain ⟨_, v7, h7, hx⟩ := P.bind_ok hx
          obtain ⟨_, v8, h8, hx⟩ := P.bind_ok hx
          obtain ⟨_, v9, h9, hx⟩ := P.bind_ok hx
          obtain ⟨_, v10, h10, hx⟩ := P.bind_ok hx
          obtain ⟨_, v11, h11, hx⟩ := P.bind_ok hx
          obtain ⟨_, v12, h12, hx⟩ := P.bind_ok hx
          obtain ⟨_, v13, h13, hx⟩ := P.bind_ok hx
          obtain ⟨_, v14, h14, hx⟩ := P.bind_ok hx
          obtain ⟨_, v15, h15, hx⟩ := P.bind_ok hx
          obtain ⟨_, v16, h16, hx⟩ := P.bind_ok hx
          obtain ⟨_, v17, h17, hx⟩ := P.bind_ok hx
          obtain ⟨_, v18, h18, hx⟩ := P.bind_ok hx
          obtain ⟨_, v19, h19, hx⟩ := P.bind_ok hx
          simp [P.pure] at hx
          obtain ⟨_, rfl⟩ := hx
          have e12 := checkNonNeg_inv h12
          have e14 := checkNonNeg_inv h14
          have e16 := checkNonNeg_inv h16
          obtain ⟨rfl, n12⟩ := e12
          obtain ⟨rfl, n14⟩ := e14
          obtain ⟨rfl, n16⟩ := e16
          have hoe : v6 = true ∧ e.text "on_exit" = some "shutdown" ∨ v6 = false ∧ e.text "on_exit" = none := by
            have := lift_inv h6
            rw [attrText?_inv h5]
            unfold checkOnExit at this
            split at this
            · simp at this; exact .inr ⟨this, rfl⟩
            · split at this
              · rename_i hs; simp at this; exact .inl ⟨this, by rw [hs]⟩
              · simp at this
          exact .executable hc ht (attrText_inv h1) (lift_inv h2) (attrSubs?_inv h3) (attrSubs?_inv h4) hoe (attrSubs?_inv h7) (attrSubs?_inv h8) (attrSubs?_inv h9) (attrVal_inv h10).1 (attrVal_inv h11).1 (attrVal_inv h13).1 (attrVal_inv h15).1 n12 n14 n16 (attrVal_inv h17).1 (attrVal_inv h18).1 (attrPairs?_inv h19)
        rw [if_neg ht] at hk
        clear ht
        simp at hk

/-! ## Command lines -/

theorem toPieces_texts (l : List Sub) (k : Nat) (t : List Char) (h : Piece.text t ∈ toPieces l k) : ∃ x : String, .text x ∈ l ∧ x.toList = t := by
  induction l generalizing k with
  | nil => simp [toPieces] at h
  | cons x l ih =>
    cases x
    case text s =>
      simp only [toPieces, List.mem_cons] at h
      rcases h with h | h
      · simp only [Piece.text.injEq] at h; exact ⟨s, by simp, h.symm⟩
      · obtain ⟨y, hy, e⟩ := ih _ h
        exact ⟨y, by simp [hy], e⟩
    all_goals
      simp only [toPieces, List.mem_cons] at h
      rcases h with h | h
      · simp at h
      · obtain ⟨y, hy, e⟩ := ih _ h
        exact ⟨y, by simp [hy], e⟩

theorem toPieces_syms (l : List Sub) (k : Nat) : symsOf (toPieces l k) = commandSyms l k := by
  induction l generalizing k with
  | nil => rfl
  | cons x l ih => cases x <;> simp [toPieces, commandSyms, symsOf, Piece.syms] <;> exact ih _

theorem fromPiece_syms (l : List Sub) (p : Piece) (hs : ∀ k, p = .sub k → ∀ x, l.getD k (.text "") ≠ .text x) :
    (flatSubs [fromPiece l p]) = p.syms.map (Sym.means l) := by
  cases p with
  | text t => simp [fromPiece, flatSubs, Piece.syms, Sym.means, Function.comp_def]
  | sub k =>
    have := hs k rfl
    simp only [fromPiece, Piece.syms, List.map_cons, List.map_nil, Sym.means]
    cases hx : l.getD k (.text "") with
    | text x => exact absurd hx (this x)
    | _ => rfl

theorem toPieces_sub (l : List Sub) (j k : Nat) (h : Piece.sub k ∈ toPieces l j) : j ≤ k ∧ ∀ x, l.getD (k - j) (.text "") ≠ .text x := by
  induction l generalizing j with
  | nil => simp [toPieces] at h
  | cons y l ih =>
    have step : Piece.sub k ∈ toPieces l (j + 1) → j ≤ k ∧ ∀ x, (y :: l).getD (k - j) (.text "") ≠ .text x := by
      intro h
      obtain ⟨h1, h2⟩ := ih _ h
      refine ⟨by omega, fun x => ?_⟩
      rw [show k - j = (k - (j + 1)) + 1 from by omega, List.getD_cons_succ]
      exact h2 x
    cases y
    case text s =>
      simp only [toPieces, List.mem_cons] at h
      rcases h with h | h
      · simp at h
      · exact step h
    all_goals
      simp only [toPieces, List.mem_cons] at h
      rcases h with h | h
      · simp only [Piece.sub.injEq] at h
        subst h
        refine ⟨Nat.le_refl _, fun x => ?_⟩
        rw [Nat.sub_self, List.getD_cons_zero]
        simp
      · exact step h

/-- The substitutions of a command line being built. -/
def Cmdline.subsIn (s : Cmdline) (k : Nat) : Prop := Piece.sub k ∈ s.arg ∨ ∃ a ∈ s.args, Piece.sub k ∈ a

theorem subsIn_append (s : Cmdline) (k : Nat) (h : s.append.subsIn k) : s.subsIn k := by
  rcases h with h | ⟨a, ha, h⟩
  · simp [Cmdline.append] at h
  · simp only [Cmdline.append, List.mem_append, List.mem_singleton] at ha
    rcases ha with ha | rfl
    · exact .inr ⟨a, ha, h⟩
    · exact .inl h

theorem subsIn_step (s s' : Cmdline) (p : Piece) (h : s.step p = some s') (k : Nat) (hk : s'.subsIn k) : s.subsIn k ∨ p = .sub k := by
  cases p with
  | sub n =>
    simp only [Cmdline.step, Option.some.injEq] at h
    subst h
    rcases hk with hk | hk
    · simp only [List.mem_append, List.mem_singleton] at hk
      rcases hk with hk | hk
      · exact .inl (.inl hk)
      · exact .inr hk.symm
    · exact .inl (.inr hk)
  | text t =>
    left
    simp only [Cmdline.step] at h
    split at h
    · simp at h
    · simp only [Option.some.injEq] at h
      subst h
      exact subsIn_append _ _ hk
    · rename_i w ws _
      simp only [Option.some.injEq] at h
      subst h
      have hfirst : ∀ r : Cmdline, (if startsWhite t && !s.arg.isEmpty then s.append else s) = r → r.subsIn k → s.subsIn k := by
        rintro r rfl hr
        split at hr
        · exact subsIn_append _ _ hr
        · exact hr
      generalize (if startsWhite t && !s.arg.isEmpty then s.append else s) = r at hk hfirst
      refine hfirst r rfl ?_
      have hadd : ∀ x : List Char, ({ r with arg := r.arg ++ [.text x] } : Cmdline).subsIn k → r.subsIn k := by
        rintro x (h | h)
        · simp at h; exact .inl h
        · exact .inr h
      have hmid : ∀ q : Cmdline, (match ws.getLast? with
          | none => ({ r with arg := r.arg ++ [.text w] } : Cmdline)
          | some last =>
            { args := ({ r with arg := r.arg ++ [.text w] } : Cmdline).append.args ++ ws.dropLast.map (fun x => [.text x]), arg := [.text last] }) = q →
          q.subsIn k → r.subsIn k := by
        rintro q rfl hq
        split at hq
        · exact hadd w hq
        · rcases hq with hq | ⟨a, ha, hq⟩
          · simp at hq
          · simp only [List.mem_append, List.mem_map] at ha
            rcases ha with ha | ⟨x, _, rfl⟩
            · exact hadd w (subsIn_append _ _ (.inr ⟨a, ha, hq⟩))
            · simp at hq
      split at hk
      · exact hmid _ rfl (subsIn_append _ _ hk)
      · exact hmid _ rfl hk

theorem subsIn_run (ps : List Piece) (s s' : Cmdline) (h : s.run ps = some s') (k : Nat) (hk : s'.subsIn k) : s.subsIn k ∨ .sub k ∈ ps := by
  induction ps generalizing s with
  | nil => simp only [Cmdline.run, Option.some.injEq] at h; subst h; exact .inl hk
  | cons p ps ih =>
    simp only [Cmdline.run, Option.bind_eq_some_iff] at h
    obtain ⟨s1, h1, h2⟩ := h
    rcases ih s1 h2 with h3 | h3
    · rcases subsIn_step s s1 p h1 k h3 with h4 | h4
      · exact .inl h4
      · exact .inr (by simp [h4])
    · exact .inr (by simp [h3])

theorem parseCmdline_subs (ps : List Piece) (args : List (List Piece)) (h : parseCmdline ps = some args) (a : List Piece) (ha : a ∈ args) (k : Nat)
    (hk : .sub k ∈ a) : .sub k ∈ ps := by
  simp only [parseCmdline, Option.map_eq_some_iff] at h
  obtain ⟨s, hr, rfl⟩ := h
  have : s.subsIn k := by
    split at ha
    · exact .inr ⟨a, ha, hk⟩
    · simp only [List.mem_append, List.mem_singleton] at ha
      rcases ha with ha | rfl
      · exact .inr ⟨a, ha, hk⟩
      · exact .inl hk
  rcases subsIn_run ps {} s hr k this with (h | ⟨a, ha, _⟩) | h
  · simp at h
  · simp at ha
  · exact h

theorem flatSubs_cons (x : Sub) (l : List Sub) : flatSubs (x :: l) = flatSubs [x] ++ flatSubs l := by
  cases x <;> simp [flatSubs]

theorem flat_arg (l : List Sub) (a : List Piece) (hs : ∀ k, .sub k ∈ a → ∀ x, l.getD k (.text "") ≠ .text x) :
    flatSubs (a.map (fromPiece l)) = (symsOf a).map (Sym.means l) := by
  induction a with
  | nil => rfl
  | cons p a ih =>
    rw [List.map_cons, flatSubs_cons, ih (fun k hk => hs k (List.mem_cons_of_mem _ hk)), fromPiece_syms l p (fun k hk => hs k (by simp [hk]))]
    simp [symsOf]

/-- C43 in launch files: the arguments of a process that a launch file describes are the words into which a shell would split the command line, with a
substitution being part of the word it touches; arguments without any part may come in addition (see `C43_empty_argument_violated`). -/
theorem C43_launch_file_partial (F : Front) (fuel : Nat) (e : Ent) (c : Option Cond) (cmd : List (List Sub)) (cwd name : Option (List Sub))
    (onExit : Bool) (pre output respawn : Option (List Sub)) (retries delay sk st shell tty : Option PyVal) (env : Option (List (List Sub × List Sub)))
    (h : parseAction F fuel e = .ok (.mk c (.executable (.mk cmd cwd name onExit pre output respawn retries delay sk st shell tty env)))) :
    ∃ s l, e.text "cmd" = some s ∧ F.subst s = .ok l ∧ ((∀ t, .text t ∈ l → OrdinaryText t.toList) →
      ∃ words, shellWords (commandSyms l 0) = some words ∧ (cmd.filter (fun a => !a.isEmpty)).map flatSubs = words.map (·.map (Sym.means l))) := by
  have hs := C65_says F fuel e _ h
  cases hs with
  | executable _ _ ht hc =>
    unfold cmdSubs at hc
    split at hc
    · simp at hc
    · rename_i l hl
      refine ⟨_, l, ht, hl, fun ho => ?_⟩
      split at hc
      · simp at hc
      · rename_i args ha
        simp only [Except.ok.injEq] at hc
        subst hc
        have hw := C43_real_arguments (toPieces l 0) args (by
          intro t ht
          obtain ⟨x, hx, rfl⟩ := toPieces_texts l 0 t ht
          exact ho x hx) ha
        rw [toPieces_syms] at hw
        refine ⟨_, hw, ?_⟩
        have hsub : ∀ a ∈ args, ∀ k, .sub k ∈ a → ∀ x, l.getD k (.text "") ≠ .text x := by
          intro a hm k hk
          have := toPieces_sub l 0 k (parseCmdline_subs _ _ ha a hm k hk)
          simpa using this.2
        clear hw ha ho h
        induction args with
        | nil => rfl
        | cons a args ih =>
          have ih := ih (fun b hb => hsub b (List.mem_cons_of_mem _ hb))
          cases a with
          | nil => simpa using ih
          | cons p a =>
            have h1 := flat_arg l (p :: a) (hsub _ List.mem_cons_self)
            simp only [List.map_cons] at h1
            simpa [h1] using ih

/-- A parser for the examples: substitutions are texts. -/
def textFront : Front := { subst := fun s => .ok [.text s], negative := fun _ => false, O := sampleOracle }

/-! A process in a launch file, whose command line has a substitution in it. -/

example : ∃ x, parseAction { textFront with subst := fun _ => .ok [.text "run --x=", .launchConfig [.text "a"] none, .text " y"] } 5
      (.xml (.elem "executable" [("cmd", "run --x=$(var a) y")] [])) = .ok (.mk none (.executable x)) ∧
    (match x with | .mk cmd .. => cmd) = [[.text "run"], [.text "--x=", .launchConfig [.text "a"] none], [.text "y"]] := ⟨_, rfl, rfl⟩

example : (shellWords (commandSyms [.text "run --x=", .launchConfig [.text "a"] none, .text " y"] 0)).map (·.length) = some 3 := by decide +kernel

/-- C65.  A launch file gives the launch description with the actions that the children of its root describe, in their order. -/
theorem C65_description (F : Front) (fuel : Nat) (e : Ent) (d : PDesc) (h : parseDescription F fuel e = .ok d) :
    e.typeName = "launch" ∧ d.deprecated = e.text "deprecated" ∧ Each2 (fun y a => Says F y a) (childEnts e) d.actions := by
  unfold parseDescription at h
  split at h
  · simp at h
  · rename_i ht
    split at h
    · simp at h
    · rename_i r dep cs hr
      split at h
      · simp at h
      · rename_i l hl
        simp at h
        subst h
        obtain ⟨_, v1, h1, hr⟩ := P.bind_ok hr
        obtain ⟨_, v2, h2, hr⟩ := P.bind_ok hr
        simp [P.pure] at hr
        obtain ⟨_, rfl, rfl⟩ := hr
        refine ⟨by simpa using ht, (attrText?_inv h1).symm, ?_⟩
        rw [entChildren_ok h2] at hl
        exact (mapRes_each2 hl).imp fun y a h => C65_says F fuel y a h

example : ∃ d, parseDescription textFront 5 (.yaml (.list [.dict [("let", .dict [("name", .scalar (.str "a")), ("value", .scalar (.str "b")),
    ("if", .scalar (.str "1"))])], .dict [("group", .list [.dict [("unset_env", .dict [("name", .scalar (.str "x"))])]])]]) "launch") = .ok d ∧
    d.actions = [.mk (some (.ifC [.text "1"])) (.letLC [.text "a"] [.text "b"]),
      .mk none (.group none none none [.mk none (.unsetEnv [.text "x"])])] := ⟨_, rfl, rfl⟩

example : parseAction textFront 5 (.xml (.elem "let" [("name", "a"), ("value", "b"), ("if", "1"), ("unless", "0")] [])) = .error .runtimeError := rfl

/-- C65 is violated by substitutions in `scoped` (and likewise `forwarding`) of a group: they are accepted, but never performed; the group gets the text, which
counts as true whatever the substitution stands for. -/
theorem C65_scoped_substitution_violated (F : Front) (s : String) (hs : s ≠ "" ∧ s ≠ "1" ∧ s ≠ "0") (hy : F.O.yaml s = none ∨ F.O.yaml s = some (.str s)) :
    parseAction F 1 (.xml (.elem "group" [("scoped", s)] [])) = .ok (.mk none (.group (some (.str s)) none none [])) := by
  have h0 : ∀ k, k ≠ "scoped" → Dict.get? [("scoped", s)] k = none := by
    intro k hk; simp [Dict.get?, Ne.symm hk]
  have h1 : Dict.get? [("scoped", s)] "scoped" = some s := by simp [Dict.get?]
  have h2 : coerceToType F.O s (some (.scalar .bool)) true = .ok (.str s) := by
    rcases hy with hy | hy
    · simp [coerceToType, convertAsYaml, hs, hy, isInstOrStr, PyVal.isInst, PyVal.isStr]
    · simp [coerceToType, convertAsYaml, hs, hy, isInstOrStr, PyVal.isInst, PyVal.isStr, isInstanceOfValidType, PyVal.isScalar]
  have b : parseBase F (.xml (.elem "group" [("scoped", s)] [])) {} = ({}, .ok none) := by
    simp [parseBase, P.bind, P.pure, attrText?, attrVal, Ent.getAttr, xmlGetAttr, Xml.attrs, h0]
  have g : parseGroup F (mapRes (parseAction F 0)) (.xml (.elem "group" [("scoped", s)] [])) {} =
      ({ attrs := ["scoped"], tags := [] }, .ok (.group (some (.str s)) none none [])) := by
    simp [parseGroup, P.bind, P.pure, P.lift, attrVal, Ent.getAttr, xmlGetAttr, Xml.attrs, Xml.nested, h0, h1, xmlTyped, getTypedValue, h2, attrPairs?, attrEnts?,
      entChildren, Ent.children, xmlChildren, mapRes]
  have hk : parseKind F (mapRes (parseAction F 0)) "group" = some (parseGroup F (mapRes (parseAction F 0))) := by simp [parseKind]
  unfold parseAction parseMethod
  rw [show (Ent.xml (.elem "group" [("scoped", s)] [])).typeName = "group" from rfl, hk]
  simp [checked, onFresh, P.bind, b, g, P.pure, Ent.assertParsed, xmlAssert, Xml.nested, Xml.attrs, Dict.keys]

example : sampleOracle.yaml "$(var x)" = none ∨ sampleOracle.yaml "$(var x)" = some (.str "$(var x)") := by first | exact .inl rfl | exact .inr rfl

/-- C65 is violated by periods that are written as integers in YAML: they are rejected with TypeError (in XML the same text is accepted). -/
theorem C65_integer_period_violated (F : Front) (i : Int) (fuel : Nat) :
    parseAction F (fuel + 1) (.yaml (.dict [("period", .scalar (.int i)), ("children", .list [])]) "timer") = .error .typeError := by
  have b : parseBase F (.yaml (.dict [("period", .scalar (.int i)), ("children", .list [])]) "timer") {} = ({}, .ok none) := by
    simp [parseBase, P.bind, P.pure, attrText?, attrVal, Ent.getAttr, yamlGetAttr, yamlLookup, Dict.get?]
  have g : ∀ rec, parseTimer F rec (.yaml (.dict [("period", .scalar (.int i)), ("children", .list [])]) "timer") {} = ({ attrs := ["period"] }, .error .typeError) := by
    intro rec
    simp [parseTimer, P.bind, attrVal, Ent.getAttr, yamlGetAttr, yamlLookup, Dict.get?, Yaml.toPyVal, isInstanceOf, isInstOrStr, PyVal.isInst, PyVal.isStr]
  have hk : ∀ rec, parseKind F rec "timer" = some (parseTimer F rec) := by intro rec; simp [parseKind]
  unfold parseAction parseMethod
  rw [show (Ent.yaml (.dict [("period", .scalar (.int i)), ("children", .list [])]) "timer").typeName = "timer" from rfl, hk]
  simp [checked, onFresh, P.bind, b, g]

end Verif
