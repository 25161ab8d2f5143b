import Verif.Spec.FilterTypes
import Verif.Lemmas.Operator
import Verif.Lemmas.Solid

/-! Matching a filter that fits the attributes against an object that conforms to them never raises. -/

namespace Scim
variable [PyEnv]

theorem pyEq_prim_total (x : Val) (v : Prim) : ∃ b, x.pyEq (.prim v) = .ok b := by
  unfold Val.pyEq
  cases x with
  | obj o => cases o <;> exact ⟨_, rfl⟩
  | _ => exact ⟨_, rfl⟩

theorem apply_equality {o : CmpOp} (h : o.isEquality = true) (x : Val) (v : Prim) : ∃ b, o.apply x v = .ok b := by
  obtain ⟨b, hb⟩ := pyEq_prim_total x v
  cases o <;> simp [CmpOp.isEquality] at h <;> simp only [CmpOp.apply, hb] <;> exact ⟨_, rfl⟩

theorem apply_text (o : CmpOp) (s t : Str) : ∃ b, o.apply (.str s) (.str t) = .ok b := by
  cases o <;> first
    | exact ⟨_, rfl⟩
    | exact apply_equality rfl _ _

theorem apply_number {o : CmpOp} (h : o.isOrder = true) {p q : Prim} {a b : PyFloat} (hp : p.num? = some a) (hq : q.num? = some b) :
    ∃ c, o.apply (.prim p) q = .ok c := by
  have h1 : ∃ c, p.pyLt q = .ok c := by
    cases p <;> cases q <;> simp [Prim.num?] at hp hq <;> exact ⟨_, rfl⟩
  have h2 : ∃ c, p.pyLe q = .ok c := by
    cases p <;> cases q <;> simp [Prim.num?] at hp hq <;> exact ⟨_, rfl⟩
  have h3 : ∃ c, q.pyLt p = .ok c := by
    cases p <;> cases q <;> simp [Prim.num?] at hp hq <;> exact ⟨_, rfl⟩
  have h4 : ∃ c, q.pyLe p = .ok c := by
    cases p <;> cases q <;> simp [Prim.num?] at hp hq <;> exact ⟨_, rfl⟩
  cases o <;> simp [CmpOp.isOrder] at h
  · exact h3
  · exact h4
  · exact h1
  · exact h2

theorem anyApply_ok {o : CmpOp} {v : Prim} : ∀ {xs : List Val}, (∀ x ∈ xs, ∃ b, o.apply x v = .ok b) →
    ∃ st, anyApply o v xs = .ok st
  | [], _ => ⟨_, rfl⟩
  | x :: xs, h => by
    obtain ⟨b, hb⟩ := h x (by simp)
    obtain ⟨st, hst⟩ := anyApply_ok (xs := xs) (fun y hy => h y (List.mem_cons_of_mem _ hy))
    rw [anyApply, hb]
    cases b
    · exact ⟨st, hst⟩
    · exact ⟨_, rfl⟩

theorem applyDt_total {o : CmpOp} {a b : DateTime} (hs : o.supportsType .dateTime = true)
    (h : o.isOrder = true → a.off.isSome = b.off.isSome) : ∃ c, o.applyDt a b = .ok c := by
  have key : o.isOrder = true → (∃ c, a.pyLt b = .ok c) ∧ (∃ c, a.pyLe b = .ok c) ∧ (∃ c, b.pyLt a = .ok c) ∧ ∃ c, b.pyLe a = .ok c := by
    intro ho
    have := h ho
    unfold DateTime.pyLt DateTime.pyLe
    cases ha : a.off <;> cases hb : b.off <;> simp [ha, hb] at this ⊢
  cases o <;> simp [CmpOp.supportsType] at hs <;> simp only [CmpOp.applyDt]
  · exact ⟨_, rfl⟩
  · exact ⟨_, rfl⟩
  · exact (key rfl).2.2.1
  · exact (key rfl).2.2.2
  · exact (key rfl).1
  · exact (key rfl).2.1

/-- What can be in the lists that are compared. -/
theorem lowered_total (o : CmpOp) (t : Str) (xs : List Val) :
    ∃ st, anyApply o (.str t) (xs.filterMap (fun x => match x with
          | .prim (.str s) => some (.str (lower s))
          | _ => none)) = .ok st := by
  apply anyApply_ok
  intro x hx
  obtain ⟨y, -, hy⟩ := List.mem_filterMap.mp hx
  split at hy
  · cases hy; exact apply_text o _ _
  · cases hy

theorem asList_of_wire {t : AttrType} {x : Val} (ht : t ≠ .unknown) (h : t.Wire x) : x.asList = [x] := by
  cases x with
  | list xs => cases t <;> first | exact absurd rfl ht | (simp [AttrType.Wire, AttrType.Holds, Val.str, Val.bool, Val.int] at h)
  | _ => rfl

theorem AttrInfo.HoldsVal.items {P : DateTime → Prop} {i : AttrInfo} (ht : i.type ≠ .unknown) {x : Val} (h : i.HoldsVal P x) :
    ∀ y ∈ x.asList, i.HoldsOne P y := by
  unfold AttrInfo.HoldsVal at h
  split at h
  · obtain ⟨xs, rfl, hx⟩ := h; exact hx
  · rw [asList_of_wire ht h.1]
    intro y hy
    rw [List.mem_singleton.mp hy]; exact h

theorem suits_apply {o : CmpOp} {t : AttrType} (hd : t ≠ .dateTime) (hs : o.supportsType t = true) (he : o.isEquality = false) {x : Val} (hx : t.Wire x)
    {v : Prim} (hv : t.Suits v) : ∃ b, o.apply x v = .ok b := by
  have str : (∃ s, x = .str s) → (∃ t, v = .str t) → ∃ b, o.apply x v = .ok b := by
    rintro ⟨s, rfl⟩ ⟨t, rfl⟩; exact apply_text o s t
  have num : o.isOrder = true → ((∃ n, v = .int n) ∨ (∃ f, v = .flt f) ∨ ∃ b, v = .bool b) →
      (∃ p a, x = .prim p ∧ p.num? = some a) → ∃ b, o.apply x v = .ok b := by
    rintro ho hv ⟨p, a, rfl, hp⟩
    have : ∃ b, v.num? = some b := by
      rcases hv with ⟨n, rfl⟩ | ⟨f, rfl⟩ | ⟨b, rfl⟩ <;> exact ⟨_, rfl⟩
    obtain ⟨b, hb⟩ := this
    exact apply_number ho hp hb
  have ord : t = .integer ∨ t = .decimal → o.isOrder = true := by
    rintro (rfl | rfl) <;> cases o <;> simp [CmpOp.supportsType, CmpOp.isEquality] at hs he <;> rfl
  cases t with
  | dateTime => exact absurd rfl hd
  | string | uriRef | scimRef | extRef | binary => exact str hx hv
  | integer =>
    refine num (ord (.inl rfl)) hv ?_
    rcases hx with ⟨n, rfl⟩ | ⟨b, rfl⟩ <;> exact ⟨_, _, rfl, rfl⟩
  | decimal =>
    refine num (ord (.inr rfl)) hv ?_
    obtain ⟨f, rfl⟩ := hx
    exact ⟨_, _, rfl, rfl⟩
  | _ => exact absurd hv id

/-- Comparing a value of an attribute that is not complex. -/
theorem compare_simple {P : DateTime → Prop} {i : AttrInfo} {gaps : Bool} {o : CmpOp} {v : Prim} (hc : i.Comparable P gaps o v)
    {x : Val} (hx : if gaps then i.HoldsGaps P x else i.HoldsVal P x) :
    ∃ st, (match comparisonValues o (.simple i) x v with
      | .error e => .error e
      | .ok none => .ok .failed
      | .ok (some (.vals xs w)) => anyApply o w xs
      | .ok (some (.dts x y)) => match o.applyDt x y with
        | .error e => .error e
        | .ok b => .ok (if b then .passed else .failed) : PyM MatchStatus) = .ok st := by
  obtain ⟨hu, hc0⟩ := hc
  unfold comparisonValues
  rw [if_neg (show ¬ (Attr.simple i).info.type = .unknown from hu)]
  cases hs : o.supportsType i.type with
  | false =>
    have : (!o.supportsType (Attr.simple i).info.type) = true := by
      show (!o.supportsType i.type) = true
      rw [hs]; rfl
    rw [if_pos this]
    exact ⟨_, rfl⟩
  | true =>
    have : ¬ (!o.supportsType (Attr.simple i).info.type) = true := by
      show ¬ (!o.supportsType i.type) = true
      rw [hs]; simp
    rw [if_neg this]
    dsimp only
    have hc := hc0 hs
    clear hc0
    unfold comparePairs
    split at hc
    · rename_i hd
      obtain ⟨hm, rfl, hc⟩ := hc
      rw [if_pos hd]
      simp only [Bool.false_eq_true, if_false, AttrInfo.HoldsVal, hm] at hx
      obtain ⟨hw, hp⟩ := hx
      have hp := hp hd
      rw [hd] at hw
      obtain ⟨s, rfl⟩ := hw
      dsimp only [Val.str]
      cases hf : fromIso s with
      | none => exact ⟨_, rfl⟩
      | some d =>
        obtain ⟨t, rfl, ht⟩ := hc s d hf (hp s rfl d hf)
        dsimp only
        cases hf' : fromIso t with
        | none => exact ⟨_, rfl⟩
        | some d' =>
          dsimp only
          rw [hd] at hs
          obtain ⟨b, hb⟩ := applyDt_total hs (fun ho => ht ho d' hf')
          rw [hb]
          exact ⟨_, rfl⟩
    · rename_i hd
      rw [if_neg hd]
      have plain : (o.isEquality = true ∨ gaps = false ∧ i.type.Suits v) → ∃ st, anyApply o v x.asList = .ok st := by
        intro h
        apply anyApply_ok
        intro y hy
        cases he : o.isEquality with
        | true => exact apply_equality he y v
        | false =>
          rw [he] at h
          rcases h with h | ⟨rfl, h⟩
          · cases h
          · simp only [Bool.false_eq_true, if_false] at hx
            exact suits_apply hd hs he (hx.items hu y hy).1 h
      by_cases hv : (∃ t, v = .str t) ∧ i.caseExact = false
      · obtain ⟨⟨t, rfl⟩, hce⟩ := hv
        dsimp only
        rw [if_pos (by rw [hce]; rfl)]
        exact lowered_total o _ _
      · have hp := plain (by
          rcases hc with h | h | h
          · exact .inl h
          · exact absurd h hv
          · exact .inr h)
        cases v with
        | str t =>
          have : i.caseExact = true := by
            cases hce : i.caseExact with
            | true => rfl
            | false => exact absurd ⟨⟨t, rfl⟩, hce⟩ hv
          dsimp only
          rw [if_neg (by rw [this]; simp)]
          exact hp
        | _ => exact hp

/-! ### Complex attributes -/

theorem parse_value : AttrRep.parse valueWord = some { attr := valueWord } := by
  apply parse_wordRun
  have h : ∀ c ∈ valueWord, c.toNat < 128 ∧ asciiWord c = true := by decide +kernel
  refine ⟨by decide +kernel, ?_⟩
  intro c hc
  rw [PyEnv.isWord_ascii c (h c hc).1]; exact (h c hc).2

theorem HoldsItem.subscript {P : DateTime → Prop} {subs : List Attr} {x : Val} (h : HoldsItem P subs x) :
    ∃ y, x.subscript valueWord = .ok y := by
  obtain ⟨hc, hr, -⟩ := h
  cases x <;> simp [Val.isCont] at hc
  obtain ⟨y, hy⟩ := hr { attr := valueWord } ⟨.inl rfl, .inl rfl⟩
  refine ⟨y, ?_⟩
  simp only [Val.subscript, Val.getName, parse_value]
  exact hy

theorem subscriptAll_total {P : DateTime → Prop} {subs : List Attr} : ∀ {xs : List Val}, (∀ x ∈ xs, HoldsItem P subs x) →
    ∃ ys, subscriptAll valueWord xs = .ok ys
  | [], _ => ⟨_, rfl⟩
  | x :: xs, h => by
    obtain ⟨y, hy⟩ := (h x (by simp)).subscript
    obtain ⟨ys, hys⟩ := subscriptAll_total (xs := xs) (fun z hz => h z (List.mem_cons_of_mem _ hz))
    exact ⟨y :: ys, by rw [subscriptAll, hy]; dsimp only; rw [hys]⟩

/-- Comparing a complex attribute. -/
theorem compare_complex {P : DateTime → Prop} {attrs : List Attr} {i : AttrInfo} {subs : List Attr} {ps ds : List Proc} {o : CmpOp} {v : Prim}
    (hc : (Attr.complex i subs ps ds).Comparable P attrs o v) {x : Val} (hx : (Attr.complex i subs ps ds).HoldsVal P x) :
    ∃ st, (match comparisonValues o (.complex i subs ps ds) x v with
      | .error e => .error e
      | .ok none => .ok .failed
      | .ok (some (.vals xs w)) => anyApply o w xs
      | .ok (some (.dts x y)) => match o.applyDt x y with
        | .error e => .error e
        | .ok b => .ok (if b then .passed else .failed) : PyM MatchStatus) = .ok st := by
  obtain ⟨ht, hx⟩ := hx
  have hti : (Attr.complex i subs ps ds).info.type = .complex := ht
  unfold comparisonValues
  rw [if_neg (by rw [hti]; simp), hti]
  by_cases hsup : o.supportsType .complex = true
  case neg => rw [if_pos (by simpa using hsup)]; exact ⟨_, rfl⟩
  rw [if_neg (by simpa using hsup)]
  dsimp only
  by_cases hval : (!subs.any (fun s => s.rep.attr == valueWord)) = true
  · rw [if_pos hval]; exact ⟨_, rfl⟩
  rw [if_neg hval]
  cases hm : i.multi with
  | false => exact ⟨_, rfl⟩
  | true =>
  rw [if_neg (by simp)]
  rw [if_pos hm] at hx
  obtain ⟨xs, rfl, hxs⟩ := hx
  obtain ⟨ys, hys⟩ := subscriptAll_total hxs
  simp only [Val.iterate, hys]
  have hc := hc hm (by simpa using hval)
  unfold comparePairs
  rw [if_neg (by rw [ht]; simp)]
  by_cases hv : (∃ t, v = .str t) ∧ i.caseExact = false
  · obtain ⟨⟨t, rfl⟩, hce⟩ := hv
    dsimp only
    rw [if_pos (by rw [hce]; rfl)]
    exact lowered_total o _ _
  · have hp : ∃ st, anyApply o v (Val.list ys).asList = .ok st := by
      apply anyApply_ok
      intro y _
      rcases hc with h | h
      · exact apply_equality h y v
      · exact absurd h hv
    cases v with
    | str t =>
      have : i.caseExact = true := by
        cases hce : i.caseExact with
        | true => rfl
        | false => exact absurd ⟨⟨t, rfl⟩, hce⟩ hv
      dsimp only
      rw [if_neg (by rw [this]; simp)]
      exact hp
    | _ => exact hp

/-! ### Atoms -/

omit [PyEnv] in
theorem Val.Absent.iff {v : Val} : v.Absent ↔ v.isNoneOrMissing = true := by
  unfold Val.Absent
  cases v with
  | prim p => cases p <;> simp [Val.isNoneOrMissing, Val.null]
  | _ => simp [Val.isNoneOrMissing, Val.null]

theorem matchCmp_total {P : DateTime → Prop} {attrs : List Attr} {o : CmpOp} {r : AttrRep} {v : Prim} {x : Val} (strict : Bool)
    (h : ∀ a, findAttr attrs r = some a → a.Comparable P attrs o v ∧ a.Reads P attrs x) :
    ∃ st, matchCmp o r v x attrs strict = .ok st := by
  unfold matchCmp
  cases hf : findAttr attrs r with
  | none => exact ⟨_, rfl⟩
  | some a =>
    obtain ⟨hc, hx⟩ := h a hf
    dsimp only
    split
    · exact ⟨_, rfl⟩
    rename_i hn
    split
    · exact ⟨_, rfl⟩
    rcases hx with hx | hx
    · exact absurd (Val.Absent.iff.mp hx) hn
    cases a with
    | simple i =>
      refine compare_simple (P := P) (gaps := (Attr.simple i).underMulti attrs) hc ?_
      split at hx
      · rename_i hs
        have : (Attr.simple i).underMulti attrs = false := by unfold Attr.underMulti; rw [hs]; rfl
        rw [this]
        exact hx
      · obtain ⟨j, e, hx⟩ := hx
        cases e
        exact hx
    | complex i subs ps ds =>
      refine compare_complex (P := P) (attrs := attrs) hc ?_
      split at hx
      · exact hx
      · obtain ⟨j, e, -⟩ := hx
        cases e

theorem matchPr_total {P : DateTime → Prop} {attrs : List Attr} {r : AttrRep} {x : Val}
    (h : ∀ a, findAttr attrs r = some a → ¬ (a.isComplex = true ∧ a.info.multi = true) ∧ a.Reads P attrs x) :
    ∃ st, matchPr r x attrs = .ok st := by
  unfold matchPr
  cases hf : findAttr attrs r with
  | none => exact ⟨_, rfl⟩
  | some a =>
    obtain ⟨hc, hx⟩ := h a hf
    dsimp only
    cases a with
    | simple i =>
      simp only [Attr.isComplex, Bool.false_eq_true, if_false]
      split
      · rename_i he; split at he <;> cases he
      · exact ⟨_, rfl⟩
    | complex i subs ps ds =>
      have hm : i.multi = false := by
        cases hm : i.multi with
        | false => rfl
        | true => exact absurd ⟨rfl, hm⟩ hc
      have hl : ∀ xs, x ≠ .list xs := by
        rintro xs rfl
        rcases hx with (h | h) | h
        · cases h
        · cases h
        · split at h
          · obtain ⟨-, h⟩ := h
            rw [hm] at h
            simp only [Bool.false_eq_true, if_false] at h
            cases h.1
          · obtain ⟨_, e, -⟩ := h; cases e
      simp only [Attr.isComplex, if_true]
      cases x with
      | list xs => exact absurd rfl (hl xs)
      | _ => exact ⟨_, rfl⟩

/-! ### Filters -/

theorem getItem_empty (r : AttrRep) : Val.emptyCont.getItem r = .ok .missing := by
  unfold Val.emptyCont Val.getItem
  rw [Val.getX]; rfl

theorem HoldsItem.empty (P : DateTime → Prop) (subs : List Attr) : HoldsItem P subs .emptyCont :=
  ⟨rfl, fun r _ => ⟨_, getItem_empty r⟩, fun r s y _ _ hy => by rw [getItem_empty] at hy; cases hy; exact .inl (.inr rfl)⟩

theorem HoldsItem.conforms {P : DateTime → Prop} {subs : List Attr} (hs : ∀ s ∈ subs, s.rep.sub = [] ∧ s.isComplex = false) {x : Val}
    (h : HoldsItem P subs x) : Conforms P subs x := by
  refine ⟨h.1, h.2.1, fun r s y hr hf hy => ?_⟩
  rcases h.2.2 r s y hr hf hy with h | h
  · exact .inl h
  · refine .inr ?_
    obtain ⟨h1, h2⟩ := hs s (List.mem_of_find?_eq_some hf)
    rw [if_pos h1]
    cases s with
    | simple i => exact h
    | complex => cases h2

theorem cplxAttrLoop_total {r : AttrRep} {f : Val → PyM MatchStatus} : ∀ {xs : List Val} (b : Bool),
    (∀ x ∈ xs, ∃ y st, x.getItem r = .ok y ∧ f y = .ok st) → ∃ p, cplxAttrLoop r f xs b = .ok p
  | [], _, _ => ⟨_, rfl⟩
  | x :: xs, b, h => by
    obtain ⟨y, st, hy, hst⟩ := h x (by simp)
    rw [cplxAttrLoop, hy]
    dsimp only
    rw [hst]
    have ih := fun b => cplxAttrLoop_total (xs := xs) b (fun z hz => h z (List.mem_cons_of_mem _ hz))
    cases st <;> first | exact ⟨_, rfl⟩ | exact ih _

theorem cplxLoop_total {f : Val → PyM MatchStatus} : ∀ {xs : List Val} (b : Bool),
    (∀ x ∈ xs, ∃ st, f x = .ok st) → ∃ p, cplxLoop f xs b = .ok p
  | [], _, _ => ⟨_, rfl⟩
  | x :: xs, b, h => by
    obtain ⟨st, hst⟩ := h x (by simp)
    rw [cplxLoop, hst]
    have ih := fun b => cplxLoop_total (xs := xs) b (fun z hz => h z (List.mem_cons_of_mem _ hz))
    cases st <;> first | exact ⟨_, rfl⟩ | exact ih _

theorem Conforms.orDict {P : DateTime → Prop} {attrs : List Attr} {x : Val} (h : Conforms P attrs x) : x.orDict = x := by
  have := h.cont
  cases x <;> simp [Val.isCont] at this
  rfl

/-- What `ComplexAttributeOperator.match` computes before the final status. -/
def cplxOut (sub : Op) (f : Val → PyM MatchStatus) (xs : List Val) : PyM (Bool × Bool) :=
  if sub.isAttrOp then
    match cplxAttrLoop (sub.rep?.getD {}) f xs false with
    | .error e => .error e
    | .ok (pass, hasValue) => .ok (pass, !hasValue)
  else cplxLoop f xs false

theorem match_cplx {r : AttrRep} {sub : Op} {x : Val} {attrs : List Attr} {strict : Bool} {i : AttrInfo} {subs : List Attr} {ps ds : List Proc}
    (hf : findAttr attrs r = some (.complex i subs ps ds)) :
    Op.match (.cplx r sub) x attrs strict =
      if i.multi && !x.isList || !i.multi && x.isList then .ok .failed
      else match cplxOut sub (fun z => Op.match sub z subs strict)
          (if x.truthy then x else if i.multi then .list [] else .emptyCont).asList with
        | .error e => .error e
        | .ok p => .ok (cplxStatus strict p) := by
  rw [Op.match, hf]; rfl

mutual
/-- **Matching is total.** -/
theorem matchOn_total {P : DateTime → Prop} : ∀ (o : Op) (attrs : List Attr) (x : Val) (strict : Bool), o.WellTyped P attrs →
    Conforms P attrs x → ∃ st, o.matchOn x attrs strict = .ok st
  | .pr r, attrs, x, strict, hw, hx => by
    rw [Op.WellTyped] at hw
    obtain ⟨y, hy⟩ := hx.read r hw.1
    simp only [Op.matchOn, onOperand, Op.rep?, hy]
    rw [Op.match]
    exact matchPr_total (P := P) fun a ha => ⟨hw.2 a ha, hx.typed r a y hw.1 ha hy⟩
  | .cmp o r v, attrs, x, strict, hw, hx => by
    rw [Op.WellTyped] at hw
    obtain ⟨y, hy⟩ := hx.read r hw.1
    simp only [Op.matchOn, onOperand, Op.rep?, hy]
    rw [Op.match]
    exact matchCmp_total (P := P) strict fun a ha => ⟨hw.2 a ha, hx.typed r a y hw.1 ha hy⟩
  | .cplx r sub, attrs, x, strict, hw, hx => by
    rw [Op.WellTyped] at hw
    obtain ⟨hr, hw⟩ := hw
    obtain ⟨y, hy⟩ := hx.read r hr
    simp only [Op.matchOn, onOperand, Op.rep?, hy]
    cases hf : findAttr attrs r with
    | none => rw [Op.match, hf]; exact ⟨_, rfl⟩
    | some a =>
      have ht := hx.typed r a y hr hf hy
      cases a with
      | simple i => rw [Op.match, hf]; exact ⟨_, rfl⟩
      | complex i subs ps ds =>
        rw [hf] at hw
        obtain ⟨hflat, hw⟩ := hw
        rw [match_cplx hf]
        split
        · exact ⟨_, rfl⟩
        rename_i hl
        generalize hv : (if y.truthy = true then y else if i.multi = true then Val.list [] else Val.emptyCont) = y'
        have hitems : ∀ z ∈ y'.asList, HoldsItem P subs z := by
          intro z hz
          by_cases hy0 : y.truthy = true
          · rw [if_pos hy0] at hv
            subst hv
            rcases ht with (rfl | rfl) | ht
            · cases hy0
            · cases hy0
            · split at ht
              · obtain ⟨-, ht⟩ := ht
                cases hm : i.multi with
                | true =>
                  rw [if_pos hm] at ht
                  obtain ⟨xs, rfl, hxs⟩ := ht
                  exact hxs z hz
                | false =>
                  rw [if_neg (by rw [hm]; simp)] at ht
                  have hc := ht.1
                  cases y <;> simp [Val.isCont] at hc
                  simp only [Val.asList, List.mem_singleton] at hz
                  subst hz
                  exact ht
              · obtain ⟨_, e, -⟩ := ht; cases e
          · rw [if_neg hy0] at hv
            split at hv
            · subst hv; cases hz
            · subst hv
              simp only [Val.emptyCont, Val.asList, List.mem_singleton] at hz
              subst hz
              exact HoldsItem.empty P subs
        suffices hout : ∃ p, cplxOut sub (fun x => Op.match sub x subs strict) y'.asList = .ok p by
          obtain ⟨p, hp⟩ := hout
          rw [hp]
          exact ⟨_, rfl⟩
        · unfold cplxOut
          cases hs : sub.isAttrOp with
          | true =>
            rw [if_pos rfl]
            obtain ⟨q, hq⟩ : ∃ q, sub.rep? = some q := by
              cases sub <;> simp [Op.isAttrOp] at hs <;> exact ⟨_, rfl⟩
            obtain ⟨p, hp⟩ := cplxAttrLoop_total (r := q) (f := fun x => Op.match sub x subs strict) (xs := y'.asList) false (by
              intro z hz
              obtain ⟨st, hst⟩ := matchOn_total sub subs z strict hw ((hitems z hz).conforms hflat)
              simp only [Op.matchOn, onOperand, hq] at hst
              split at hst
              · cases hst
              · rename_i w hw'
                exact ⟨w, st, hw', hst⟩)
            rw [hq, Option.getD_some, hp]
            exact ⟨_, rfl⟩
          | false =>
            rw [if_neg (by simp)]
            apply cplxLoop_total
            intro z hz
            cases hq : sub.rep? with
            | none =>
              obtain ⟨st, hst⟩ := matchOn_total sub subs z strict hw ((hitems z hz).conforms hflat)
              simp only [Op.matchOn, onOperand, hq] at hst
              exact ⟨st, hst⟩
            | some q =>
              cases sub with
              | cplx r' s' =>
                rw [Op.match]
                cases hf' : findAttr subs r' with
                | none => exact ⟨_, rfl⟩
                | some s =>
                  have := (hflat s (List.mem_of_find?_eq_some hf')).2
                  cases s with
                  | simple => exact ⟨_, rfl⟩
                  | complex => cases this
              | pr | cmp => cases hs
              | not | and | or => cases hq
  | .not sub, attrs, x, strict, hw, hx => by
    rw [Op.WellTyped] at hw
    obtain ⟨st, hst⟩ := matchOn_total sub attrs x true hw hx
    simp only [Op.matchOn, onOperand, Op.rep?]
    rw [Op.match, hx.orDict]
    unfold Op.matchOn at hst
    rw [hst]
    exact ⟨_, rfl⟩
  | .and subs, attrs, x, strict, hw, hx => by
    rw [Op.WellTyped] at hw
    simp only [Op.matchOn, onOperand, Op.rep?]
    rw [Op.match, hx.orDict]
    exact andLoop_total subs attrs x strict false hw hx
  | .or subs, attrs, x, strict, hw, hx => by
    rw [Op.WellTyped] at hw
    simp only [Op.matchOn, onOperand, Op.rep?]
    rw [Op.match, hx.orDict]
    exact orLoop_total subs attrs x strict false hw hx
theorem andLoop_total {P : DateTime → Prop} : ∀ (os : List Op) (attrs : List Attr) (x : Val) (strict b : Bool),
    Op.AllWellTyped P attrs os → Conforms P attrs x → ∃ st, andLoop os x attrs strict b = .ok st
  | [], _, _, _, _, _, _ => by rw [andLoop]; exact ⟨_, rfl⟩
  | o :: os, attrs, x, strict, b, hw, hx => by
    rw [Op.AllWellTyped] at hw
    obtain ⟨st, hst⟩ := matchOn_total o attrs x strict hw.1 hx
    unfold Op.matchOn at hst
    rw [andLoop, hst]
    cases st <;> first | exact ⟨_, rfl⟩ | exact andLoop_total os attrs x strict _ hw.2 hx
theorem orLoop_total {P : DateTime → Prop} : ∀ (os : List Op) (attrs : List Attr) (x : Val) (strict b : Bool),
    Op.AllWellTyped P attrs os → Conforms P attrs x → ∃ st, orLoop os x attrs strict b = .ok st
  | [], _, _, _, _, _, _ => by rw [orLoop]; exact ⟨_, rfl⟩
  | o :: os, attrs, x, strict, b, hw, hx => by
    rw [Op.AllWellTyped] at hw
    obtain ⟨st, hst⟩ := matchOn_total o attrs x strict hw.1 hx
    unfold Op.matchOn at hst
    rw [orLoop, hst]
    cases st <;> first | exact ⟨_, rfl⟩ | exact orLoop_total os attrs x strict _ hw.2 hx
end

end Scim
