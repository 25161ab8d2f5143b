import Verif.Lemmas.Operator
import Verif.Props.Schemas
import Verif.Lemmas.Presence

/-! # C43–C51: matching filters -/

namespace Scim
variable [PyEnv]

/-- **C43** a non-strict match is never "missing data" … -/
theorem C43_decided (o : Op) (v : Val) (attrs : List Attr) : o.match v attrs false ≠ .ok .missing :=
  match_nonstrict o v attrs

/-- **C43** … so its truth value can be taken. -/
theorem C43_bool (o : Op) (v : Val) (attrs : List Attr) (st : MatchStatus) (h : o.match v attrs false = .ok st) :
    ∃ b, st.toBool = .ok b := by
  cases st
  · exact ⟨true, rfl⟩
  · exact ⟨false, rfl⟩
  · exact ⟨false, rfl⟩
  · exact absurd h (C43_decided o v attrs)

/-- **C44** what passes strictly passes non-strictly, unless the non-strict match raises. -/
theorem C44_strict_nonstrict (o : Op) (v : Val) (attrs : List Attr) (st : MatchStatus)
    (h1 : o.match v attrs true = .ok .passed) (h2 : o.match v attrs false = .ok st) : st = .passed :=
  (match_mono o v attrs _ _ h1 h2).1 rfl

/-! ## C45, C46 -/

theorem orDict_cont {v : Val} (h : v.isCont = true) : v.orDict = v := by
  cases v <;> simp [Val.isCont] at h
  rfl

/-- The conjunction of the operands' truth values; an operand on an undeclared attribute is neutral. -/
def conj (sts : List MatchStatus) : Truth := (sts.map (MatchStatus.truth .t)).foldr Truth.and .t

/-- The disjunction of the operands' truth values; an operand on an undeclared attribute fails. -/
def disj (sts : List MatchStatus) : Truth := (sts.map (MatchStatus.truth .f)).foldr Truth.or .f

theorem andFold_kleene (sts : List MatchStatus) (m : Bool) :
    andFold (sts.map .ok) m = .ok ((Truth.and (if m then .u else .t) (conj sts)).status) := by
  induction sts generalizing m with
  | nil => cases m <;> rfl
  | cons s sts ih =>
    rw [List.map_cons, andFold_cons]
    have hc : conj (s :: sts) = Truth.and (s.truth .t) (conj sts) := rfl
    rw [hc]
    cases s <;> simp only [ih] <;> cases m <;> cases conj sts <;> rfl

theorem orFold_kleene (sts : List MatchStatus) (m : Bool) :
    orFold (sts.map .ok) m = .ok ((Truth.or (if m then .u else .f) (disj sts)).status) := by
  induction sts generalizing m with
  | nil => cases m <;> rfl
  | cons s sts ih =>
    rw [List.map_cons, orFold_cons]
    have hc : disj (s :: sts) = Truth.or (s.truth .f) (disj sts) := rfl
    rw [hc]
    cases s <;> simp only [ih] <;> cases m <;> cases disj sts <;> rfl

/-- **C46** `And` is Kleene's conjunction of its operands. -/
theorem C46_and (os : List Op) (v : Val) (hv : v.isCont = true) (attrs : List Attr) (strict : Bool)
    (sts : List MatchStatus) (h : os.map (fun o => o.matchOn v attrs strict) = sts.map .ok) :
    (Op.and os).match v attrs strict = .ok (conj sts).status := by
  rw [and_match, orDict_cont hv, h, andFold_kleene]
  cases conj sts <;> rfl

/-- **C46** `Or` is Kleene's disjunction of its operands. -/
theorem C46_or (os : List Op) (v : Val) (hv : v.isCont = true) (attrs : List Attr) (strict : Bool)
    (sts : List MatchStatus) (h : os.map (fun o => o.matchOn v attrs strict) = sts.map .ok) :
    (Op.or os).match v attrs strict = .ok (disj sts).status := by
  rw [or_match, orDict_cont hv, h, orFold_kleene]
  cases disj sts <;> rfl

/-- **C46** `Not` exchanges passing and failing; it takes an unknown (missing data) operand for failed in a strict
match and for passed in a non-strict one, and fails on an undeclared attribute.  The operand is always matched
strictly. -/
theorem C46_not (o : Op) (v : Val) (hv : v.isCont = true) (attrs : List Attr) (strict : Bool) (st : MatchStatus)
    (h : o.matchOn v attrs true = .ok st) :
    (Op.not o).match v attrs strict = .ok (match st with
      | .passed => .failed
      | .failed => .passed
      | .missing => if strict then .failed else .passed
      | .noAttr => .failed) := by
  rw [Op.match, orDict_cont hv]
  have : onOperand o (fun x => o.match x attrs true) v = .ok st := h
  rw [this]
  cases st <;> rfl

/-- **C46** logical operators raise only what one of their operands raises. -/
theorem C46_raises (os : List Op) (v : Val) (hv : v.isCont = true) (attrs : List Attr) (strict : Bool) (e : PyErr)
    (h : (Op.and os).match v attrs strict = .error e ∨ (Op.or os).match v attrs strict = .error e) :
    ∃ o ∈ os, o.matchOn v attrs strict = .error e := by
  rw [and_match, or_match, orDict_cont hv] at h
  have key : ∀ (rs : List (PyM MatchStatus)), (∃ m, andFold rs m = .error e) ∨ (∃ m, orFold rs m = .error e) →
      .error e ∈ rs := by
    intro rs
    induction rs with
    | nil => rintro (⟨m, h⟩ | ⟨m, h⟩) <;> cases m <;> simp [andFold, orFold] at h
    | cons r rs ih =>
      rintro (⟨m, h⟩ | ⟨m, h⟩)
      · rw [andFold_cons] at h
        split at h
        · cases h; simp
        · simp at h
        · exact List.mem_cons_of_mem _ (ih (.inl ⟨_, h⟩))
        · exact List.mem_cons_of_mem _ (ih (.inl ⟨_, h⟩))
      · rw [orFold_cons] at h
        split at h
        · cases h; simp
        · simp at h
        · exact List.mem_cons_of_mem _ (ih (.inr ⟨_, h⟩))
        · exact List.mem_cons_of_mem _ (ih (.inr ⟨_, h⟩))
  have := key _ (h.imp (fun h => ⟨false, h⟩) (fun h => ⟨false, h⟩))
  obtain ⟨o, ho, he⟩ := List.mem_map.mp this
  exact ⟨o, ho, he⟩

theorem all_ok_map {α β : Type} (f : α → PyM β) (l : List α) (h : ∀ x ∈ l, ∃ b, f x = .ok b) :
    ∃ bs : List β, l.map f = bs.map .ok := by
  induction l with
  | nil => exact ⟨[], rfl⟩
  | cons x l ih =>
    obtain ⟨b, hb⟩ := h x (by simp)
    obtain ⟨bs, hbs⟩ := ih (fun x hx => h x (by simp [hx]))
    exact ⟨b :: bs, by simp [hb, hbs]⟩

omit [PyEnv] in
theorem Truth.and_left_comm (a b c : Truth) : a.and (b.and c) = b.and (a.and c) := by
  cases a <;> cases b <;> cases c <;> rfl
omit [PyEnv] in
theorem Truth.or_left_comm (a b c : Truth) : a.or (b.or c) = b.or (a.or c) := by
  cases a <;> cases b <;> cases c <;> rfl

omit [PyEnv] in
theorem conj_perm {a b : List MatchStatus} (h : a.Perm b) : conj a = conj b := by
  unfold conj
  exact (h.map _).foldr_eq' (fun x _ y _ z => Truth.and_left_comm y x z) _

omit [PyEnv] in
theorem disj_perm {a b : List MatchStatus} (h : a.Perm b) : disj a = disj b := by
  unfold disj
  exact (h.map _).foldr_eq' (fun x _ y _ z => Truth.or_left_comm y x z) _

omit [PyEnv] in
theorem perm_of_map_ok {α : Type} {f : α → PyM MatchStatus} {l l' : List α} (hp : l.Perm l')
    {bs bs' : List MatchStatus} (h : l.map f = bs.map .ok) (h' : l'.map f = bs'.map .ok) : bs.Perm bs' := by
  have h1 : (bs.map (Except.ok (ε := PyErr))).Perm (bs'.map .ok) := by
    rw [← h, ← h']; exact hp.map f
  have h2 := h1.map (fun r : PyM MatchStatus => match r with | .ok s => s | .error _ => .failed)
  simpa [List.map_map, Function.comp_def] using h2

/-- **C45** the order of the operands of `And` and `Or` is irrelevant when none of them raises. -/
theorem C45_permutation (os os' : List Op) (hp : os.Perm os') (v : Val) (hv : v.isCont = true) (attrs : List Attr)
    (strict : Bool) (h : ∀ o ∈ os, ∃ st, o.matchOn v attrs strict = .ok st) :
    (Op.and os).match v attrs strict = (Op.and os').match v attrs strict ∧
      (Op.or os).match v attrs strict = (Op.or os').match v attrs strict := by
  obtain ⟨bs, hbs⟩ := all_ok_map _ os h
  obtain ⟨bs', hbs'⟩ := all_ok_map (fun o => Op.matchOn o v attrs strict) os' (fun o ho => h o (hp.mem_iff.mpr ho))
  have hpp := perm_of_map_ok hp hbs hbs'
  rw [C46_and os v hv attrs strict bs hbs, C46_and os' v hv attrs strict bs' hbs', C46_or os v hv attrs strict bs hbs,
    C46_or os' v hv attrs strict bs' hbs', conj_perm hpp, disj_perm hpp]
  exact ⟨rfl, rfl⟩

/-! ## C47 -/

omit [PyEnv] in
theorem strLt_iff (s t : Str) : strLt s t = true ↔ s.map Char.toNat < t.map Char.toNat := by
  induction s generalizing t with
  | nil =>
    cases t with
    | nil => simp [strLt]
    | cons b t => simp [strLt]
  | cons a s ih =>
    cases t with
    | nil => simp [strLt]
    | cons b t =>
      simp only [strLt, List.map_cons, List.cons_lt_cons_iff, Char.toNat_inj]
      by_cases h1 : a.toNat < b.toNat
      · simp [h1]
      · by_cases h2 : a = b
        · simp [h2, ih]
        · simp [h1, h2]

theorem apply_str (o : CmpOp) (s t : Str) : ∃ b, o.apply (.str s) (.str t) = .ok b ∧ (b = true ↔ StrRel o s t) := by
  have heq : (Val.prim (.str s)).pyEq (.prim (.str t)) = .ok (s == t) := pyEq_prim _ _
  cases o
  · exact ⟨_, by simp only [CmpOp.apply]; exact heq, by simp [StrRel]⟩
  · exact ⟨!(s == t), by simp only [CmpOp.apply, heq], by simp [StrRel]⟩
  · refine ⟨_, rfl, ?_⟩
    rw [isInfix_iff]
    simp only [StrRel, Contains, List.IsInfix, eq_comm]
  · refine ⟨_, rfl, ?_⟩
    simp [StrRel, startsWith]
  · refine ⟨_, rfl, ?_⟩
    simp [StrRel, endsWith]
  · exact ⟨_, rfl, by rw [strLt_iff]; rfl⟩
  · refine ⟨_, rfl, ?_⟩
    rw [Bool.not_eq_true', ← Bool.not_eq_true, strLt_iff]; rfl
  · exact ⟨_, rfl, by rw [strLt_iff]; rfl⟩
  · refine ⟨_, rfl, ?_⟩
    rw [Bool.not_eq_true', ← Bool.not_eq_true, strLt_iff]; rfl

/-- The string under which an attribute compares. -/
def folded (i : AttrInfo) (s : Str) : Str := if i.caseExact then s else lower s

/-- The attributes and operators comparing strings: everything on strings; equality and containment on references;
equality on binaries. -/
def StringCompare (o : CmpOp) (t : AttrType) : Prop :=
  t = .string ∨ ((t = .extRef ∨ t = .uriRef ∨ t = .scimRef) ∧ (o = .eq ∨ o = .ne ∨ o = .co ∨ o = .sw ∨ o = .ew)) ∨
    (t = .binary ∧ (o = .eq ∨ o = .ne))

omit [PyEnv] in
theorem StringCompare.ok {o : CmpOp} {t : AttrType} (h : StringCompare o t) :
    o.supportsType t = true ∧ t ≠ .unknown ∧ t ≠ .dateTime := by
  rcases h with rfl | ⟨rfl | rfl | rfl, rfl | rfl | rfl | rfl | rfl⟩ | ⟨rfl, rfl | rfl⟩ <;>
    (try cases o) <;> simp [CmpOp.supportsType]

theorem match_str (o : CmpOp) (r : AttrRep) (attrs : List Attr) (i : AttrInfo) (strict : Bool) (s t : Str)
    (hf : findAttr attrs r = some (.simple i)) (ht : StringCompare o i.type) :
    (Op.cmp o r (.str t)).match (.str s) attrs strict =
      anyApply o (.str (folded i t)) [.str (folded i s)] := by
  obtain ⟨h1, h2, h3⟩ := ht.ok
  rw [Op.match]
  unfold matchCmp
  rw [hf]
  dsimp only
  rw [if_neg (by simp [Val.isNoneOrMissing]), if_neg (by simp [Val.isInvalid])]
  unfold comparisonValues comparePairs
  simp only [Attr.info, h2, h3, h1, if_false, Bool.not_true, Bool.false_eq_true]
  cases hc : i.caseExact
  · simp [folded, hc, Val.asList]
  · simp [folded, hc, Val.asList]

/-- **C47** comparing a string attribute compares the strings: lower-cased ones if the attribute is not case-exact,
the strings themselves if it is. -/
theorem C47_strings (o : CmpOp) (r : AttrRep) (attrs : List Attr) (i : AttrInfo) (strict : Bool) (s t : Str)
    (hf : findAttr attrs r = some (.simple i)) (ht : StringCompare o i.type) :
    ∃ st, (Op.cmp o r (.str t)).match (.str s) attrs strict = .ok st ∧ (st = .passed ∨ st = .failed) ∧
      (st = .passed ↔ if i.caseExact then StrRel o s t else StrRel o (lower s) (lower t)) := by
  rw [match_str o r attrs i strict s t hf ht]
  obtain ⟨b, hb, hrel⟩ := apply_str o (folded i s) (folded i t)
  have hrel' : (if i.caseExact then StrRel o s t else StrRel o (lower s) (lower t)) ↔
      StrRel o (folded i s) (folded i t) := by
    unfold folded; cases i.caseExact <;> simp
  rw [hrel', ← hrel]
  unfold anyApply
  rw [hb]
  cases b
  · exact ⟨.failed, rfl, by simp, by simp⟩
  · exact ⟨.passed, rfl, by simp, by simp⟩

/-- **C47** changing the case of data or operand makes no difference for an attribute that is not case-exact. -/
theorem C47_case_ignored (o : CmpOp) (r : AttrRep) (attrs : List Attr) (i : AttrInfo) (strict : Bool) (s s' t t' : Str)
    (hf : findAttr attrs r = some (.simple i)) (ht : StringCompare o i.type) (hc : i.caseExact = false)
    (hs : lower s = lower s') (htt : lower t = lower t') :
    (Op.cmp o r (.str t)).match (.str s) attrs strict = (Op.cmp o r (.str t')).match (.str s') attrs strict := by
  rw [match_str o r attrs i strict s t hf ht, match_str o r attrs i strict s' t' hf ht]
  simp [folded, hc, hs, htt]

/-! ## C48 -/

theorem pyEq_prim_right (a : Val) (v : Prim) : ∃ b, a.pyEq (.prim v) = .ok b := by
  unfold Val.pyEq
  generalize a.size + (Val.prim v).size = n
  cases a <;> simp [Val.pyEqN]

omit [PyEnv] in
theorem asList_single {v : Val} (h : v.Single) : v.asList = [v] := by
  obtain ⟨-, -, h⟩ := h
  cases v <;> simp [Val.isList] at h <;> rfl

/-- **C48** on a present single value, `ne` passes exactly when `eq` fails. -/
theorem C48_eq_ne (r : AttrRep) (attrs : List Attr) (i : AttrInfo) (strict : Bool) (x : Val) (v : Prim)
    (hf : findAttr attrs r = some (.simple i)) (hu : i.type ≠ .unknown) (hd : i.type ≠ .dateTime) (hx : x.Single)
    (hcmp : (∀ t, v ≠ .str t) ∨ i.caseExact = true ∨ ∃ s, x = .str s) :
    ((Op.cmp .eq r v).match x attrs strict = .ok .passed ∧ (Op.cmp .ne r v).match x attrs strict = .ok .failed) ∨
    ((Op.cmp .eq r v).match x attrs strict = .ok .failed ∧ (Op.cmp .ne r v).match x attrs strict = .ok .passed) := by
  have hpairs : ∃ y w, comparePairs i x v = .ok (some (.vals [y] w)) := by
    unfold comparePairs
    rw [if_neg hd, asList_single hx]
    cases v with
    | str t =>
      cases hc : i.caseExact
      · rcases hcmp with h | h | ⟨s, rfl⟩
        · exact absurd rfl (h t)
        · rw [hc] at h; cases h
        · exact ⟨.str (lower s), .str (lower t), by simp⟩
      · exact ⟨x, .str t, by simp⟩
    | _ => exact ⟨_, _, rfl⟩
  obtain ⟨y, w, hy⟩ := hpairs
  have hm : ∀ o : CmpOp, o.supportsType i.type = true →
      (Op.cmp o r v).match x attrs strict = anyApply o w [y] := by
    intro o ho
    rw [Op.match]
    unfold matchCmp
    rw [hf]
    dsimp only
    rw [if_neg (by simp [hx.1]), if_neg (by simp [hx.2.1])]
    unfold comparisonValues
    rw [if_neg (by simp [Attr.info, hu]), if_neg (by simp [Attr.info, ho])]
    simp only [hy]
  rw [hm .eq rfl, hm .ne rfl]
  obtain ⟨b, hb⟩ := pyEq_prim_right y w
  simp only [anyApply, CmpOp.apply, hb]
  cases b <;> simp

/-- **C48** the same for dates. -/
theorem C48_eq_ne_dates (r : AttrRep) (attrs : List Attr) (i : AttrInfo) (strict : Bool) (s t : Str) (a b : DateTime)
    (hf : findAttr attrs r = some (.simple i)) (hd : i.type = .dateTime) (hs : fromIso s = some a)
    (ht : fromIso t = some b) :
    ((Op.cmp .eq r (.str t)).match (.str s) attrs strict = .ok .passed ∧
      (Op.cmp .ne r (.str t)).match (.str s) attrs strict = .ok .failed) ∨
    ((Op.cmp .eq r (.str t)).match (.str s) attrs strict = .ok .failed ∧
      (Op.cmp .ne r (.str t)).match (.str s) attrs strict = .ok .passed) := by
  have hm : ∀ o : CmpOp, o.supportsType i.type = true →
      (Op.cmp o r (.str t)).match (.str s) attrs strict = (match o.applyDt a b with
        | .error e => .error e
        | .ok b => .ok (if b then .passed else .failed)) := by
    intro o ho
    rw [Op.match]
    unfold matchCmp
    rw [hf]
    dsimp only
    rw [if_neg (by simp [Val.isNoneOrMissing]), if_neg (by simp [Val.isInvalid])]
    unfold comparisonValues comparePairs
    rw [if_neg (by simp [Attr.info, hd]), if_neg (by simp [Attr.info, ho])]
    simp [hd, hs, ht]
    rfl
  rw [hm .eq rfl, hm .ne rfl]
  simp only [CmpOp.applyDt]
  cases a.pyEq b <;> simp

/-- **C48** the exception: a string operand against a value that is no string, for an attribute that is not
case-exact — both fail. -/
theorem C48_neither (r : AttrRep) (attrs : List Attr) (i : AttrInfo) (strict : Bool) (x : Val) (t : Str)
    (hf : findAttr attrs r = some (.simple i)) (hu : i.type ≠ .unknown) (hd : i.type ≠ .dateTime) (hx : x.Single)
    (hc : i.caseExact = false) (hn : ∀ s, x ≠ .str s) (o : CmpOp) (ho : o = .eq ∨ o = .ne) :
    (Op.cmp o r (.str t)).match x attrs strict = .ok .failed := by
  have hs : o.supportsType i.type = true := by rcases ho with rfl | rfl <;> rfl
  rw [Op.match]
  unfold matchCmp
  rw [hf]
  dsimp only
  rw [if_neg (by simp [hx.1]), if_neg (by simp [hx.2.1])]
  unfold comparisonValues comparePairs
  rw [if_neg (by simp [Attr.info, hu]), if_neg (by simp [Attr.info, hs])]
  simp only [hd, if_false, hc, asList_single hx]
  cases x with
  | prim p =>
    cases p with
    | str s => exact absurd rfl (hn s)
    | _ => simp [anyApply]
  | _ => simp [anyApply]

/-! ## C49 -/

/-- **C49** on a simple attribute `pr` always decides, and passes exactly when there is a value: not null, absent or
invalid, not the empty string, and if it is a list, one with a true item. -/
theorem C49_present (r : AttrRep) (attrs : List Attr) (i : AttrInfo) (strict : Bool) (x : Val)
    (hf : findAttr attrs r = some (.simple i)) :
    ∃ st, (Op.pr r).match x attrs strict = .ok st ∧ (st = .passed ∨ st = .failed) ∧
      (st = .passed ↔ x ≠ .null ∧ x ≠ .missing ∧ x ≠ .invalid ∧ x ≠ .str [] ∧
        ∀ xs, x = .list xs → ∃ y ∈ xs, y.truthy = true) := by
  rw [Op.match]
  unfold matchPr
  rw [hf]
  dsimp only [Attr.isComplex]
  simp only [Bool.false_eq_true, if_false]
  have fin : ∀ (b : Bool) (P : Prop), (b = true ↔ P) →
      ∃ st, (Except.ok (if b then MatchStatus.passed else .failed) : PyM MatchStatus) = .ok st ∧
        (st = .passed ∨ st = .failed) ∧ (st = .passed ↔ P) := by
    intro b P h
    cases b
    · exact ⟨.failed, rfl, by simp, by rw [← h]; simp⟩
    · exact ⟨.passed, rfl, by simp, by rw [← h]; simp⟩
  cases x with
  | list xs => exact fin _ _ (by simp [Val.null, Val.str])
  | prim p =>
    cases p with
    | str s => exact fin _ _ (by cases s <;> simp [Val.null, Val.str])
    | _ => exact fin _ _ (by simp [Val.null, Val.str, Val.isNoneOrMissing, Val.isInvalid])
  | _ => exact fin _ _ (by simp [Val.null, Val.str, Val.isNoneOrMissing, Val.isInvalid])

/-- **C49** `pr` never yields "missing data". -/
theorem C49_never_missing (r : AttrRep) (attrs : List Attr) (strict : Bool) (x : Val) :
    (Op.pr r).match x attrs strict ≠ .ok .missing := by
  rw [Op.match]; exact matchPr_ne_missing r x attrs

/-! ## C50 -/

theorem anyApply_append (o : CmpOp) (w : Prim) (xs ys : List Val) :
    anyApply o w (xs ++ ys) = match anyApply o w xs with
      | .ok .failed => anyApply o w ys
      | r => r := by
  induction xs with
  | nil => rfl
  | cons x xs ih =>
    simp only [List.cons_append, anyApply]
    cases o.apply x w with
    | error e => rfl
    | ok b => cases b <;> simp [ih]

theorem anyApply_status (o : CmpOp) (w : Prim) (xs : List Val) (st : MatchStatus) (h : anyApply o w xs = .ok st) :
    st = .passed ∨ st = .failed := by
  induction xs with
  | nil => simp [anyApply] at h; exact .inr h.symm
  | cons x xs ih =>
    rw [anyApply] at h
    split at h
    · simp at h
    · cases h; exact .inl rfl
    · exact ih h

/-- A comparison of a list, in terms of the comparisons of the items alone. -/
theorem anyApply_flatMap (o : CmpOp) (w : Prim) (g : Val → List Val) (xs : List Val) :
    anyApply o w (xs.flatMap g) = .ok .passed ↔
      ∃ pre x post, xs = pre ++ x :: post ∧ (∀ y ∈ pre, ∃ st, anyApply o w (g y) = .ok st) ∧
        anyApply o w (g x) = .ok .passed := by
  induction xs with
  | nil => simp [anyApply]
  | cons x xs ih =>
    rw [List.flatMap_cons, anyApply_append]
    cases h : anyApply o w (g x) with
    | error e =>
      constructor
      · simp
      · rintro ⟨pre, y, post, h1, h2, h3⟩
        cases pre with
        | nil => simp at h1; rw [h1.1, h3] at h; simp at h
        | cons p pre =>
          simp at h1
          obtain ⟨st, hst⟩ := h2 p (by simp)
          rw [← h1.1, h] at hst; simp at hst
    | ok st =>
      rcases anyApply_status o w _ st h with rfl | rfl
      · simp only [true_iff]
        exact ⟨[], x, xs, rfl, by simp, h⟩
      · simp only [ih]
        constructor
        · rintro ⟨pre, y, post, h1, h2, h3⟩
          refine ⟨x :: pre, y, post, by rw [h1]; rfl, ?_, h3⟩
          intro z hz
          rcases List.mem_cons.mp hz with rfl | hz
          · exact ⟨_, h⟩
          · exact h2 z hz
        · rintro ⟨pre, y, post, h1, h2, h3⟩
          cases pre with
          | nil => simp at h1; rw [h1.1, h3] at h; simp at h
          | cons p pre =>
            simp at h1
            exact ⟨pre, y, post, h1.2, fun z hz => h2 z (by simp [hz]), h3⟩

/-- **C50** a comparison passes on a list of single values exactly when it passes on one of them alone (and no
earlier one raises). -/
theorem C50_simple (o : CmpOp) (r : AttrRep) (v : Prim) (attrs : List Attr) (i : AttrInfo) (strict : Bool)
    (xs : List Val) (hf : findAttr attrs r = some (.simple i)) (hd : i.type ≠ .dateTime)
    (hxs : ∀ x ∈ xs, x.Single) :
    (Op.cmp o r v).match (.list xs) attrs strict = .ok .passed ↔
      ∃ pre x post, xs = pre ++ x :: post ∧ (∀ y ∈ pre, ∃ st, (Op.cmp o r v).match y attrs strict = .ok st) ∧
        (Op.cmp o r v).match x attrs strict = .ok .passed := by
  -- both sides through the pairs
  have hpairs : ∃ (g : Val → List Val) (w : Prim), ∀ x : Val, comparePairs i x v = .ok (some (.vals (x.asList.flatMap g) w)) := by
    unfold comparePairs
    cases v with
    | str t =>
      cases hc : i.caseExact
      · refine ⟨fun x => (match x with | .prim (.str s) => some (Val.str (lower s)) | _ => none).toList, .str (lower t), ?_⟩
        intro x
        simp only [hd, if_false, Bool.not_false, if_true]
        congr 3
        induction x.asList with
        | nil => rfl
        | cons y ys ih =>
          rw [List.filterMap_cons, List.flatMap_cons, ← ih]
          cases y with
          | prim p => cases p <;> rfl
          | _ => rfl
      · exact ⟨fun x => [x], .str t, fun x => by simp [hd]⟩
    | _ => exact ⟨fun x => [x], _, fun x => by simp [hd]; rfl⟩
  obtain ⟨g, w, hg⟩ := hpairs
  by_cases hu : i.type = .unknown
  · -- nothing can be compared
    have herr : ∀ x : Val, x.isNoneOrMissing = false → x.isInvalid = false →
        (Op.cmp o r v).match x attrs strict = .error .attributeError := by
      intro x h1 h2
      rw [Op.match]; unfold matchCmp; rw [hf]; dsimp only
      rw [if_neg (by simp [h1]), if_neg (by simp [h2])]
      unfold comparisonValues
      rw [if_pos (by simp [Attr.info, hu])]
    rw [herr _ rfl rfl]
    simp only [reduceCtorEq, false_iff, not_exists]
    rintro pre x post ⟨rfl, -, h⟩
    have := hxs x (by simp)
    rw [herr x this.1 this.2.1] at h; simp at h
  · by_cases hs : o.supportsType i.type = true
    · have hm : ∀ x : Val, x.isNoneOrMissing = false → x.isInvalid = false →
          (Op.cmp o r v).match x attrs strict = anyApply o w (x.asList.flatMap g) := by
        intro x h1 h2
        rw [Op.match]; unfold matchCmp; rw [hf]; dsimp only
        rw [if_neg (by simp [h1]), if_neg (by simp [h2])]
        unfold comparisonValues
        rw [if_neg (by simp [Attr.info, hu]), if_neg (by simp [Attr.info, hs])]
        simp only [hg]
      rw [hm _ rfl rfl]
      have hone : ∀ x : Val, x.Single → (Op.cmp o r v).match x attrs strict = anyApply o w (g x) := by
        intro x hx
        rw [hm x hx.1 hx.2.1, asList_single hx]
        simp
      rw [show (Val.list xs).asList = xs from rfl, anyApply_flatMap]
      constructor
      · rintro ⟨pre, x, post, h1, h2, h3⟩
        subst h1
        refine ⟨pre, x, post, rfl, ?_, ?_⟩
        · intro y hy; rw [hone y (hxs y (by simp [hy]))]; exact h2 y hy
        · rw [hone x (hxs x (by simp))]; exact h3
      · rintro ⟨pre, x, post, h1, h2, h3⟩
        subst h1
        refine ⟨pre, x, post, rfl, ?_, ?_⟩
        · intro y hy; rw [← hone y (hxs y (by simp [hy]))]; exact h2 y hy
        · rw [← hone x (hxs x (by simp))]; exact h3
    · have hfail : ∀ x : Val, x.isNoneOrMissing = false → x.isInvalid = false →
          (Op.cmp o r v).match x attrs strict = .ok .failed := by
        intro x h1 h2
        rw [Op.match]; unfold matchCmp; rw [hf]; dsimp only
        rw [if_neg (by simp [h1]), if_neg (by simp [h2])]
        unfold comparisonValues
        rw [if_neg (by simp [Attr.info, hu]), if_pos (by simp [Attr.info, hs])]
      rw [hfail _ rfl rfl]
      simp only [Except.ok.injEq, reduceCtorEq, false_iff, not_exists]
      rintro pre x post ⟨rfl, -, h⟩
      have := hxs x (by simp)
      rw [hfail x this.1 this.2.1] at h; simp at h

theorem cplxAttrLoop_passed (r : AttrRep) (f : Val → PyM MatchStatus) (items : List Val) (b : Bool) :
    (∃ c, cplxAttrLoop r f items b = .ok (true, c)) ↔
      ∃ pre x post, items = pre ++ x :: post ∧
        (∀ y ∈ pre, ∃ z st, y.getItem r = .ok z ∧ f z = .ok st) ∧ ∃ z, x.getItem r = .ok z ∧ f z = .ok .passed := by
  induction items generalizing b with
  | nil => simp [cplxAttrLoop]
  | cons x xs ih =>
    rw [cplxAttrLoop]
    constructor
    · intro h
      split at h
      · simp at h
      · rename_i z hz
        dsimp only at h
        split at h
        · simp at h
        · rename_i hfz; exact ⟨[], x, xs, rfl, by simp, z, hz, hfz⟩
        · rename_i st _ hfz
          obtain ⟨pre, y, post, h1, h2, h3⟩ := (ih _).mp h
          refine ⟨x :: pre, y, post, by rw [h1]; rfl, ?_, h3⟩
          intro u hu
          rcases List.mem_cons.mp hu with rfl | hu
          · exact ⟨z, st, hz, hfz⟩
          · exact h2 u hu
    · rintro ⟨pre, y, post, h1, h2, h3⟩
      cases pre with
      | nil =>
        simp at h1
        obtain ⟨z, hz, hfz⟩ := h3
        rw [← h1.1] at hz
        rw [hz]; dsimp only; rw [hfz]
        exact ⟨_, rfl⟩
      | cons p pre =>
        simp at h1
        obtain ⟨z, st, hz, hfz⟩ := h2 p (by simp)
        rw [← h1.1] at hz
        rw [hz]; dsimp only; rw [hfz]
        have hrest := fun b => (ih b).mpr ⟨pre, y, post, h1.2, fun u hu => h2 u (by simp [hu]), h3⟩
        cases st
        · exact ⟨_, rfl⟩
        · exact hrest _
        · exact hrest _
        · exact hrest _

omit [PyEnv] in
theorem cplxLoop_passed (f : Val → PyM MatchStatus) (items : List Val) (b : Bool) :
    (∃ c, cplxLoop f items b = .ok (true, c)) ↔
      ∃ pre x post, items = pre ++ x :: post ∧
        (∀ y ∈ pre, ∃ st, f y = .ok st) ∧ f x = .ok .passed := by
  induction items generalizing b with
  | nil => simp [cplxLoop]
  | cons x xs ih =>
    rw [cplxLoop]
    constructor
    · intro h
      split at h
      · simp at h
      · rename_i hfz; exact ⟨[], x, xs, rfl, by simp, hfz⟩
      all_goals
        rename_i hfz
        obtain ⟨pre, y, post, h1, h2, h3⟩ := (ih _).mp h
        refine ⟨x :: pre, y, post, by rw [h1]; rfl, ?_, h3⟩
        intro u hu
        rcases List.mem_cons.mp hu with rfl | hu
        · exact ⟨_, hfz⟩
        · exact h2 u hu
    · rintro ⟨pre, y, post, h1, h2, h3⟩
      cases pre with
      | nil =>
        simp at h1
        rw [← h1.1] at h3
        rw [h3]
        exact ⟨_, rfl⟩
      | cons p pre =>
        simp at h1
        obtain ⟨st, hfz⟩ := h2 p (by simp)
        rw [← h1.1] at hfz
        rw [hfz]
        have hrest := fun b => (ih b).mpr ⟨pre, y, post, h1.2, fun u hu => h2 u (by simp [hu]), h3⟩
        cases st
        · exact ⟨_, rfl⟩
        · exact hrest _
        · exact hrest _
        · exact hrest _

theorem matchOn_attrOp (o : Op) (h : o.isAttrOp = true) (v : Val) (attrs : List Attr) (strict : Bool) (st : MatchStatus) :
    o.matchOn v attrs strict = .ok st ↔
      ∃ z, v.getItem (o.rep?.getD {}) = .ok z ∧ o.match z attrs strict = .ok st := by
  cases o <;> simp [Op.isAttrOp] at h
  all_goals
    simp only [Op.matchOn, onOperand, Op.rep?, Option.getD_some]
    constructor
    · intro h
      split at h
      · simp at h
      · rename_i z hz; exact ⟨z, hz, h⟩
    · rintro ⟨z, hz, hm⟩
      rw [hz]; exact hm

theorem matchOn_logical (o : Op) (h : o.isLogical = true) (v : Val) (attrs : List Attr) (strict : Bool) :
    o.matchOn v attrs strict = o.match v attrs strict := by
  cases o <;> simp [Op.isLogical] at h <;> rfl

/-- **C50** a filter on the items of a complex multi-valued attribute passes (strictly) exactly when it passes on one
of the items (and no earlier item raises). -/
theorem C50_complex (r : AttrRep) (sub : Op) (attrs : List Attr) (i : AttrInfo) (subAttrs : List Attr)
    (ps ds : List Proc) (xs : List Val) (hf : findAttr attrs r = some (.complex i subAttrs ps ds))
    (hm : i.multi = true) (hsub : sub.isAttrOp = true ∨ sub.isLogical = true) :
    (Op.cplx r sub).match (.list xs) attrs true = .ok .passed ↔
      ∃ pre x post, xs = pre ++ x :: post ∧ (∀ y ∈ pre, ∃ st, sub.matchOn y subAttrs true = .ok st) ∧
        sub.matchOn x subAttrs true = .ok .passed := by
  rw [Op.match, hf]
  dsimp only
  rw [if_neg (by simp [hm, Val.isList])]
  have hitems : (if (Val.list xs).truthy = true then Val.list xs else if i.multi = true then Val.list [] else Val.emptyCont).asList = xs := by
    cases xs with
    | nil => simp [Val.truthy, hm, Val.asList]
    | cons x xs => simp [Val.truthy, Val.asList]
  rw [hitems]
  have hfin : ∀ out : PyM (Bool × Bool), (match out with
      | .error e => Except.error e
      | .ok p => Except.ok (cplxStatus true p)) = Except.ok MatchStatus.passed ↔ ∃ c, out = .ok (true, c) := by
    intro out
    cases out with
    | error e => simp
    | ok p =>
      simp only [Except.ok.injEq, cplxStatus_passed]
      obtain ⟨a, b⟩ := p
      simp
  refine (hfin _).trans ?_
  by_cases hop : sub.isAttrOp = true
  · rw [if_pos hop]
    have : (∃ c, (match cplxAttrLoop (sub.rep?.getD {}) (fun x => sub.match x subAttrs true) xs false with
        | .error e => Except.error e
        | .ok (pass, hasValue) => .ok (pass, !hasValue)) = Except.ok (true, c)) ↔
        ∃ c, cplxAttrLoop (sub.rep?.getD {}) (fun x => sub.match x subAttrs true) xs false = .ok (true, c) := by
      generalize cplxAttrLoop (sub.rep?.getD {}) (fun x => sub.match x subAttrs true) xs false = out
      cases out with
      | error e => simp
      | ok p => obtain ⟨a, b⟩ := p; simp
    refine this.trans ?_
    rw [cplxAttrLoop_passed]
    simp only [matchOn_attrOp sub hop]
    constructor
    · rintro ⟨pre, x, post, h1, h2, h3⟩
      exact ⟨pre, x, post, h1, fun y hy => by
        obtain ⟨z, st, h, h'⟩ := h2 y hy
        exact ⟨st, z, h, h'⟩, h3⟩
    · rintro ⟨pre, x, post, h1, h2, h3⟩
      exact ⟨pre, x, post, h1, fun y hy => by
        obtain ⟨st, z, h, h'⟩ := h2 y hy
        exact ⟨z, st, h, h'⟩, h3⟩
  · rw [if_neg hop, cplxLoop_passed]
    rcases hsub with h | h
    · exact absurd h hop
    · simp only [matchOn_logical sub h]

/-! ## C51 -/

/-- **C51** comparisons, `pr` and complex filters on an undeclared attribute report so, whatever the data. -/
theorem C51_undeclared (o : Op) (r : AttrRep) (ho : o.rep? = some r) (attrs : List Attr)
    (h : ∀ a ∈ attrs, ¬ a.rep.SameAs r) (v : Val) (strict : Bool) : o.match v attrs strict = .ok .noAttr := by
  have hf : findAttr attrs r = none := by
    rw [findAttr, List.find?_eq_none]
    intro a ha
    rw [eqv_sameAs]
    exact h a ha
  cases o <;> simp [Op.rep?] at ho
  · subst ho; rw [Op.match]; unfold matchPr; rw [hf]
  · subst ho; rw [Op.match]; unfold matchCmp; rw [hf]
  · subst ho; rw [Op.match, hf]

/-- **C51** A complex filter on an attribute that is declared but is not complex reports the same. -/
theorem C51_not_complex (r : AttrRep) (sub : Op) (attrs : List Attr)
    (h : ∀ a ∈ attrs, a.rep.SameAs r → a.isComplex = false) (v : Val) (strict : Bool) :
    (Op.cplx r sub).match v attrs strict = .ok .noAttr := by
  rw [Op.match]
  cases hf : findAttr attrs r with
  | none => rfl
  | some a =>
    have hm := List.mem_of_find?_eq_some hf
    have hs := List.find?_some hf
    have := h a hm ((eqv_sameAs _ _).mp hs)
    cases a with
    | simple i => rfl
    | complex i subs _ _ => simp [Attr.isComplex] at this

/-- **C51** and never match: their truth value is false. -/
theorem C51_false (o : Op) (r : AttrRep) (ho : o.rep? = some r) (attrs : List Attr)
    (h : ∀ a ∈ attrs, ¬ a.rep.SameAs r) (v : Val) (strict : Bool) :
    ∃ st, o.match v attrs strict = .ok st ∧ st.toBool = .ok false :=
  ⟨_, C51_undeclared o r ho attrs h v strict, rfl⟩

end Scim

namespace Scim.Examples.Operator
local instance operatorEnv : PyEnv := asciiEnv

/-- attributes declared by hand: a case-insensitive string, an integer, a date, a multi-valued string, a complex one -/
def opAttrs : List Attr :=
  [.simple { rep := { attr := "name".toList }, type := .string },
   .simple { rep := { attr := "exact".toList }, type := .string, caseExact := true },
   .simple { rep := { attr := "age".toList }, type := .integer },
   .simple { rep := { attr := "born".toList }, type := .dateTime },
   .simple { rep := { attr := "tags".toList }, type := .string, multi := true },
   .complex { rep := { attr := "mails".toList }, type := .complex, multi := true }
     [.simple { rep := { attr := "value".toList }, type := .string },
      .simple { rep := { attr := "kind".toList }, type := .string }] [] []]

def nameRep : AttrRep := { attr := "name".toList }
def ageRep : AttrRep := { attr := "age".toList }
def tagsRep : AttrRep := { attr := "tags".toList }
def mailsRep : AttrRep := { attr := "mails".toList }
def nopeRep : AttrRep := { attr := "nope".toList }
def opData (kvs : List (String × Val)) : Val := Val.toCont (.dict (kvs.map (fun p => (p.1.toList, p.2))))

/-- **C43** a strict match may be undecided, the non-strict one is not -/
example : (Op.and [.cmp .eq nameRep (.str "x".toList), .cmp .gt ageRep (.int 3)]).match (opData [("age", .int 5)]) opAttrs true
    = .ok .missing := by decide +kernel
example : (Op.and [.cmp .eq nameRep (.str "x".toList), .cmp .gt ageRep (.int 3)]).match (opData [("age", .int 5)]) opAttrs false
    = .ok .passed := by decide +kernel

/-- **C44** both matches pass -/
example : ∀ strict, (Op.or [.cmp .eq nameRep (.str "BOB".toList), .not (.pr ageRep)]).match
    (opData [("name", .str "bob".toList), ("age", .int 5)]) opAttrs strict = .ok .passed := by decide +kernel

/-- **C44** without the proviso on exceptions the claim is false: a strict match may stop before the operand that
raises, where the non-strict one goes on. -/
theorem C44_nonstrict_may_raise :
    (Op.or [.and [.not (.cmp .eq nameRep (.str "x".toList)), .cmp .gt ageRep (.int 5)], .pr tagsRep]).match
        (opData [("age", .str "abc".toList), ("tags", .list [.str "t".toList])]) opAttrs true = .ok .passed ∧
    (Op.or [.and [.not (.cmp .eq nameRep (.str "x".toList)), .cmp .gt ageRep (.int 5)], .pr tagsRep]).match
        (opData [("age", .str "abc".toList), ("tags", .list [.str "t".toList])]) opAttrs false = .error .typeError := by
  decide +kernel

/-- **C45**, **C46** the hypotheses hold with operands that fail, are unknown, pass and are undeclared -/
example : [Op.cmp .eq nameRep (.str "x".toList), .cmp .gt ageRep (.int 3), .pr tagsRep, .pr nopeRep].map
      (fun o => o.matchOn (opData [("name", .str "y".toList), ("tags", .list [.str "t".toList])]) opAttrs true) =
    [MatchStatus.failed, .missing, .passed, .noAttr].map .ok := by decide +kernel
example : conj [.missing, .passed, .noAttr] = .u ∧ disj [.missing, .failed, .noAttr] = .u ∧
    conj [.missing, .failed] = .f ∧ disj [.missing, .passed] = .t := by decide
/-- **C46** -/
example : (Op.not (.cmp .eq nameRep (.str "x".toList))).match (opData [("age", .int 1)]) opAttrs true = .ok .failed ∧
    (Op.not (.cmp .eq nameRep (.str "x".toList))).match (opData [("age", .int 1)]) opAttrs false = .ok .passed := by
  decide +kernel

/-- **C47** -/
example : (Op.cmp .sw nameRep (.str "BO".toList)).match (.str "bOb".toList) opAttrs true = .ok .passed ∧
    (Op.cmp .sw { attr := "exact".toList } (.str "BO".toList)).match (.str "bOb".toList) opAttrs true = .ok .failed := by
  decide +kernel
example : StringCompare .sw .string := .inl rfl
example : StrRel .gt "b".toList "a".toList := by
  show "a".toList.map Char.toNat < "b".toList.map Char.toNat
  decide

/-- **C48** -/
example : (Op.cmp .eq ageRep (.int 5)).match (.int 5) opAttrs true = .ok .passed ∧
    (Op.cmp .ne ageRep (.int 5)).match (.int 5) opAttrs true = .ok .failed := by decide +kernel
/-- **C48** the proviso is needed: a number compared with a string under a case-insensitive attribute is neither
equal nor unequal -/
example : (Op.cmp .eq nameRep (.str "5".toList)).match (.int 5) opAttrs true = .ok .failed ∧
    (Op.cmp .ne nameRep (.str "5".toList)).match (.int 5) opAttrs true = .ok .failed := by decide +kernel

/-- **C49** -/
example : (Op.pr tagsRep).match (.list [.str [], .str "a".toList]) opAttrs true = .ok .passed ∧
    (Op.pr tagsRep).match (.list [.str []]) opAttrs true = .ok .failed ∧
    (Op.pr ageRep).match (.int 0) opAttrs true = .ok .passed := by decide +kernel
/-- **C49** is about simple attributes: on the items of a complex multi-valued attribute `pr` raises. -/
theorem C49_complex_raises :
    (Op.pr mailsRep).match (.list [opData [("value", .str "a".toList)]]) opAttrs true = .error .attributeError := by
  decide +kernel

/-- **C50** -/
example : (Op.cmp .co tagsRep (.str "X".toList)).match (.list [.str "a".toList, .str "wxy".toList]) opAttrs true
    = .ok .passed := by decide +kernel
example : (Op.cplx mailsRep (.and [.cmp .eq { attr := "kind".toList } (.str "work".toList), .pr { attr := "value".toList }])).match
    (.list [opData [("kind", .str "work".toList)], opData [("kind", .str "WORK".toList), ("value", .str "v".toList)]]) opAttrs true
    = .ok .passed := by decide +kernel
/-- **C50** on items of their own the two conditions are met by different items: no match -/
example : (Op.cplx mailsRep (.and [.cmp .eq { attr := "kind".toList } (.str "work".toList), .pr { attr := "value".toList }])).match
    (.list [opData [("kind", .str "work".toList)], opData [("kind", .str "home".toList), ("value", .str "v".toList)]]) opAttrs true
    = .ok .failed := by decide +kernel
/-- **C50** the items must be values: a null item equals null, a null alone is missing data. -/
theorem C50_null_item :
    (Op.cmp .eq tagsRep .none).match (.list [.null]) opAttrs true = .ok .passed ∧
    (Op.cmp .eq tagsRep .none).match .null opAttrs true = .ok .missing := by decide +kernel

/-- **C51** -/
example : (Op.cmp .ne nopeRep (.str "x".toList)).match (.str "y".toList) opAttrs false = .ok .noAttr := by decide +kernel

end Scim.Examples.Operator
