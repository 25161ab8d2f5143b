import Verif.Lemmas.FilterEq

/-! Equal filters match alike. -/

namespace Scim
variable [PyEnv]

omit [PyEnv] in
/-- A number is compared like an equal number. -/
structure NumLike (v w : Prim) : Prop where
  num : v.num? = w.num?
  left : v.num?.isSome = true

omit [PyEnv] in
theorem SameValue.cases' {v w : Prim} (h : SameValue v w) : v = w ∨ NumLike v w := by
  cases h with
  | null => exact .inl rfl
  | str s => exact .inl rfl
  | inf b => exact .inl rfl
  | num _ _ q h1 h2 =>
    have key : ∀ {v : Prim}, v.rat? = some q → v.num? = some (.fin q) := by
      intro v h
      cases v with
      | bool b => cases b <;> simp [Prim.rat?, Prim.num?] at h ⊢ <;> exact h
      | int i => simp [Prim.rat?, Prim.num?] at h ⊢; exact h
      | flt f => cases f <;> simp [Prim.rat?, Prim.num?] at h ⊢; exact h
      | _ => simp [Prim.rat?] at h
    exact .inr ⟨by rw [key h1, key h2], by rw [key h1]; rfl⟩

omit [PyEnv] in
theorem num_not_str {v : Prim} (h : v.num?.isSome = true) : (∀ s, v ≠ .str s) ∧ v ≠ .none := by
  cases v <;> simp [Prim.num?] at h ⊢

omit [PyEnv] in
theorem pyEq_num {p v w : Prim} (h : NumLike v w) : p.pyEq v = p.pyEq w := by
  have h1 := num_not_str h.left
  have h2 := num_not_str (v := w) (by rw [← h.num]; exact h.left)
  have e : ∀ u : Prim, (∀ s, u ≠ .str s) → u ≠ .none → p.pyEq u = (match p.num?, u.num? with
      | some x, some y => x.eq y
      | _, _ => false) := by
    intro u hu hn
    cases u with
    | none => exact absurd rfl hn
    | str s => exact absurd rfl (hu s)
    | _ => cases p <;> rfl
  rw [e v h1.1 h1.2, e w h2.1 h2.2, h.num]

omit [PyEnv] in
theorem pyLt_num {p v w : Prim} (h : NumLike v w) : p.pyLt v = p.pyLt w ∧ v.pyLt p = w.pyLt p ∧ p.pyLe v = p.pyLe w ∧
    v.pyLe p = w.pyLe p := by
  have h1 := (num_not_str h.left).1
  have h2 := (num_not_str (v := w) (by rw [← h.num]; exact h.left)).1
  have e : ∀ u : Prim, (∀ s, u ≠ .str s) →
      (p.pyLt u = (match p.num?, u.num? with
        | some x, some y => .ok (x.lt y)
        | _, _ => .error .typeError)) ∧
      (u.pyLt p = (match u.num?, p.num? with
        | some x, some y => .ok (x.lt y)
        | _, _ => .error .typeError)) ∧
      (p.pyLe u = (match p.num?, u.num? with
        | some x, some y => .ok (x.lt y || x.eq y)
        | _, _ => .error .typeError)) ∧
      (u.pyLe p = (match u.num?, p.num? with
        | some x, some y => .ok (x.lt y || x.eq y)
        | _, _ => .error .typeError)) := by
    intro u hu
    cases u with
    | str s => exact absurd rfl (hu s)
    | _ => cases p <;> exact ⟨rfl, rfl, rfl, rfl⟩
  obtain ⟨a1, a2, a3, a4⟩ := e v h1
  obtain ⟨b1, b2, b3, b4⟩ := e w h2
  rw [a1, a2, a3, a4, b1, b2, b3, b4, h.num]
  exact ⟨rfl, rfl, rfl, rfl⟩

theorem valEq_num {v w : Prim} (h : NumLike v w) (x : Val) : x.pyEq (.prim v) = x.pyEq (.prim w) := by
  unfold Val.pyEq
  simp only [Val.size, Val.pyEqN]
  cases x <;> simp [pyEq_num h]

theorem listHas_num {v w : Prim} (h : NumLike v w) (xs : List Val) : listHas v xs = listHas w xs := by
  induction xs with
  | nil => rfl
  | cons x xs ih => simp only [listHas, valEq_num h, ih]

theorem apply_num {v w : Prim} (h : NumLike v w) (o : CmpOp) (x : Val) : o.apply x v = o.apply x w := by
  have h1 := num_not_str h.left
  have h2 := num_not_str (v := w) (by rw [← h.num]; exact h.left)
  have affix : ∀ f, pyAffix f x v = pyAffix f x w := by
    intro f
    cases x with
    | prim p =>
      cases p with
      | str s =>
        cases v <;> cases w <;> first
          | rfl
          | exact absurd rfl (h1.1 _)
          | exact absurd rfl (h2.1 _)
      | _ => simp [pyAffix]
    | _ => simp [pyAffix]
  cases o with
  | eq => exact valEq_num h x
  | ne => simp only [CmpOp.apply, valEq_num h x]
  | co =>
    simp only [CmpOp.apply, pyContains.eq_def]
    cases v <;> cases w <;> first
      | exact absurd rfl (h1.1 _)
      | exact absurd rfl (h2.1 _)
      | (cases x <;> simp [listHas_num h])
  | sw => exact affix _
  | ew => exact affix _
  | gt => cases x <;> simp [CmpOp.apply, pyOrd, (pyLt_num h).2.1]
  | ge => cases x <;> simp [CmpOp.apply, pyOrd, (pyLt_num h).2.2.2]
  | lt => cases x <;> simp [CmpOp.apply, pyOrd, (pyLt_num h).1]
  | le => cases x <;> simp [CmpOp.apply, pyOrd, (pyLt_num h).2.2.1]

theorem anyApply_num {v w : Prim} (h : NumLike v w) (o : CmpOp) (xs : List Val) : anyApply o v xs = anyApply o w xs := by
  induction xs with
  | nil => rfl
  | cons x xs ih => simp only [anyApply, apply_num h, ih]

/-- The pairs for a number: an exception or the list of values. -/
theorem comparePairs_num (i : AttrInfo) (value : Val) {v w : Prim} (h : NumLike v w) :
    (∃ e, comparePairs i value v = .error e ∧ comparePairs i value w = .error e) ∨
    (comparePairs i value v = .ok none ∧ comparePairs i value w = .ok none) ∨
    ∃ xs, comparePairs i value v = .ok (some (.vals xs v)) ∧ comparePairs i value w = .ok (some (.vals xs w)) := by
  have h1 := num_not_str h.left
  have h2 := num_not_str (v := w) (by rw [← h.num]; exact h.left)
  unfold comparePairs
  split
  · split
    · split
      · exact .inr (.inl ⟨rfl, rfl⟩)
      · left
        cases v <;> cases w <;> first
          | exact absurd rfl (h1.1 _)
          | exact absurd rfl (h2.1 _)
          | exact ⟨_, rfl, rfl⟩
    · exact .inl ⟨_, rfl, rfl⟩
  · right; right
    cases v <;> cases w <;> first
      | exact absurd rfl (h1.1 _)
      | exact absurd rfl (h2.1 _)
      | exact ⟨_, rfl, rfl⟩

theorem matchCmp_num {v w : Prim} (h : NumLike v w) (o : CmpOp) (r : AttrRep) (value : Val) (attrs : List Attr) (strict : Bool) :
    matchCmp o r v value attrs strict = matchCmp o r w value attrs strict := by
  have hc : ∀ a : Attr,
      (∃ e, comparisonValues o a value v = .error e ∧ comparisonValues o a value w = .error e) ∨
      (comparisonValues o a value v = .ok none ∧ comparisonValues o a value w = .ok none) ∨
      ∃ xs, comparisonValues o a value v = .ok (some (.vals xs v)) ∧ comparisonValues o a value w = .ok (some (.vals xs w)) := by
    intro a
    unfold comparisonValues
    split
    · exact .inl ⟨_, rfl, rfl⟩
    · split
      · exact .inr (.inl ⟨rfl, rfl⟩)
      · cases a with
        | simple i => exact comparePairs_num i value h
        | complex i subs _ _ =>
          dsimp only
          split
          · exact .inr (.inl ⟨rfl, rfl⟩)
          · split
            · exact .inr (.inl ⟨rfl, rfl⟩)
            · split
              · exact .inl ⟨_, rfl, rfl⟩
              · split
                · exact .inl ⟨_, rfl, rfl⟩
                · exact comparePairs_num i _ h
  unfold matchCmp
  split
  · rfl
  · rename_i a ha
    split
    · rfl
    · split
      · rfl
      · rcases hc a with ⟨e, h1, h2⟩ | ⟨h1, h2⟩ | ⟨xs, h1, h2⟩
        · rw [h1, h2]
        · rw [h1, h2]
        · rw [h1, h2]
          exact anyApply_num h o xs

mutual
theorem SameFilter.matches {a b : Op} (h : SameFilter a b) (ha : a.Formed) (hb : b.Formed) :
    a.isAttrOp = b.isAttrOp ∧ a.rep? = b.rep? ∧
      ∀ value attrs strict, a.match value attrs strict = b.match value attrs strict := by
  cases h with
  | pr r s h =>
    simp only [Op.Formed] at ha hb
    rw [shown_inj ha.1 hb.1 ha.2 hb.2 h]
    exact ⟨rfl, rfl, fun _ _ _ => rfl⟩
  | cmp o r s v w h hv =>
    simp only [Op.Formed] at ha hb
    rw [shown_inj ha.1 hb.1 ha.2.1 hb.2.1 h]
    refine ⟨rfl, rfl, fun value attrs strict => ?_⟩
    rcases hv.cases' with rfl | hn
    · rfl
    · simp only [Op.match]
      exact matchCmp_num hn o s value attrs strict
  | cplx r s x y h hx =>
    simp only [Op.Formed] at ha hb
    rw [shown_inj ha.1 hb.1 ha.2.1 hb.2.1 h]
    obtain ⟨h1, h2, h3⟩ := hx.matches ha.2.2 hb.2.2
    refine ⟨rfl, rfl, fun value attrs strict => ?_⟩
    simp only [Op.match, h1, h2, h3]
  | not x y h =>
    simp only [Op.Formed] at ha hb
    obtain ⟨h1, h2, h3⟩ := h.matches ha hb
    refine ⟨rfl, rfl, fun value attrs strict => ?_⟩
    simp only [Op.match, onOperand, h2, h3]
  | and xs ys h =>
    simp only [Op.Formed] at ha hb
    refine ⟨rfl, rfl, fun value attrs strict => ?_⟩
    simp only [Op.match]
    exact (h.loops ha.2 hb.2).1 _ _ _ _
  | or xs ys h =>
    simp only [Op.Formed] at ha hb
    refine ⟨rfl, rfl, fun value attrs strict => ?_⟩
    simp only [Op.match]
    exact (h.loops ha.2 hb.2).2 _ _ _ _
theorem SameFilters.loops {a b : List Op} (h : SameFilters a b) (ha : Op.AllFormed a) (hb : Op.AllFormed b) :
    (∀ value attrs strict m, andLoop a value attrs strict m = andLoop b value attrs strict m) ∧
    (∀ value attrs strict m, orLoop a value attrs strict m = orLoop b value attrs strict m) := by
  cases h with
  | nil => exact ⟨fun _ _ _ _ => rfl, fun _ _ _ _ => rfl⟩
  | cons x y xs ys h ht =>
    simp only [Op.AllFormed] at ha hb
    obtain ⟨-, h2, h3⟩ := h.matches ha.1 hb.1
    obtain ⟨h4, h5⟩ := ht.loops ha.2 hb.2
    constructor
    · intro value attrs strict m
      simp only [andLoop, onOperand, h2, h3, h4]
    · intro value attrs strict m
      simp only [orLoop, onOperand, h2, h3, h5]
end

theorem SameFilter.matchOn {a b : Op} (h : SameFilter a b) (ha : a.Formed) (hb : b.Formed) (value : Val) (attrs : List Attr)
    (strict : Bool) : a.matchOn value attrs strict = b.matchOn value attrs strict := by
  obtain ⟨-, h2, h3⟩ := h.matches ha hb
  unfold Op.matchOn onOperand
  simp only [h2, h3]

end Scim
