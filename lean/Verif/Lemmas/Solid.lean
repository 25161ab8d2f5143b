import Verif.Lemmas.RequestTotality
import Verif.Model.ListChecks

/-! Helper lemmas for C98: the exceptions raised by filters and sorters on dumped resources are among those that the
checks of a list swallow. -/

namespace Scim
open Issues
variable [PyEnv]

mutual
/-- Values without plain dictionaries whose containers are in order, at any depth. -/
def Val.Solid : Val → Prop
  | .list xs => SolidList xs
  | .cont data lc => CInv data lc ∧ SolidPairs data
  | .dict _ => False
  | _ => True
/-- all items are solid -/
def SolidList : List Val → Prop
  | [] => True
  | v :: r => v.Solid ∧ SolidList r
/-- all values are solid -/
def SolidPairs : List (Str × Val) → Prop
  | [] => True
  | (_, v) :: r => v.Solid ∧ SolidPairs r
end

theorem solidList_iff {xs : List Val} : SolidList xs ↔ ∀ x ∈ xs, x.Solid := by
  induction xs with
  | nil => simp [SolidList]
  | cons x xs ih => simp [SolidList, ih]

theorem solidPairs_iff {kvs : List (Str × Val)} : SolidPairs kvs ↔ ∀ p ∈ kvs, p.2.Solid := by
  induction kvs with
  | nil => simp [SolidPairs]
  | cons x xs ih => obtain ⟨k, v⟩ := x; simp [SolidPairs, ih]

/-- Only exceptions that stand for bad data. -/
def OnlyBad {α : Type} (x : PyM α) : Prop := ∀ e, x = .error e → e.isBadData = true

omit [PyEnv] in
theorem OnlyBad.ok {α : Type} (a : α) : OnlyBad (.ok a : PyM α) := fun _ h => by cases h

omit [PyEnv] in
theorem OnlyBad.error {α : Type} {e : PyErr} (h : e.isBadData = true) : OnlyBad (.error e : PyM α) :=
  fun _ h' => by cases h'; exact h

/-! ### Reading -/

mutual
theorem getX_solid : ∀ (v : Val) (b : Bool) (r : AttrRep), v.Solid →
    OnlyBad (Val.getX b v r) ∧ ∀ x, Val.getX b v r = .ok x → x.Solid
  | .cont data lc, b, r, h => by
    simp only [Val.Solid] at h
    rw [Val.getX]
    split
    · exact ⟨.error rfl, fun x hx => by cases hx⟩
    · split
      · rename_i k hk
        exact getAt_solid data false k _ h.2 (h.1.sound _ _ hk).2
      · split
        · exact ⟨.ok _, fun x hx => by cases hx; simp only [Val.Solid]⟩
        · rename_i k hk
          have hm := (h.1.sound _ _ hk).2
          split
          · split
            · rename_i v hv
              exact ⟨.ok _, fun x hx => by cases hx; exact solidPairs_iff.mp h.2 _ (mem_of_aget hv)⟩
            · rename_i hv
              rw [← aget_isSome_iff, hv] at hm
              cases hm
          · exact getAt_solid data true k _ h.2 hm
  | .list xs, true, r, h => by
    simp only [Val.Solid] at h
    rw [Val.getX]
    split
    · exact ⟨.error rfl, fun x hx => by cases hx⟩
    · obtain ⟨h1, h2⟩ := getMap_solid xs r h
      split
      · rename_i ys hy
        exact ⟨.ok _, fun x hx => by cases hx; simp only [Val.Solid]; exact h2 _ hy⟩
      · rename_i e he
        exact ⟨.error (h1 _ he), fun x hx => by cases hx⟩
  | .list _, false, _, _ => by simp only [Val.getX]; exact ⟨.error rfl, fun x hx => by cases hx⟩
  | .prim _, true, _, _ => by simp only [Val.getX]; exact ⟨.ok _, fun x hx => by cases hx; simp only [Val.Solid]⟩
  | .prim _, false, _, _ => by simp only [Val.getX]; exact ⟨.error rfl, fun x hx => by cases hx⟩
  | .missing, true, _, _ => by simp only [Val.getX]; exact ⟨.ok _, fun x hx => by cases hx; simp only [Val.Solid]⟩
  | .missing, false, _, _ => by simp only [Val.getX]; exact ⟨.error rfl, fun x hx => by cases hx⟩
  | .invalid, true, _, _ => by simp only [Val.getX]; exact ⟨.ok _, fun x hx => by cases hx; simp only [Val.Solid]⟩
  | .invalid, false, _, _ => by simp only [Val.getX]; exact ⟨.error rfl, fun x hx => by cases hx⟩
  | .dt _, true, _, _ => by simp only [Val.getX]; exact ⟨.ok _, fun x hx => by cases hx; simp only [Val.Solid]⟩
  | .dt _, false, _, _ => by simp only [Val.getX]; exact ⟨.error rfl, fun x hx => by cases hx⟩
  | .obj _, true, _, _ => by simp only [Val.getX]; exact ⟨.ok _, fun x hx => by cases hx; simp only [Val.Solid]⟩
  | .obj _, false, _, _ => by simp only [Val.getX]; exact ⟨.error rfl, fun x hx => by cases hx⟩
  | .dict _, _, _, h => by simp only [Val.Solid] at h
theorem getAt_solid : ∀ (d : List (Str × Val)) (b : Bool) (k : Str) (r : AttrRep), SolidPairs d → k ∈ d.map (·.1) →
    OnlyBad (getAt b k d r) ∧ ∀ x, getAt b k d r = .ok x → x.Solid
  | [], _, _, _, _, hm => by simp at hm
  | (k', v) :: rest, b, k, r, h, hm => by
    simp only [SolidPairs] at h
    rw [getAt]
    split
    · exact getX_solid v b r h.1
    · rename_i hne
      refine getAt_solid rest b k r h.2 ?_
      rcases List.mem_cons.mp hm with rfl | hm
      · exact absurd rfl hne
      · exact hm
theorem getMap_solid : ∀ (xs : List Val) (r : AttrRep), SolidList xs →
    OnlyBad (getMap xs r) ∧ ∀ ys, getMap xs r = .ok ys → SolidList ys
  | [], _, _ => by rw [getMap]; exact ⟨.ok _, fun x hx => by cases hx; simp only [SolidList]⟩
  | v :: rest, r, h => by
    simp only [SolidList] at h
    obtain ⟨a1, a2⟩ := getX_solid v false r h.1
    obtain ⟨b1, b2⟩ := getMap_solid rest r h.2
    rw [getMap]
    split
    · rename_i e he
      exact ⟨.error (a1 _ he), fun x hx => by cases hx⟩
    · rename_i y hy
      split
      · rename_i e he
        exact ⟨.error (b1 _ he), fun x hx => by cases hx⟩
      · rename_i ys hys
        exact ⟨.ok _, fun x hx => by cases hx; simp only [SolidList]; exact ⟨a2 _ hy, b2 _ hys⟩⟩
end

theorem getItem_solid {v : Val} (h : v.Solid) (r : AttrRep) : OnlyBad (v.getItem r) ∧ ∀ x, v.getItem r = .ok x → x.Solid :=
  getX_solid v false r h

theorem getName_solid {v : Val} (h : v.Solid) (n : Str) : OnlyBad (v.getName n) ∧ ∀ x, v.getName n = .ok x → x.Solid := by
  unfold Val.getName
  split
  · split
    · exact getItem_solid h _
    · exact ⟨.error rfl, fun x hx => by cases hx⟩
  · exact ⟨.error rfl, fun x hx => by cases hx⟩

/-! ### Equality -/

/-- Only exceptions that stand for bad data, or the bound of the recursion. -/
def OnlyBadR {α : Type} (x : PyM α) : Prop := ∀ e, x = .error e → e.isBadData = true ∨ e = .recursion

theorem pyEqN_solid : ∀ (n : Nat) (a b : Val), a.Solid → b.Solid → OnlyBadR (Val.pyEqN n a b)
  | 0, _, _, _, _ => by intro e h; rw [Val.pyEqN] at h; cases h; exact .inr rfl
  | n + 1, a, b, ha, hb => by
    have ih := pyEqN_solid n
    have hc : ∀ (data : List (Str × Val)) (o : Val), SolidPairs data → o.Solid → OnlyBadR (contLoop (Val.pyEqN n) o data) := by
      intro data o hd ho
      induction data with
      | nil => intro e h; rw [contLoop] at h; cases h
      | cons p rest ih2 =>
        obtain ⟨k, v⟩ := p
        simp only [SolidPairs] at hd
        intro e h
        rw [contLoop] at h
        split at h
        · rename_i e' he
          cases h
          exact .inl ((getName_solid ho k).1 _ he)
        · rename_i x hx
          split at h
          · rename_i e' he
            cases h
            exact ih _ _ ((getName_solid ho k).2 _ hx) hd.1 _ he
          · cases h
          · exact ih2 hd.2 e h
    have hl : ∀ (xs ys : List Val), SolidList xs → SolidList ys → OnlyBadR (listLoop (Val.pyEqN n) xs ys) := by
      intro xs
      induction xs with
      | nil =>
        intro ys _ _ e h
        cases ys <;> (rw [listLoop] at h; cases h)
        all_goals simp
      | cons x xs ih2 =>
        intro ys hx hy e h
        cases ys with
        | nil =>
          rw [listLoop] at h
          · cases h
          · simp
          · simp
        | cons y ys =>
          simp only [SolidList] at hx hy
          rw [listLoop] at h
          split at h
          · rename_i e' he
            cases h
            exact ih _ _ hx.1 hy.1 _ he
          · cases h
          · exact ih2 ys hx.2 hy.2 e h
    intro e h
    unfold Val.pyEqN at h
    split at h
    all_goals first
      | (cases h; done)
      | (simp only [Val.Solid] at ha; done)
      | (simp only [Val.Solid] at hb; done)
      | skip
    · simp only [Val.Solid] at ha
      exact hc _ _ ha.2 hb e h
    · split at h
      · simp only [Val.Solid] at ha hb
        exact hl _ _ ha hb e h
      · cases h


theorem pyEq_solid {a b : Val} (ha : a.Solid) (hb : b.Solid) : OnlyBad (a.pyEq b) := by
  intro e h
  rcases pyEqN_solid _ a b ha hb e h with h' | rfl
  · exact h'
  · exact absurd h (C10_eq_terminates a b)

/-! ### Filters -/

/-- A solid value, or the empty dictionary that stands for nothing. -/
def Val.SolidTop (v : Val) : Prop := v.Solid ∨ v = .dict []

theorem SolidTop.pyEq_prim {x : Val} (h : x.SolidTop) (v : Prim) : OnlyBad (x.pyEq (.prim v)) := by
  rcases h with h | rfl
  · exact pyEq_solid h (by simp only [Val.Solid])
  · intro e h
    simp only [Val.pyEq, Val.pyEqN] at h
    cases h

theorem listHas_bad (v : Prim) : ∀ (xs : List Val), SolidList xs → OnlyBad (listHas v xs)
  | [], _ => .ok _
  | x :: xs, h => by
    simp only [SolidList] at h
    intro e he
    rw [listHas] at he
    split at he
    · rename_i e' hx
      cases he
      exact SolidTop.pyEq_prim (.inl h.1) v _ hx
    · cases he
    · exact listHas_bad v xs h.2 e he

omit [PyEnv] in
theorem pyLt_bad (a b : Prim) : OnlyBad (a.pyLt b) := by
  unfold Prim.pyLt
  repeat' split
  all_goals first
    | exact .ok _
    | exact .error rfl

omit [PyEnv] in
theorem pyLe_bad (a b : Prim) : OnlyBad (a.pyLe b) := by
  unfold Prim.pyLe
  repeat' split
  all_goals first
    | exact .ok _
    | exact .error rfl

omit [PyEnv] in
theorem dtLt_bad (a b : DateTime) : OnlyBad (a.pyLt b) := by
  unfold DateTime.pyLt
  repeat' split
  all_goals first
    | exact .ok _
    | exact .error rfl

omit [PyEnv] in
theorem dtLe_bad (a b : DateTime) : OnlyBad (a.pyLe b) := by
  unfold DateTime.pyLe
  repeat' split
  all_goals first
    | exact .ok _
    | exact .error rfl

omit [PyEnv] in
theorem pyOrd_bad {f : Prim → Prim → PyM Bool} (hf : ∀ a b, OnlyBad (f a b)) (x : Val) (v : Prim) : OnlyBad (pyOrd f x v) := by
  unfold pyOrd
  split
  · exact hf _ _
  · exact .error rfl

omit [PyEnv] in
theorem pyAffix_bad (f : Str → Str → Bool) (x : Val) (v : Prim) : OnlyBad (pyAffix f x v) := by
  unfold pyAffix
  split
  · exact .ok _
  · exact .error rfl
  · exact .error rfl

theorem apply_bad (o : CmpOp) {x : Val} (h : x.SolidTop) (v : Prim) : OnlyBad (o.apply x v) := by
  unfold CmpOp.apply
  split
  · exact SolidTop.pyEq_prim h v
  · intro e he
    split at he
    · rename_i e' hx
      cases he
      exact SolidTop.pyEq_prim h v _ hx
    · cases he
  · unfold pyContains
    split
    · exact .ok _
    · rcases h with h | h
      · simp only [Val.Solid] at h
        exact listHas_bad _ _ h
      · cases h
    · exact .ok _
    · exact .ok _
    · exact .error rfl
    · exact .error rfl
  · exact pyAffix_bad _ _ _
  · exact pyAffix_bad _ _ _
  · exact pyOrd_bad (fun _ _ => pyLt_bad _ _) _ _
  · exact pyOrd_bad (fun _ _ => pyLe_bad _ _) _ _
  · exact pyOrd_bad (fun _ _ => pyLt_bad _ _) _ _
  · exact pyOrd_bad (fun _ _ => pyLe_bad _ _) _ _

omit [PyEnv] in
theorem applyDt_bad (o : CmpOp) (a b : DateTime) : OnlyBad (o.applyDt a b) := by
  unfold CmpOp.applyDt
  split
  · exact .ok _
  · exact .ok _
  · exact dtLt_bad _ _
  · exact dtLe_bad _ _
  · exact dtLt_bad _ _
  · exact dtLe_bad _ _
  · exact .error rfl

theorem subscript_solid {v : Val} (h : v.Solid) (n : Str) : OnlyBad (v.subscript n) ∧ ∀ x, v.subscript n = .ok x → x.Solid := by
  unfold Val.subscript
  split
  · exact getName_solid h n
  · simp only [Val.Solid] at h
  · exact ⟨.error rfl, fun x hx => by cases hx⟩

theorem subscriptAll_solid (n : Str) : ∀ (xs : List Val), SolidList xs →
    OnlyBad (subscriptAll n xs) ∧ ∀ ys, subscriptAll n xs = .ok ys → SolidList ys
  | [], _ => ⟨.ok _, fun ys hy => by cases hy; simp only [SolidList]⟩
  | x :: xs, h => by
    simp only [SolidList] at h
    obtain ⟨a1, a2⟩ := subscript_solid h.1 n
    obtain ⟨b1, b2⟩ := subscriptAll_solid n xs h.2
    rw [subscriptAll]
    split
    · rename_i e he
      exact ⟨.error (a1 _ he), fun x hx => by cases hx⟩
    · rename_i y hy
      split
      · rename_i e he
        exact ⟨.error (b1 _ he), fun x hx => by cases hx⟩
      · rename_i ys hys
        exact ⟨.ok _, fun x hx => by cases hx; simp only [SolidList]; exact ⟨a2 _ hy, b2 _ hys⟩⟩

theorem iterate_solid {v : Val} (h : v.SolidTop) : OnlyBad v.iterate ∧ ∀ xs, v.iterate = .ok xs → SolidList xs := by
  unfold Val.iterate
  split
  · rcases h with h | h
    · simp only [Val.Solid] at h
      exact ⟨.ok _, fun x hx => by cases hx; exact h⟩
    · cases h
  · refine ⟨.ok _, fun x hx => ?_⟩
    cases hx
    rw [solidList_iff]
    intro x hx
    obtain ⟨c, _, rfl⟩ := List.mem_map.mp hx
    simp only [Val.Solid]
  · rcases h with h | h
    · simp only [Val.Solid] at h
    · cases h
      exact ⟨.ok _, fun x hx => by cases hx; simp only [List.map_nil, SolidList]⟩
  · exact ⟨.error rfl, fun x hx => by cases hx⟩
  · exact ⟨.error rfl, fun x hx => by cases hx⟩

theorem asList_solid {v : Val} (h : v.SolidTop) : ∀ x ∈ v.asList, x.SolidTop := by
  unfold Val.asList
  split
  · rcases h with h | h
    · simp only [Val.Solid] at h
      exact fun x hx => .inl (solidList_iff.mp h x hx)
    · cases h
  · intro x hx
    rw [List.mem_singleton] at hx
    subst hx; exact h

theorem comparePairs_solid (i : AttrInfo) {v : Val} (h : v.SolidTop) (p : Prim) : OnlyBad (comparePairs i v p) ∧
    ∀ xs w, comparePairs i v p = .ok (some (.vals xs w)) → ∀ x ∈ xs, x.SolidTop := by
  unfold comparePairs
  repeat' split
  all_goals first
    | (refine ⟨.error rfl, ?_⟩; intro xs w hx; cases hx; done)
    | (refine ⟨.ok _, ?_⟩; intro xs w hx; cases hx; done)
    | skip
  · refine ⟨.ok _, ?_⟩
    intro xs w hx
    cases hx
    intro x hx
    obtain ⟨y, _, hy⟩ := List.mem_filterMap.mp hx
    split at hy
    · cases hy; exact .inl (by simp only [Val.Solid])
    · cases hy
  · refine ⟨.ok _, ?_⟩
    intro xs w hx
    cases hx
    exact asList_solid h
  · refine ⟨.ok _, ?_⟩
    intro xs w hx
    cases hx
    exact asList_solid h

theorem comparisonValues_solid (o : CmpOp) (a : Attr) {v : Val} (h : v.SolidTop) (p : Prim) : OnlyBad (comparisonValues o a v p) ∧
    ∀ xs w, comparisonValues o a v p = .ok (some (.vals xs w)) → ∀ x ∈ xs, x.SolidTop := by
  unfold comparisonValues
  split
  · exact ⟨.error rfl, fun xs w hx => by cases hx⟩
  split
  · exact ⟨.ok _, fun xs w hx => by cases hx⟩
  split
  · exact comparePairs_solid _ h p
  split
  · exact ⟨.ok _, fun xs w hx => by cases hx⟩
  split
  · exact ⟨.ok _, fun xs w hx => by cases hx⟩
  obtain ⟨h1, h2⟩ := iterate_solid h
  split
  · rename_i e he
    exact ⟨.error (h1 _ he), fun xs w hx => by cases hx⟩
  · rename_i items hi
    obtain ⟨h3, h4⟩ := subscriptAll_solid valueWord items (h2 _ hi)
    split
    · rename_i e he
      exact ⟨.error (h3 _ he), fun xs w hx => by cases hx⟩
    · rename_i xs hx
      exact comparePairs_solid _ (.inl (by simp only [Val.Solid]; exact h4 _ hx)) p

theorem anyApply_bad (o : CmpOp) (v : Prim) : ∀ (xs : List Val), (∀ x ∈ xs, x.SolidTop) → OnlyBad (anyApply o v xs)
  | [], _ => .ok _
  | x :: xs, h => by
    intro e he
    rw [anyApply] at he
    split at he
    · rename_i e' hx
      cases he
      exact apply_bad o (h x (by simp)) v _ hx
    · cases he
    · exact anyApply_bad o v xs (fun y hy => h y (List.mem_cons_of_mem _ hy)) e he

theorem matchCmp_bad (o : CmpOp) (r : AttrRep) (p : Prim) {v : Val} (h : v.SolidTop) (attrs : List Attr) (strict : Bool) :
    OnlyBad (matchCmp o r p v attrs strict) := by
  unfold matchCmp
  split
  · exact .ok _
  · split
    · exact .ok _
    · split
      · exact .ok _
      · rename_i a _ _ _
        obtain ⟨h1, h2⟩ := comparisonValues_solid o a h p
        split
        · rename_i e he
          exact .error (h1 _ he)
        · exact .ok _
        · rename_i xs w hx
          exact anyApply_bad o w xs (h2 _ _ hx)
        · rename_i x y hx
          intro e he
          split at he
          · rename_i e' hd
            cases he
            exact applyDt_bad o x y _ hd
          · cases he

omit [PyEnv] in
theorem getAllValues_bad : ∀ (xs : List Val), OnlyBad (getAllValues xs)
  | [] => .ok _
  | x :: xs => by
    intro e he
    unfold getAllValues at he
    split at he
    · cases he
    · rename_i h
      cases h
      split at he
      · rename_i e' hx
        cases he
        exact getAllValues_bad xs _ hx
      · cases he
    · cases he; rfl

theorem matchPr_bad (r : AttrRep) (v : Val) (attrs : List Attr) : OnlyBad (matchPr r v attrs) := by
  unfold matchPr
  split
  · exact .ok _
  · intro e he
    dsimp only at he
    split at he
    · rename_i e' hx
      cases he
      repeat' split at hx
      all_goals first
        | (cases hx; done)
        | skip
      rename_i hg
      cases hx
      exact getAllValues_bad _ _ hg
    · cases he

theorem orDict_solid {v : Val} (h : v.SolidTop) : v.orDict.SolidTop := by
  unfold Val.orDict
  split
  · exact h
  · exact .inr rfl

theorem onOperand_bad (o : Op) {f : Val → PyM MatchStatus} (hf : ∀ x : Val, x.SolidTop → OnlyBad (f x)) {v : Val} (h : v.SolidTop) :
    OnlyBad (onOperand o f v) := by
  unfold onOperand
  split
  · exact hf v h
  · rename_i r _
    have key : OnlyBad (v.getItem r) ∧ ∀ x, v.getItem r = .ok x → x.Solid := by
      rcases h with h | rfl
      · exact getItem_solid h r
      · refine ⟨?_, ?_⟩ <;> simp only [Val.getItem, Val.getX]
        · exact .error rfl
        · intro x hx; cases hx
    intro e he
    split at he
    · rename_i e' hx
      cases he
      exact key.1 _ hx
    · rename_i x hx
      exact hf x (.inl (key.2 _ hx)) e he

theorem cplxAttrLoop_bad (r : AttrRep) {f : Val → PyM MatchStatus} (hf : ∀ x : Val, x.SolidTop → OnlyBad (f x)) :
    ∀ (xs : List Val) (b : Bool), SolidList xs → OnlyBad (cplxAttrLoop r f xs b)
  | [], _, _ => .ok _
  | x :: xs, b, h => by
    simp only [SolidList] at h
    obtain ⟨h1, h2⟩ := getItem_solid h.1 r
    intro e he
    rw [cplxAttrLoop] at he
    split at he
    · rename_i e' hx
      cases he
      exact h1 _ hx
    · rename_i y hy
      dsimp only at he
      split at he
      · rename_i e' hx
        cases he
        exact hf y (.inl (h2 _ hy)) _ hx
      · cases he
      · exact cplxAttrLoop_bad r hf xs _ h.2 e he

theorem cplxLoop_bad {f : Val → PyM MatchStatus} (hf : ∀ x : Val, x.SolidTop → OnlyBad (f x)) :
    ∀ (xs : List Val) (b : Bool), SolidList xs → OnlyBad (cplxLoop f xs b)
  | [], _, _ => .ok _
  | x :: xs, b, h => by
    simp only [SolidList] at h
    intro e he
    rw [cplxLoop] at he
    split at he
    · rename_i e' hx
      cases he
      exact hf x (.inl h.1) _ hx
    · cases he
    · exact cplxLoop_bad hf xs _ h.2 e he
    · exact cplxLoop_bad hf xs _ h.2 e he

mutual
theorem match_bad : ∀ (o : Op) (v : Val) (attrs : List Attr) (strict : Bool), v.SolidTop → OnlyBad (o.match v attrs strict)
  | .pr r, v, attrs, strict, h => by rw [Op.match]; exact matchPr_bad r v attrs
  | .cmp o r p, v, attrs, strict, h => by rw [Op.match]; exact matchCmp_bad o r p h attrs strict
  | .not sub, v, attrs, strict, h => by
    rw [Op.match]
    have := onOperand_bad sub (f := fun x => Op.match sub x attrs true) (fun x hx => match_bad sub x attrs true hx) (orDict_solid h)
    intro e he
    split at he
    · rename_i e' hx
      cases he
      exact this _ hx
    · cases he
  | .and subs, v, attrs, strict, h => by rw [Op.match]; exact andLoop_bad subs _ attrs strict false (orDict_solid h)
  | .or subs, v, attrs, strict, h => by rw [Op.match]; exact orLoop_bad subs _ attrs strict false (orDict_solid h)
  | .cplx r sub, v, attrs, strict, h => by
    rw [Op.match]
    split
    · exact .ok _
    · exact .ok _
    · rename_i i subAttrs _ _ _
      split
      · exact .ok _
      · rename_i hl
        dsimp only
        generalize hv : (if v.truthy = true then v else if i.multi = true then Val.list [] else Val.emptyCont) = v'
        have hs : SolidList v'.asList := by
          have hempty : (Val.emptyCont).Solid := by
            simp only [Val.Solid, SolidPairs, and_true]
            exact CInv.ofDict [] (by simp)
          have : v'.Solid := by
            subst hv
            split
            · rename_i ht
              rcases h with h | rfl
              · exact h
              · simp [Val.truthy] at ht
            · split
              · simp only [Val.Solid, SolidList]
              · exact hempty
          unfold Val.asList
          split
          · simpa only [Val.Solid] using this
          · simp only [SolidList, and_true]; exact this
        have h1 := cplxAttrLoop_bad (sub.rep?.getD {}) (f := fun x => Op.match sub x subAttrs strict)
          (fun x hx => match_bad sub x subAttrs strict hx) v'.asList false hs
        have h2 := cplxLoop_bad (f := fun x => Op.match sub x subAttrs strict)
          (fun x hx => match_bad sub x subAttrs strict hx) v'.asList false hs
        intro e he
        split at he
        · rename_i e' hx
          cases he
          split at hx
          · split at hx
            · rename_i e'' hx'
              cases hx
              exact h1 _ hx'
            · cases hx
          · exact h2 _ hx
        · cases he
theorem andLoop_bad : ∀ (os : List Op) (v : Val) (attrs : List Attr) (strict b : Bool), v.SolidTop →
    OnlyBad (andLoop os v attrs strict b)
  | [], _, _, _, _, _ => by rw [andLoop]; exact .ok _
  | o :: os, v, attrs, strict, b, h => by
    have h1 := onOperand_bad o (f := fun x => Op.match o x attrs strict) (fun x hx => match_bad o x attrs strict hx) h
    intro e he
    rw [andLoop] at he
    split at he
    · rename_i e' hx
      cases he
      exact h1 _ hx
    · cases he
    · exact andLoop_bad os v attrs strict true h e he
    · exact andLoop_bad os v attrs strict b h e he
theorem orLoop_bad : ∀ (os : List Op) (v : Val) (attrs : List Attr) (strict b : Bool), v.SolidTop →
    OnlyBad (orLoop os v attrs strict b)
  | [], _, _, _, _, _ => by rw [orLoop]; exact .ok _
  | o :: os, v, attrs, strict, b, h => by
    have h1 := onOperand_bad o (f := fun x => Op.match o x attrs strict) (fun x hx => match_bad o x attrs strict hx) h
    intro e he
    rw [orLoop] at he
    split at he
    · rename_i e' hx
      cases he
      exact h1 _ hx
    · cases he
    · exact orLoop_bad os v attrs strict true h e he
    · exact orLoop_bad os v attrs strict b h e he
end

/-- A filter raises only on bad data. -/
theorem filter_bad (o : Op) {v : Val} (h : v.Solid) (attrs : List Attr) (strict : Bool) : OnlyBad (Filter.call o v attrs strict) :=
  onOperand_bad o (fun x hx => match_bad o x attrs strict hx) (.inl h)

theorem filteredLoop_bad (o : Op) (table : List Schema) (strict : Bool) : ∀ (k : Nat) (rs : List Val) (ts : List (Option Nat))
    (is : Issues), SolidList rs → OnlyBad (filteredLoop o table strict k rs ts is)
  | _, [], _, _, _ => by simp only [filteredLoop]; exact .ok _
  | _, _ :: _, [], _, _ => by simp only [filteredLoop]; exact .ok _
  | k, r :: rs, t :: ts, is, h => by
    simp only [SolidList] at h
    intro e he
    rw [filteredLoop] at he
    split at he
    · rename_i e' hx
      cases he
      unfold attrsOf at hx
      repeat' split at hx
      all_goals cases hx
      all_goals rfl
    · rename_i attrs _
      split at he
      · rename_i e' hx
        cases he
        exact filter_bad o h.1 _ strict _ hx
      · rename_i st _
        split at he
        · rename_i e' hx
          cases he
          cases st <;> simp [MatchStatus.toBool] at hx
          subst hx; rfl
        · exact filteredLoop_bad o table strict _ rs ts _ h.2 e he

omit [PyEnv] in
theorem skipIfBad_total {x : PyM Issues} (h : OnlyBad x) : ∃ is, skipIfBad x = .ok is := by
  cases x with
  | ok i => exact ⟨i, rfl⟩
  | error e => exact ⟨{}, by simp only [skipIfBad, h e rfl, if_true]⟩

/-- Checking resources against a filter never raises. -/
theorem filtered_total (o : Op) (table : List Schema) (ids : List (Option Nat)) (strict : Bool) {rs : List Val} (h : SolidList rs) :
    ∃ is, validateFiltered rs o table ids strict = .ok is :=
  skipIfBad_total (filteredLoop_bad o table strict 0 rs ids {} h)

/-! ### Sorters -/

mutual
theorem valLt_bad : ∀ (a b : Val), a.Solid → b.Solid → OnlyBad (a.pyLt b)
  | .prim p, b, _, _ => by
    cases b <;> simp only [Val.pyLt] <;> first | exact pyLt_bad _ _ | exact .error rfl
  | .dt p, b, _, _ => by
    cases b <;> simp only [Val.pyLt] <;> first | exact dtLt_bad _ _ | exact .error rfl
  | .list xs, b, ha, hb => by
    cases b with
    | list ys =>
      simp only [Val.Solid] at ha hb
      simp only [Val.pyLt]
      exact listLt_bad xs ys ha hb
    | _ => simp only [Val.pyLt]; exact .error rfl
  | .missing, _, _, _ => by simp only [Val.pyLt]; exact .error rfl
  | .invalid, _, _, _ => by simp only [Val.pyLt]; exact .error rfl
  | .cont _ _, _, _, _ => by simp only [Val.pyLt]; exact .error rfl
  | .dict _, _, _, _ => by simp only [Val.pyLt]; exact .error rfl
  | .obj _, _, _, _ => by simp only [Val.pyLt]; exact .error rfl
theorem listLt_bad : ∀ (xs ys : List Val), SolidList xs → SolidList ys → OnlyBad (listLt xs ys)
  | [], [], _, _ => by simp only [listLt]; exact .ok _
  | [], _ :: _, _, _ => by simp only [listLt]; exact .ok _
  | _ :: _, [], _, _ => by simp only [listLt]; exact .ok _
  | x :: xs, y :: ys, hx, hy => by
    simp only [SolidList] at hx hy
    have h1 := valLt_bad x y hx.1 hy.1
    have h2 := listLt_bad xs ys hx.2 hy.2
    simp only [listLt]
    intro e he
    split at he
    · rename_i e' hq
      cases he
      exact pyEq_solid hx.1 hy.1 _ hq
    · exact h2 e he
    · exact h1 e he
end

/-- The keys made from solid values. -/
def SortKey.Solid : SortKey → Prop
  | .val v => v.Solid
  | _ => True

theorem keyLt_bad (a b : SortKey) (ha : a.Solid) (hb : b.Solid) : OnlyBad (a.lt b) := by
  unfold SortKey.lt
  split
  · exact .ok _
  · exact .ok _
  · exact .ok _
  · exact valLt_bad _ _ ha hb
  · exact .error rfl

theorem sortKeyOf_solid {v : Val} (h : v.Solid) (a : Option AttrInfo) : (sortKeyOf v a).Solid := by
  unfold sortKeyOf
  repeat' split
  all_goals first
    | trivial
    | exact h

theorem primaryKey_solid (subs : List Attr) (i : AttrInfo) : ∀ (xs : List Val), SolidList xs →
    OnlyBad (primaryKey subs i xs) ∧ ∀ x a, primaryKey subs i xs = .ok (x, a) → x.Solid
  | [], _ => ⟨.ok _, fun x a hx => by cases hx; simp only [Val.Solid]⟩
  | v :: vs, h => by
    simp only [SolidList] at h
    obtain ⟨a1, a2⟩ := subscript_solid h.1 primaryWord
    obtain ⟨b1, b2⟩ := subscript_solid h.1 valueWord
    rw [primaryKey]
    split
    · rename_i e he
      exact ⟨.error (a1 _ he), fun x a hx => by cases hx⟩
    · split
      · split
        · rename_i e he
          exact ⟨.error (b1 _ he), fun x a hx => by cases hx⟩
        · rename_i x hx
          exact ⟨.ok _, fun y a hy => by cases hy; exact b2 _ hx⟩
      · exact primaryKey_solid subs i vs h.2

theorem first_solid {v : Val} (h : v.Solid) : OnlyBad v.first ∧ ∀ x, v.first = .ok x → x.Solid := by
  unfold Val.first
  split
  · exact ⟨.error rfl, fun x hx => by cases hx⟩
  · simp only [Val.Solid, SolidList] at h
    exact ⟨.ok _, fun x hx => by cases hx; exact h.1⟩
  · exact ⟨.error rfl, fun x hx => by cases hx⟩
  · exact ⟨.ok _, fun x hx => by cases hx; simp only [Val.Solid]⟩
  · exact ⟨.error rfl, fun x hx => by cases hx⟩
  · simp only [Val.Solid] at h
  · exact ⟨.error rfl, fun x hx => by cases hx⟩

theorem sortValue_solid (a : Attr) {v : Val} (h : v.Solid) :
    OnlyBad (sortValue a v) ∧ ∀ x i, sortValue a v = .ok (x, i) → x.Solid := by
  unfold sortValue
  split
  · split
    · obtain ⟨h1, h2⟩ := iterate_solid (.inl h)
      split
      · rename_i e he
        exact ⟨.error (h1 _ he), fun x a hx => by cases hx⟩
      · rename_i items hi
        exact primaryKey_solid _ _ _ (h2 _ hi)
    · obtain ⟨h1, h2⟩ := first_solid h
      split
      · rename_i e he
        exact ⟨.error (h1 _ he), fun x a hx => by cases hx⟩
      · rename_i x hx
        exact ⟨.ok _, fun y a hy => by cases hy; exact h2 _ hx⟩
  · exact ⟨.ok _, fun y a hy => by cases hy; exact h⟩

theorem sortKey_solid (rep : AttrRep) (s : Schema) {v : Val} (h : v.Solid) :
    OnlyBad (sortKey rep s v) ∧ ∀ k, sortKey rep s v = .ok k → k.Solid := by
  unfold sortKey
  split
  · exact ⟨.ok _, fun k hk => by cases hk; trivial⟩
  · rename_i attr _
    obtain ⟨h1, h2⟩ := getItem_solid h rep
    split
    · rename_i e he
      exact ⟨.error (h1 _ he), fun x hx => by cases hx⟩
    · rename_i x hx
      obtain ⟨h3, h4⟩ := sortValue_solid attr (h2 _ hx)
      split
      · rename_i e he
        exact ⟨.error (h3 _ he), fun x hx => by cases hx⟩
      · rename_i y a hy
        exact ⟨.ok _, fun k hk => by cases hk; exact sortKeyOf_solid (h4 _ _ hy) _⟩

theorem insertKey_bad (p : SortKey × Nat) (hp : p.1.Solid) : ∀ (l : List (SortKey × Nat)), (∀ e ∈ l, e.1.Solid) →
    OnlyBad (insertKey p l) ∧ ∀ r, insertKey p l = .ok r → ∀ e ∈ r, e.1.Solid
  | [], _ => ⟨.ok _, fun r hr => by cases hr; intro e he; rw [List.mem_singleton] at he; subst he; exact hp⟩
  | e :: r, h => by
    have h0 := keyLt_bad p.1 e.1 hp (h e (by simp))
    obtain ⟨h1, h2⟩ := insertKey_bad p hp r (fun x hx => h x (List.mem_cons_of_mem _ hx))
    rw [insertKey]
    split
    · rename_i x hx
      exact ⟨.error (h0 _ hx), fun x hx => by cases hx⟩
    · refine ⟨.ok _, fun r' hr => ?_⟩
      cases hr
      intro x hx
      rcases List.mem_cons.mp hx with rfl | hx
      · exact hp
      · exact h x hx
    · split
      · rename_i x hx
        exact ⟨.error (h1 _ hx), fun x hx => by cases hx⟩
      · rename_i r' hr
        refine ⟨.ok _, fun r'' hr' => ?_⟩
        cases hr'
        intro x hx
        rcases List.mem_cons.mp hx with rfl | hx
        · exact h _ (by simp)
        · exact h2 _ hr x hx

theorem sortKeys_bad : ∀ (ps acc : List (SortKey × Nat)), (∀ e ∈ acc, e.1.Solid) → (∀ e ∈ ps, e.1.Solid) → OnlyBad (sortKeys acc ps)
  | [], _, _, _ => by rw [sortKeys]; exact .ok _
  | p :: ps, acc, h1, h2 => by
    obtain ⟨a1, a2⟩ := insertKey_bad p (h2 p (by simp)) acc h1
    rw [sortKeys]
    split
    · rename_i e he
      exact .error (a1 _ he)
    · rename_i acc' ha
      exact sortKeys_bad ps acc' (a2 _ ha) (fun e he => h2 e (List.mem_cons_of_mem _ he))

theorem sortedPairs_bad (b : Bool) (ps : List (SortKey × Nat)) (h : ∀ e ∈ ps, e.1.Solid) : OnlyBad (sortedPairs b ps) := by
  unfold sortedPairs
  split
  · have := sortKeys_bad ps.reverse [] (by simp) (fun e he => h e (List.mem_reverse.mp he))
    split
    · rename_i e he
      exact .error (this _ he)
    · exact .ok _
  · exact sortKeys_bad ps [] (by simp) h

theorem keysFrom_bad {key : Nat → Val → PyM SortKey} : ∀ (k : Nat) (xs : List Val),
    (∀ i, ∀ x ∈ xs, OnlyBad (key i x) ∧ ∀ y, key i x = .ok y → y.Solid) →
    OnlyBad (keysFrom key k xs) ∧ ∀ r, keysFrom key k xs = .ok r → ∀ e ∈ r, e.1.Solid
  | _, [], _ => ⟨.ok _, fun r hr => by cases hr; simp⟩
  | k, x :: xs, h => by
    obtain ⟨a1, a2⟩ := h k x (by simp)
    obtain ⟨b1, b2⟩ := keysFrom_bad (k + 1) xs (fun i y hy => h i y (List.mem_cons_of_mem _ hy))
    rw [keysFrom]
    split
    · rename_i e he
      exact ⟨.error (a1 _ he), fun x hx => by cases hx⟩
    · rename_i y hy
      split
      · rename_i e he
        exact ⟨.error (b1 _ he), fun x hx => by cases hx⟩
      · rename_i ys hys
        refine ⟨.ok _, fun r hr => ?_⟩
        cases hr
        intro e he
        rcases List.mem_cons.mp he with rfl | he
        · exact a2 _ hy
        · exact b2 _ hys e he

theorem indexOf_bad (i : Nat) {item : Val} (hi : item.Solid) : ∀ (j : Nat) (xs : List Val), SolidList xs → OnlyBad (indexOf i item j xs)
  | _, [], _ => .ok _
  | j, x :: xs, h => by
    simp only [SolidList] at h
    rw [indexOf]
    split
    · exact .ok _
    · split
      · rename_i e he
        exact .error (pyEq_solid h.1 hi _ he)
      · exact .ok _
      · exact indexOf_bad i hi _ xs h.2

theorem schemasKey_solid (rep : AttrRep) {data : List Val} (hd : SolidList data) (schemas : SortSchemas) (i : Nat) {item : Val}
    (hi : item.Solid) : OnlyBad (schemas.key rep data i item) ∧ ∀ k, schemas.key rep data i item = .ok k → k.Solid := by
  unfold SortSchemas.key
  split
  · exact sortKey_solid rep _ hi
  · split
    · exact sortKey_solid rep _ hi
    · have := indexOf_bad i hi 0 data hd
      split
      · rename_i e he
        exact ⟨.error (this _ he), fun x hx => by cases hx⟩
      · split
        · exact ⟨.error rfl, fun x hx => by cases hx⟩
        · repeat' split
          all_goals first
            | exact ⟨.error rfl, fun x hx => by cases hx⟩
            | exact sortKey_solid rep _ hi

theorem anyValue_bad (rep : AttrRep) : ∀ (xs : List Val), SolidList xs → OnlyBad (anyValue rep xs)
  | [], _ => .ok _
  | x :: xs, h => by
    simp only [SolidList] at h
    rw [anyValue]
    split
    · rename_i e he
      exact .error ((getItem_solid h.1 rep).1 _ he)
    · split
      · exact .ok _
      · exact anyValue_bad rep xs h.2

theorem order_bad (s : SorterCfg) {data : List Val} (h : SolidList data) (schemas : SortSchemas) : OnlyBad (s.order data schemas) := by
  unfold SorterCfg.order
  split
  · rename_i e he
    exact .error (anyValue_bad _ _ h _ he)
  · exact .ok _
  · obtain ⟨h1, h2⟩ := keysFrom_bad (key := schemas.key s.rep data) 0 data
      (fun i x hx => schemasKey_solid s.rep h schemas i (solidList_iff.mp h x hx))
    split
    · rename_i e he
      exact .error (h1 _ he)
    · rename_i ks hk
      have := sortedPairs_bad (!s.asc) ks (h2 _ hk)
      split
      · rename_i e he
        exact .error (this _ he)
      · exact .ok _

theorem sameOrder_bad {data : List Val} (h : SolidList data) : ∀ (i : Nat) (js : List Nat), OnlyBad (sameOrder data i js)
  | _, [] => .ok _
  | i, j :: js => by
    have hg : ∀ k, (data.getD k .missing).Solid := by
      intro k
      rw [List.getD_eq_getElem?_getD]
      cases hk : data[k]? with
      | none => simp only [Option.getD_none, Val.Solid]
      | some x => exact solidList_iff.mp h x (List.mem_of_getElem? hk)
    rw [sameOrder]
    split
    · exact sameOrder_bad h _ js
    · split
      · rename_i e he
        exact .error (pyEq_solid (hg i) (hg j) _ he)
      · exact sameOrder_bad h _ js
      · exact .ok _

/-- Checking the order of resources never raises. -/
theorem sorted_total (s : SorterCfg) {data : List Val} (h : SolidList data) (schemas : SortSchemas) :
    ∃ is, validateSorted s data schemas = .ok is := by
  apply skipIfBad_total
  split
  · rename_i e he
    exact .error (order_bad s h schemas _ he)
  · rename_i is _
    have := sameOrder_bad h 0 is
    split
    · rename_i e he
      exact .error (this _ he)
    · exact .ok _
    · exact .ok _

end Scim
