import Verif.Spec.Operator
import Verif.Lemmas.Str

/-! Lemmas about matching. -/

namespace Scim
variable [PyEnv]

theorem onOperand_ne {P : PyM MatchStatus → Prop} (o : Op) (f : Val → PyM MatchStatus) (v : Val)
    (he : ∀ e, P (.error e)) (hf : ∀ x, P (f x)) : P (onOperand o f v) := by
  unfold onOperand
  split
  · exact hf v
  · split
    · exact he _
    · exact hf _

theorem matchCmp_nonstrict (o : CmpOp) (r : AttrRep) (v : Prim) (value : Val) (attrs : List Attr) :
    matchCmp o r v value attrs false ≠ .ok .missing := by
  have hany : ∀ (w : Prim) (xs : List Val), anyApply o w xs ≠ .ok .missing := by
    intro w xs
    induction xs with
    | nil => simp [anyApply]
    | cons x xs ih => rw [anyApply]; split <;> simp [ih]
  unfold matchCmp
  repeat' split
  all_goals first | exact hany _ _ | (simp; done) | (simp_all; done)

theorem matchPr_ne_missing (r : AttrRep) (value : Val) (attrs : List Attr) :
    matchPr r value attrs ≠ .ok .missing := by
  unfold matchPr
  split
  · simp
  · dsimp only
    split
    · simp
    · rename_i b _
      cases b <;> simp

/-- The loop of `And.match` on the results of the operands. -/
def andFold : List (PyM MatchStatus) → Bool → PyM MatchStatus
  | [], missing => .ok (if missing then .missing else .passed)
  | r :: rs, missing =>
    match r with
    | .error e => .error e
    | .ok .failed => .ok .failed
    | .ok .missing => andFold rs true
    | .ok _ => andFold rs missing

/-- The loop of `Or.match` on the results of the operands. -/
def orFold : List (PyM MatchStatus) → Bool → PyM MatchStatus
  | [], missing => .ok (if missing then .missing else .failed)
  | r :: rs, missing =>
    match r with
    | .error e => .error e
    | .ok .passed => .ok .passed
    | .ok .missing => orFold rs true
    | .ok _ => orFold rs missing

theorem andFold_cons (r : PyM MatchStatus) (rs : List (PyM MatchStatus)) (m : Bool) :
    andFold (r :: rs) m = match r with
      | .error e => .error e
      | .ok .failed => .ok .failed
      | .ok .missing => andFold rs true
      | .ok _ => andFold rs m := by
  cases r with
  | error e => rfl
  | ok s => cases s <;> rfl

theorem orFold_cons (r : PyM MatchStatus) (rs : List (PyM MatchStatus)) (m : Bool) :
    orFold (r :: rs) m = match r with
      | .error e => .error e
      | .ok .passed => .ok .passed
      | .ok .missing => orFold rs true
      | .ok _ => orFold rs m := by
  cases r with
  | error e => rfl
  | ok s => cases s <;> rfl

theorem andLoop_eq (os : List Op) (v : Val) (attrs : List Attr) (strict m : Bool) :
    andLoop os v attrs strict m = andFold (os.map (fun o => o.matchOn v attrs strict)) m := by
  induction os generalizing m with
  | nil => rfl
  | cons o os ih =>
    simp only [andLoop, List.map_cons, andFold_cons, ← ih]
    rfl

theorem orLoop_eq (os : List Op) (v : Val) (attrs : List Attr) (strict m : Bool) :
    orLoop os v attrs strict m = orFold (os.map (fun o => o.matchOn v attrs strict)) m := by
  induction os generalizing m with
  | nil => rfl
  | cons o os ih =>
    simp only [orLoop, List.map_cons, orFold_cons, ← ih]
    rfl

theorem and_match (os : List Op) (v : Val) (attrs : List Attr) (strict : Bool) :
    (Op.and os).match v attrs strict = andFold (os.map (fun o => o.matchOn v.orDict attrs strict)) false := by
  rw [Op.match, andLoop_eq]

theorem or_match (os : List Op) (v : Val) (attrs : List Attr) (strict : Bool) :
    (Op.or os).match v attrs strict = orFold (os.map (fun o => o.matchOn v.orDict attrs strict)) false := by
  rw [Op.match, orLoop_eq]

theorem andFold_ne_missing (rs : List (PyM MatchStatus)) (h : ∀ r ∈ rs, r ≠ .ok .missing) :
    andFold rs false ≠ .ok .missing := by
  induction rs with
  | nil => simp [andFold]
  | cons r rs ih =>
    rw [andFold_cons]
    split
    · simp
    · simp
    · exact absurd rfl (h (.ok .missing) (by simp))
    · exact ih (fun r hr => h r (by simp [hr]))

theorem orFold_ne_missing (rs : List (PyM MatchStatus)) (h : ∀ r ∈ rs, r ≠ .ok .missing) :
    orFold rs false ≠ .ok .missing := by
  induction rs with
  | nil => simp [orFold]
  | cons r rs ih =>
    rw [orFold_cons]
    split
    · simp
    · simp
    · exact absurd rfl (h (.ok .missing) (by simp))
    · exact ih (fun r hr => h r (by simp [hr]))

mutual
theorem match_nonstrict : ∀ (o : Op) (v : Val) (attrs : List Attr), o.match v attrs false ≠ .ok .missing
  | .pr r, v, attrs => by rw [Op.match]; exact matchPr_ne_missing r v attrs
  | .cmp o r w, v, attrs => by rw [Op.match]; exact matchCmp_nonstrict o r w v attrs
  | .not sub, v, attrs => by
    rw [Op.match]
    split
    · simp
    · rename_i st _; cases st <;> simp [notStatus]
  | .and subs, v, attrs => by
    rw [and_match]
    apply andFold_ne_missing
    intro r hr
    obtain ⟨o, ho, rfl⟩ := List.mem_map.mp hr
    exact onOperand_ne (P := fun x => x ≠ .ok .missing) o _ _ (by simp) (fun x => match_nonstrict_all subs o ho x attrs)
  | .or subs, v, attrs => by
    rw [or_match]
    apply orFold_ne_missing
    intro r hr
    obtain ⟨o, ho, rfl⟩ := List.mem_map.mp hr
    exact onOperand_ne (P := fun x => x ≠ .ok .missing) o _ _ (by simp) (fun x => match_nonstrict_all subs o ho x attrs)
  | .cplx r sub, v, attrs => by
    rw [Op.match]
    split
    · simp
    · simp
    · split
      · simp
      · dsimp only
        split
        · simp
        · rename_i p _
          obtain ⟨a, b⟩ := p
          cases a <;> cases b <;> simp [cplxStatus]
theorem match_nonstrict_all : ∀ (os : List Op), ∀ o ∈ os, ∀ (v : Val) (attrs : List Attr),
    o.match v attrs false ≠ .ok .missing
  | [], o, h, _, _ => by simp at h
  | p :: os, o, h, v, attrs => by
    rcases List.mem_cons.mp h with h | h
    · rw [h]; exact match_nonstrict p v attrs
    · exact match_nonstrict_all os o h v attrs
end

/-! ## Strict and non-strict -/

/-- What a non-strict status may be, given the strict one. -/
def Mono (s n : MatchStatus) : Prop := (s = .passed → n = .passed) ∧ (s = .noAttr → n = .noAttr)

theorem onOperand_mono (o : Op) (f g : Val → PyM MatchStatus) (v : Val)
    (h : ∀ x s n, f x = .ok s → g x = .ok n → Mono s n) (s n : MatchStatus)
    (h1 : onOperand o f v = .ok s) (h2 : onOperand o g v = .ok n) : Mono s n := by
  unfold onOperand at h1 h2
  split at h1
  · rename_i hr; rw [hr] at h2; exact h _ _ _ h1 h2
  · rename_i r hr
    rw [hr] at h2
    dsimp only at h2
    split at h1
    · simp at h1
    · rename_i x hx; rw [hx] at h2; exact h _ _ _ h1 h2

theorem matchCmp_mono (o : CmpOp) (r : AttrRep) (w : Prim) (v : Val) (attrs : List Attr) (s n : MatchStatus)
    (h1 : matchCmp o r w v attrs true = .ok s) (h2 : matchCmp o r w v attrs false = .ok n) : Mono s n := by
  unfold matchCmp at h1 h2
  split at h1
  · rename_i hf
    rw [hf] at h2
    cases h1; cases h2; simp [Mono]
  · rename_i a hf
    rw [hf] at h2
    dsimp only at h2
    split at h1
    · rename_i hn
      rw [if_pos hn] at h2
      cases h1; cases h2; simp [Mono]
    · rename_i hn
      rw [if_neg hn] at h2
      rw [h1] at h2
      cases h2; simp [Mono]

theorem cplxAttrLoop_mono (r : AttrRep) (f g : Val → PyM MatchStatus)
    (h : ∀ x s n, f x = .ok s → g x = .ok n → Mono s n) (items : List Val) (b1 b2 : Bool) (p1 p2 : Bool × Bool)
    (h1 : cplxAttrLoop r f items b1 = .ok p1) (h2 : cplxAttrLoop r g items b2 = .ok p2) (hp : p1.1 = true) :
    p2.1 = true := by
  induction items generalizing b1 b2 with
  | nil => rw [cplxAttrLoop] at h1; cases h1; cases hp
  | cons x xs ih =>
    rw [cplxAttrLoop] at h1 h2
    split at h1
    · simp at h1
    · rename_i y hy
      rw [hy] at h2
      dsimp only at h1 h2
      split at h2
      · simp at h2
      · cases h2; rfl
      · rename_i n hn hg
        split at h1
        · simp at h1
        · rename_i hf
          have := (h _ _ _ hf hg).1 rfl
          exact absurd this hn
        · exact ih _ _ h1 h2

theorem cplxLoop_mono (f g : Val → PyM MatchStatus)
    (h : ∀ x s n, f x = .ok s → g x = .ok n → Mono s n) (items : List Val) (b1 b2 : Bool) (p1 p2 : Bool × Bool)
    (h1 : cplxLoop f items b1 = .ok p1) (h2 : cplxLoop g items b2 = .ok p2) (hp : p1.1 = true) :
    p2.1 = true := by
  induction items generalizing b1 b2 with
  | nil => rw [cplxLoop] at h1; cases h1; cases hp
  | cons x xs ih =>
    rw [cplxLoop] at h1 h2
    have key : ∀ n, g x = .ok n → n ≠ .passed → f x ≠ .ok .passed := by
      intro n hg hn hf
      exact hn ((h _ _ _ hf hg).1 rfl)
    split at h2
    · simp at h2
    · cases h2; rfl
    · rename_i hg
      split at h1
      · simp at h1
      · rename_i hf; exact absurd hf (key _ hg (by simp))
      · exact ih _ _ h1 h2
      · exact ih _ _ h1 h2
    · rename_i n hn1 hn2 hg
      split at h1
      · simp at h1
      · rename_i hf; exact absurd hf (key _ hg hn1)
      · exact ih _ _ h1 h2
      · exact ih _ _ h1 h2

theorem andFold_passed {rs : List (PyM MatchStatus)} {m : Bool} (h : andFold rs m = .ok .passed) :
    m = false ∧ ∀ r ∈ rs, r = .ok .passed ∨ r = .ok .noAttr := by
  induction rs generalizing m with
  | nil => cases m <;> simp_all [andFold]
  | cons r rs ih =>
    rw [andFold_cons] at h
    split at h
    · simp at h
    · simp at h
    · have := (ih h).1; simp at this
    · rename_i s h1 h2
      obtain ⟨hm, hr⟩ := ih h
      refine ⟨hm, ?_⟩
      intro r hr'
      rcases List.mem_cons.mp hr' with rfl | h'
      · cases s <;> simp_all
      · exact hr r h'

theorem andFold_allPassed {rs : List (PyM MatchStatus)}
    (h : ∀ r ∈ rs, ∀ n, r = .ok n → n = .passed ∨ n = .noAttr) {n : MatchStatus} (hn : andFold rs false = .ok n) :
    n = .passed := by
  induction rs with
  | nil => simp [andFold] at hn; exact hn.symm
  | cons r rs ih =>
    rw [andFold_cons] at hn
    split at hn
    · simp at hn
    · have := h (.ok .failed) (by simp) _ rfl; simp at this
    · have := h (.ok .missing) (by simp) _ rfl; simp at this
    · exact ih (fun r hr => h r (by simp [hr])) hn

theorem andFold_ne_noAttr (rs : List (PyM MatchStatus)) (m : Bool) : andFold rs m ≠ .ok .noAttr := by
  induction rs generalizing m with
  | nil => cases m <;> simp [andFold]
  | cons r rs ih => rw [andFold_cons]; split <;> simp [ih]

theorem orFold_ne_noAttr (rs : List (PyM MatchStatus)) (m : Bool) : orFold rs m ≠ .ok .noAttr := by
  induction rs generalizing m with
  | nil => cases m <;> simp [orFold]
  | cons r rs ih => rw [orFold_cons]; split <;> simp [ih]

theorem orFold_passed_iff {rs : List (PyM MatchStatus)} {m : Bool} :
    orFold rs m = .ok .passed ↔ ∃ pre post, rs = pre ++ .ok .passed :: post ∧ ∀ r ∈ pre, ∃ s, r = .ok s := by
  induction rs generalizing m with
  | nil => cases m <;> simp [orFold]
  | cons r rs ih =>
    constructor
    · intro h
      rw [orFold_cons] at h
      split at h
      · simp at h
      · exact ⟨[], rs, rfl, by simp⟩
      · obtain ⟨pre, post, h1, h2⟩ := ih.mp h
        exact ⟨_ :: pre, post, by rw [h1]; rfl, by
          intro r hr; rcases List.mem_cons.mp hr with rfl | hr
          · exact ⟨_, rfl⟩
          · exact h2 r hr⟩
      · obtain ⟨pre, post, h1, h2⟩ := ih.mp h
        exact ⟨_ :: pre, post, by rw [h1]; rfl, by
          intro r hr; rcases List.mem_cons.mp hr with rfl | hr
          · exact ⟨_, rfl⟩
          · exact h2 r hr⟩
    · rintro ⟨pre, post, h1, h2⟩
      rw [orFold_cons]
      cases pre with
      | nil => simp at h1; rw [h1.1]
      | cons p pre =>
        simp at h1
        obtain ⟨s, hs⟩ := h2 p (by simp)
        rw [h1.1, hs]
        have hrest : ∀ m, orFold rs m = .ok .passed := fun m =>
          ih.mpr ⟨pre, post, h1.2, fun r hr => h2 r (by simp [hr])⟩
        cases s <;> simp [hrest]

/-- Two result lists related operand by operand. -/
theorem orFold_mono {α : Type} (os : List α) (f g : α → PyM MatchStatus)
    (h : ∀ o ∈ os, ∀ s n, f o = .ok s → g o = .ok n → Mono s n) (b1 b2 : Bool) (n : MatchStatus)
    (h1 : orFold (os.map f) b1 = .ok .passed) (h2 : orFold (os.map g) b2 = .ok n) : n = .passed := by
  induction os generalizing b1 b2 with
  | nil => cases b1 <;> simp [orFold] at h1
  | cons o os ih =>
    rw [List.map_cons, orFold_cons] at h1 h2
    have key : ∀ n, g o = .ok n → n ≠ .passed → f o ≠ .ok .passed := by
      intro n hg hn hf
      exact hn ((h o (by simp) _ _ hf hg).1 rfl)
    have ih' := fun b1 b2 => ih (fun o ho => h o (by simp [ho])) b1 b2
    split at h2
    · simp at h2
    · cases h2; rfl
    · rename_i hg
      split at h1
      · simp at h1
      · rename_i hf; exact absurd hf (key _ hg (by simp))
      · exact ih' _ _ h1 h2
      · exact ih' _ _ h1 h2
    · rename_i hg
      split at h1
      · simp at h1
      · rename_i hn1 _ _ hf; exact absurd hf (key _ hg hn1)
      · exact ih' _ _ h1 h2
      · exact ih' _ _ h1 h2

theorem cplxStatus_passed (strict : Bool) (p : Bool × Bool) :
    cplxStatus strict p = .passed ↔ p.1 = true ∨ (p.2 = true ∧ strict = false) := by
  obtain ⟨a, b⟩ := p; cases a <;> cases b <;> cases strict <;> simp [cplxStatus]

theorem cplxStatus_ne_noAttr (strict : Bool) (p : Bool × Bool) : cplxStatus strict p ≠ .noAttr := by
  obtain ⟨a, b⟩ := p; cases a <;> cases b <;> cases strict <;> simp [cplxStatus]

mutual
theorem match_mono : ∀ (o : Op) (v : Val) (attrs : List Attr) (s n : MatchStatus),
    o.match v attrs true = .ok s → o.match v attrs false = .ok n → Mono s n
  | .pr r, v, attrs, s, n => by
    rw [Op.match, Op.match]; intro h1 h2; rw [h1] at h2; cases h2; simp [Mono]
  | .cmp o r w, v, attrs, s, n => by rw [Op.match, Op.match]; exact matchCmp_mono o r w v attrs s n
  | .not sub, v, attrs, s, n => by
    rw [Op.match, Op.match]
    intro h1 h2
    split at h1
    · simp at h1
    · rename_i st hst
      rw [hst] at h2
      cases h1; cases h2
      cases st <;> simp [notStatus, Mono]
  | .and subs, v, attrs, s, n => by
    rw [and_match, and_match]
    intro h1 h2
    refine ⟨?_, ?_⟩
    · rintro rfl
      obtain ⟨-, hp⟩ := andFold_passed h1
      refine andFold_allPassed ?_ h2
      intro r hr n hn
      obtain ⟨o, ho, rfl⟩ := List.mem_map.mp hr
      have hs := hp _ (List.mem_map.mpr ⟨o, ho, rfl⟩)
      have hm := onOperand_mono o _ _ v.orDict (fun x s n => match_mono_all subs o ho x attrs s n)
      rcases hs with hs | hs
      · exact .inl ((hm _ _ hs hn).1 rfl)
      · exact .inr ((hm _ _ hs hn).2 rfl)
    · rintro rfl; exact absurd h1 (andFold_ne_noAttr _ _)
  | .or subs, v, attrs, s, n => by
    rw [or_match, or_match]
    intro h1 h2
    refine ⟨?_, ?_⟩
    · rintro rfl
      exact orFold_mono subs _ _ (fun o ho => onOperand_mono o _ _ v.orDict
        (fun x s n => match_mono_all subs o ho x attrs s n)) _ _ _ h1 h2
    · rintro rfl; exact absurd h1 (orFold_ne_noAttr _ _)
  | .cplx r sub, v, attrs, s, n => by
    rw [Op.match, Op.match]
    intro h1 h2
    split at h1
    · rename_i hf; rw [hf] at h2; cases h1; cases h2; simp [Mono]
    · rename_i hf; rw [hf] at h2; cases h1; cases h2; simp [Mono]
    · rename_i i subAttrs ps ds hf
      rw [hf] at h2
      dsimp only at h1 h2
      split at h1
      · rename_i hc; rw [if_pos hc] at h2; cases h1; cases h2; simp [Mono]
      · rename_i hc
        rw [if_neg hc] at h2
        generalize (if v.truthy = true then v else if i.multi = true then Val.list [] else Val.emptyCont).asList = items at h1 h2
        have hm := fun x s n => match_mono sub x subAttrs s n
        split at h1
        · simp at h1
        · rename_i p1 hp1
          split at h2
          · simp at h2
          · rename_i p2 hp2
            cases h1; cases h2
            refine ⟨?_, fun h => absurd h (cplxStatus_ne_noAttr _ _)⟩
            rw [cplxStatus_passed, cplxStatus_passed]
            simp only [Bool.true_eq_false, and_false, or_false]
            intro hpass
            refine .inl ?_
            split at hp1
            · rename_i hop
              rw [if_pos hop] at hp2
              split at hp1
              · simp at hp1
              · rename_i q1 q1' hq1
                split at hp2
                · simp at hp2
                · rename_i q2 q2' hq2
                  cases hp1; cases hp2
                  exact cplxAttrLoop_mono _ _ _ hm items _ _ (q1, q1') (q2, q2') hq1 hq2 hpass
            · rename_i hop
              rw [if_neg hop] at hp2
              exact cplxLoop_mono _ _ hm items _ _ _ _ hp1 hp2 hpass
theorem match_mono_all : ∀ (os : List Op), ∀ o ∈ os, ∀ (v : Val) (attrs : List Attr) (s n : MatchStatus),
    o.match v attrs true = .ok s → o.match v attrs false = .ok n → Mono s n
  | [], o, h, _, _, _, _ => by simp at h
  | p :: os, o, h, v, attrs, s, n => by
    rcases List.mem_cons.mp h with h | h
    · rw [h]; exact match_mono p v attrs s n
    · exact match_mono_all os o h v attrs s n
end

end Scim
