import Verif.Lemmas.Issues

/-! Further lemmas about issue collections, used by the modules that build them. -/

namespace Scim
namespace Issues

theorem errorsAt_merge {o : Issues} (ho : WF o) (s : Issues) (loc l : Loc) :
    (s.merge o loc).errorsAt l =
      s.errorsAt l ++ if loc <+: l then o.errorsAt (l.drop loc.length) else [] := by
  rw [merge_eq, errorsAt_mergeLoop _ _ _ _ ho.keys]; rfl

theorem errorsAt_add (s : Issues) (e : VErr) (b : Bool) (loc l : Loc) :
    (s.add e b loc).errorsAt l = s.errorsAt l ++ if loc = l then [e] else [] := by
  unfold add errorsAt
  exact errorsAt_extend _ _ _ _

@[simp] theorem errorsAt_empty (l : Loc) : errorsAt {} l = [] := rfl

theorem hasIssues_false_iff (s : Issues) : s.hasIssues = false ↔ s.issues = [] := by
  cases h : s.issues with
  | nil => simp [hasIssues, hasIssuesAt, h]
  | cons p r => simp [hasIssues, hasIssuesAt, h]

theorem hasIssues_true_iff (s : Issues) : s.hasIssues = true ↔ s.issues ≠ [] := by
  rw [← Bool.not_eq_false, hasIssues_false_iff]

theorem merge_nil (s o : Issues) (loc : Loc) (h : o.issues = []) : s.merge o loc = s := by
  simp [merge, h]

theorem merge_noIssues {o : Issues} (s : Issues) (loc : Loc) (h : o.hasIssues = false) :
    s.merge o loc = s := merge_nil s o loc ((hasIssues_false_iff o).mp h)

theorem aset_ne_nil {κ β : Type} [DecidableEq κ] (k : κ) (v : β) (m : List (κ × β)) : aset k v m ≠ [] := by
  cases m with
  | nil => simp [aset]
  | cons p r => obtain ⟨a, b⟩ := p; rw [aset_cons]; split <;> simp

theorem hasIssues_add (s : Issues) (e : VErr) (b : Bool) (loc : Loc) : (s.add e b loc).hasIssues = true := by
  rw [hasIssues_true_iff]; exact aset_ne_nil _ _ _

theorem mergeLoop_issues_ne (st) (loc : Loc) (s : Issues) (L : List (Loc × List VErr)) :
    (mergeLoop st loc s L).issues ≠ [] ↔ s.issues ≠ [] ∨ L ≠ [] := by
  induction L generalizing s with
  | nil => simp [mergeLoop]
  | cons p r ih =>
    have : mergeLoop st loc s (p :: r) = mergeLoop st loc
      { issues := extendAt (loc ++ p.1) p.2 s.issues
        stop := updateAt (loc ++ p.1) ((aget p.1 st).getD []) s.stop } r := rfl
    rw [this, ih]
    simp [extendAt, aset_ne_nil]

theorem hasIssues_merge (s o : Issues) (loc : Loc) :
    (s.merge o loc).hasIssues = true ↔ s.hasIssues = true ∨ o.hasIssues = true := by
  rw [hasIssues_true_iff, hasIssues_true_iff, hasIssues_true_iff, merge_eq, mergeLoop_issues_ne]

theorem hasIssues_merge_false (s o : Issues) (loc : Loc) :
    (s.merge o loc).hasIssues = false ↔ s.hasIssues = false ∧ o.hasIssues = false := by
  simp only [hasIssues_false_iff]
  rw [← Classical.not_not (a := (s.merge o loc).issues = []), ← ne_eq, merge_eq, mergeLoop_issues_ne]
  simp

theorem eq_empty_of_noIssues {s : Issues} (h : WF s) (hn : s.hasIssues = false) : s = {} := by
  have h1 := (hasIssues_false_iff s).mp hn
  obtain ⟨i, st⟩ := s
  simp only at h1
  subst h1
  cases st with
  | nil => rfl
  | cons p r => have := h.stopSub p.1 (by simp); simp at this

theorem hasIssues_iff_errors {s : Issues} (h : WF s) : s.hasIssues = true ↔ ∃ l, s.errorsAt l ≠ [] := by
  rw [hasIssues_true_iff]
  constructor
  · intro hn
    cases hs : s.issues with
    | nil => exact absurd hs hn
    | cons p r =>
      refine ⟨p.1, ?_⟩
      rw [errorsAt_ne_nil_iff h, hs]; simp
  · rintro ⟨l, hl⟩ he
    rw [errorsAt_ne_nil_iff h, he] at hl; simp at hl

theorem canProceed_nil_iff (s : Issues) : s.canProceed = true ↔ aget [] s.stop = none := by
  simp [canProceed, canProceedAt_iff]

theorem canProceed_nil_false_iff (s : Issues) : s.canProceed = false ↔ (aget [] s.stop).isSome := by
  cases h : aget [] s.stop <;> simp [canProceed, canProceedAt, h]

theorem stop_merge_isSome (s o : Issues) (loc l : Loc) :
    (aget l (s.merge o loc).stop).isSome ↔
      (aget l s.stop).isSome ∨ ∃ m ∈ o.issues.map (·.1), loc ++ m = l := by
  rw [merge_eq, stop_mergeLoop_isSome]

theorem stop_merge_isSome' {o : Issues} (ho : WF o) (s : Issues) (loc l : Loc) :
    (aget l (s.merge o loc).stop).isSome ↔
      (aget l s.stop).isSome ∨ ∃ m, o.errorsAt m ≠ [] ∧ loc ++ m = l := by
  rw [stop_merge_isSome]
  simp only [errorsAt_ne_nil_iff ho]

theorem stop_add_isSome (s : Issues) (e : VErr) (b : Bool) (loc l : Loc) :
    (aget l (s.add e b loc).stop).isSome ↔ (aget l s.stop).isSome ∨ (b = false ∧ loc = l) := by
  unfold add
  cases b
  · simp only [updateAt, Bool.false_eq_true, if_false, aget_aset, true_and]
    by_cases h : loc = l
    · simp [h]
    · simp [h]
  · simp

/-- Every blocking location carries an error. -/
theorem WF.stop_errors {s : Issues} (h : WF s) {l : Loc} (hs : (aget l s.stop).isSome) :
    s.errorsAt l ≠ [] := by
  rw [errorsAt_ne_nil_iff h]
  exact h.stopSub l (aget_isSome_iff.mp hs)

end Issues
end Scim
