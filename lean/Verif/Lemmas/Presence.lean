import Verif.Spec.Presence
import Verif.Lemmas.IssuesMore

/-! Lemmas about presence checks. -/

namespace Scim
variable [PyEnv]

theorem isEmptyish_iff (v : Val) : v.isEmptyish = true ↔ v.Empty := by
  unfold Val.Empty Val.isEmptyish
  split <;> simp_all [Val.null, Val.str]

theorem isEmptyish_false_iff (v : Val) : v.isEmptyish = false ↔ ¬ v.Empty := by
  rw [← isEmptyish_iff]; simp

theorem eqv_sameAs (x r : AttrRep) : x.eqv r = true ↔ x.SameAs r := by
  unfold AttrRep.eqv AttrRep.SameAs
  split
  · rename_i h; simp_all
  · rename_i h
    split
    · rename_i h2; simp_all
    · split
      · simp_all
      · simp_all

theorem repIn_iff (r : AttrRep) (l : List AttrRep) : repIn r l = true ↔ Listed r l := by
  simp [repIn, Listed, eqv_sameAs]

theorem repIn_false_iff (r : AttrRep) (l : List AttrRep) : repIn r l = false ↔ ¬ Listed r l := by
  rw [← repIn_iff]; simp

theorem topLevelEquals_iff (x r : AttrRep) : r.topLevelEquals x = true ↔ x.SameTop r := by
  unfold AttrRep.topLevelEquals AttrRep.SameTop AttrRep.attrWithSchema
  by_cases h1 : r.schema = [] <;> by_cases h2 : x.schema = [] <;> simp [h1, h2] <;> exact eq_comm

theorem subOrTopIn_iff (c : Checker) (r : AttrRep) : c.subOrTopIn r = true ↔ RelativeListed r c.reps := by
  unfold Checker.subOrTopIn RelativeListed
  rw [List.any_eq_true]
  refine exists_congr fun x => and_congr_right fun _ => ?_
  rw [Bool.and_eq_true, topLevelEquals_iff]
  refine and_congr_right fun _ => ?_
  by_cases h1 : r.sub = [] <;> simp [h1]

/-- What a check of one value reports. -/
theorem checkPresence_errors (c : Checker) (v : Val) (d : Direction) (a : Attr) (l : Loc) (e : VErr) :
    e ∈ (c.checkPresence v d a).errorsAt l ↔ l = [] ∧
      ((e = ⟨15, []⟩ ∧ v.Empty ∧ a.info.required = true ∧ ¬ Listed a.rep c.ignore ∧
          (c.incl = some true → Listed a.rep c.reps ∨ (d = .response ∧ a.info.returned = .always))) ∨
       (e = ⟨19, []⟩ ∧ ¬ v.Empty ∧ d = .response ∧ a.info.returned ≠ .always ∧
          (a.info.returned = .never ∨ (c.incl = some false ∧ Listed a.rep c.reps) ∨
            (c.incl = some true ∧ ¬ Listed a.rep c.reps ∧ ¬ RelativeListed a.rep c.reps)))) := by
  unfold Checker.checkPresence
  cases he : v.isEmptyish
  · have hne := (isEmptyish_false_iff v).mp he
    simp only [Bool.not_false, if_true]
    by_cases hd : d = .response
    · subst hd
      by_cases hn : a.info.returned = .never
      · simp only [hn, ne_eq, not_true_eq_false, if_false, if_true, Issues.errorsAt_add, Issues.errorsAt_empty]
        by_cases hl : l = []
        · subst hl; simp [hne]
        · simp [hl, Ne.symm hl]
      · by_cases ha : a.info.returned = .always
        · simp [ha, hne]
        · simp only [ne_eq, not_true_eq_false, if_false, hn, ha]
          rw [show decide (¬ False) = true from by decide]
          simp only [Bool.true_and]
          split
          · rename_i hc
            rw [Issues.errorsAt_add]
            simp only [Bool.or_eq_true, Bool.and_eq_true, repIn_iff, Bool.not_eq_true', beq_iff_eq,
              repIn_false_iff] at hc
            have hs : c.subOrTopIn a.rep = false ↔ ¬ RelativeListed a.rep c.reps := by
              rw [← subOrTopIn_iff]; simp
            rw [hs] at hc
            by_cases hl : l = []
            · subst hl
              simp [hne]
              rintro rfl
              rcases hc with hc | hc
              · exact .inl ⟨hc.2, hc.1⟩
              · exact .inr ⟨hc.2, hc.1.1, hc.1.2⟩
            · simp [hl, Ne.symm hl]
          · rename_i hc
            simp only [Bool.or_eq_true, Bool.and_eq_true, repIn_iff, Bool.not_eq_true', beq_iff_eq,
              repIn_false_iff] at hc
            have hs : c.subOrTopIn a.rep = false ↔ ¬ RelativeListed a.rep c.reps := by
              rw [← subOrTopIn_iff]; simp
            rw [hs] at hc
            simp only [Issues.errorsAt_empty, List.not_mem_nil, false_iff]
            rintro ⟨-, h | ⟨-, -, -, -, h⟩⟩
            · exact hne h.2.1
            · apply hc
              rcases h with h | h | h
              · exact h.elim
              · exact .inl ⟨h.2, h.1⟩
              · exact .inr ⟨⟨h.2.1, h.2.2⟩, h.1⟩
    · simp [hd, hne]
  · have hem := (isEmptyish_iff v).mp he
    simp only [Bool.not_true, Bool.false_eq_true, if_false]
    split
    · rename_i hc
      simp only [Bool.or_eq_true, Bool.and_eq_true, repIn_iff, Bool.not_eq_true', bne_iff_ne,
              repIn_false_iff, decide_eq_true_eq] at hc
      rw [Issues.errorsAt_add]
      by_cases hl : l = []
      · subst hl
        simp [hem, hc.1]
        rintro rfl h
        rcases hc.2 with (h' | h') | h'
        · exact absurd h h'
        · exact .inl h'
        · exact .inr h'
      · simp [hl, Ne.symm hl]
    · rename_i hc
      simp only [Bool.or_eq_true, Bool.and_eq_true, repIn_iff, Bool.not_eq_true', bne_iff_ne,
              repIn_false_iff, decide_eq_true_eq] at hc
      simp only [Issues.errorsAt_empty, List.not_mem_nil, false_iff]
      rintro ⟨-, ⟨-, -, h1, h2, h3⟩ | h⟩
      · apply hc
        refine ⟨⟨h1, h2⟩, ?_⟩
        by_cases hi : c.incl = some true
        · rcases h3 hi with h | h
          · exact .inl (.inr h)
          · exact .inr h
        · exact .inl (.inl hi)
      · exact h.2.1 hem

theorem checkPresence_wf (c : Checker) (v : Val) (d : Direction) (a : Attr) :
    Issues.WF (c.checkPresence v d a) := by
  unfold Checker.checkPresence
  repeat' split
  all_goals first | exact Issues.WF.empty | exact Issues.WF.add Issues.WF.empty _ _ _

theorem mem_merge_check (c : Checker) (v : Val) (d : Direction) (a : Attr) (s : Issues) (loc l : Loc) (e : VErr) :
    e ∈ (s.merge (c.checkPresence v d a) loc).errorsAt l ↔
      e ∈ s.errorsAt l ∨ (l = loc ∧ e ∈ (c.checkPresence v d a).errorsAt []) := by
  rw [Issues.errorsAt_merge (checkPresence_wf c v d a), List.mem_append]
  refine or_congr_right ?_
  split
  · rename_i hp
    rw [checkPresence_errors, checkPresence_errors c v d a []]
    have : l.drop loc.length = [] ↔ l = loc := by
      obtain ⟨t, rfl⟩ := hp
      simp
    rw [this]; simp
  · rename_i hp
    have : l ≠ loc := by rintro rfl; exact hp (List.prefix_refl _)
    simp [this]

theorem checkItems_errors (c : Checker) (d : Direction) (a : Attr) (n : Nat) (xs : List Val) (s r : Issues)
    (h : c.checkItems d a n xs s = .ok r) (l : Loc) (e : VErr) :
    e ∈ r.errorsAt l ↔ e ∈ s.errorsAt l ∨ ∃ i x v, xs[i]? = some x ∧
      x.getItem { attr := a.rep.sub } = .ok v ∧ v.isInvalid = false ∧
      l = [.name a.rep.attr, .idx (n + i), .name a.rep.sub] ∧ e ∈ (c.checkPresence v d a).errorsAt [] := by
  induction xs generalizing n s with
  | nil => simp only [Checker.checkItems, Except.ok.injEq] at h; subst h; simp
  | cons x xs ih =>
    rw [Checker.checkItems] at h
    split at h
    · simp at h
    · split at h
      · simp at h
      · rename_i hg
        rw [ih _ _ h]
        refine or_congr_right ?_
        constructor
        · rintro ⟨i, x', v, hx, hg', hv, hl, he⟩
          exact ⟨i + 1, x', v, by simpa using hx, hg', hv, by rw [hl]; congr 3; omega, he⟩
        · rintro ⟨i, x', v, hx, hg', hv, hl, he⟩
          cases i with
          | zero =>
            simp only [List.getElem?_cons_zero, Option.some.injEq] at hx
            subst hx
            rw [hg] at hg'; cases hg'; simp [Val.isInvalid] at hv
          | succ i => exact ⟨i, x', v, by simpa using hx, hg', hv, by rw [hl]; congr 3; omega, he⟩
      · rename_i v hv hg
        rw [ih _ _ h, mem_merge_check, or_assoc]
        refine or_congr_right ?_
        have hvi : v.isInvalid = false := by
          cases v <;> simp [Val.isInvalid]
          exact hv rfl
        constructor
        · rintro (⟨hl, he⟩ | ⟨i, x', v', hx, hg', hv', hl, he⟩)
          · exact ⟨0, x, v, by simp, hg, hvi, by simpa using hl, he⟩
          · exact ⟨i + 1, x', v', by simpa using hx, hg', hv', by rw [hl]; congr 3; omega, he⟩
        · rintro ⟨i, x', v', hx, hg', hv', hl, he⟩
          cases i with
          | zero =>
            simp only [List.getElem?_cons_zero, Option.some.injEq] at hx
            subst hx
            rw [hg] at hg'; cases hg'
            exact .inl ⟨by simpa using hl, he⟩
          | succ i => exact .inr ⟨i, x', v', by simpa using hx, hg', hv', by rw [hl]; congr 3; omega, he⟩

theorem checkAttr_errors (c : Checker) (data : Val) (attrs : Attributes) (d : Direction) (a : Attr)
    (s r : Issues) (h : c.checkAttr data attrs d a s = .ok r) (l : Loc) (e : VErr) :
    e ∈ r.errorsAt l ↔ e ∈ s.errorsAt l ∨
      ∃ v, Observed attrs data a l v ∧ e ∈ (c.checkPresence v d a).errorsAt [] := by
  unfold Checker.checkAttr at h
  split at h
  · simp at h
  · dsimp only at h
    by_cases hs : a.rep.sub = []
    · rw [if_pos (by simp [hs])] at h
      have hloc : a.rep.loc = [.name a.rep.attr] := by simp [AttrRep.loc, hs]
      split at h
      · simp at h
      · rename_i hg
        cases h
        refine ⟨.inl, ?_⟩
        rintro (h | ⟨v, ho, -⟩)
        · exact h
        · cases ho with
          | top _ h1 h2 => rw [hg] at h1; cases h1; simp [Val.isInvalid] at h2
          | sub h0 => exact absurd hs h0
          | null h0 => exact absurd hs h0
          | item h0 => exact absurd hs h0
      · rename_i v hv hg
        have hvi : v.isInvalid = false := by
          cases v <;> simp [Val.isInvalid]
          exact hv rfl
        cases h
        rw [mem_merge_check, hloc]
        refine or_congr_right ?_
        constructor
        · rintro ⟨rfl, he⟩
          exact ⟨v, .top hs hg hvi, he⟩
        · rintro ⟨v', ho, he⟩
          cases ho with
          | top _ h1 h2 => rw [hg] at h1; cases h1; exact ⟨rfl, he⟩
          | sub h0 => exact absurd hs h0
          | null h0 => exact absurd hs h0
          | item h0 => exact absurd hs h0
    · rw [if_neg (by simp [hs])] at h
      have hloc : a.rep.loc = [.name a.rep.attr, .name a.rep.sub] := by simp [AttrRep.loc, hs]
      split at h
      · simp at h
      · rename_i t ht
        by_cases hm : t.info.multi = true
        · rw [if_neg (by simp [hm])] at h
          -- the value of the parent
          have key : ∀ w, data.getItem { schema := a.rep.schema, attr := a.rep.attr } = .ok w →
              w ≠ .null → w.isList = false →
              ¬ ∃ v, Observed attrs data a l v ∧ e ∈ (c.checkPresence v d a).errorsAt [] := by
            rintro w hw hn hl ⟨v, ho, -⟩
            cases ho with
            | top h0 => exact absurd h0 hs
            | sub _ h1 h2 => rw [ht] at h1; cases h1; rw [hm] at h2; cases h2
            | null _ _ _ h3 => rw [hw] at h3; cases h3; exact hn rfl
            | item _ _ _ h3 => rw [hw] at h3; cases h3; simp [Val.isList] at hl
          split at h
          · simp at h
          · rename_i hg; cases h
            have := key _ hg (by simp [Val.null]) rfl
            simp [this]
          · rename_i hg; cases h
            have := key _ hg (by simp [Val.null]) rfl
            simp [this]
          · rename_i hg; cases h
            rw [mem_merge_check, hloc]
            refine or_congr_right ?_
            constructor
            · rintro ⟨rfl, he⟩; exact ⟨_, .null hs ht hm hg, he⟩
            · rintro ⟨v, ho, he⟩
              cases ho with
              | top h0 => exact absurd h0 hs
              | sub _ h1 h2 => rw [ht] at h1; cases h1; rw [hm] at h2; cases h2
              | null => exact ⟨rfl, he⟩
              | item _ _ _ h3 => rw [hg] at h3; cases h3
          · rename_i xs hg
            rw [checkItems_errors _ _ _ _ _ _ _ h]
            refine or_congr_right ?_
            constructor
            · rintro ⟨i, x, v, h1, h2, h3, rfl, he⟩
              rw [Nat.zero_add]
              exact ⟨v, .item hs ht hm hg h1 h2 h3, he⟩
            · rintro ⟨v, ho, he⟩
              cases ho with
              | top h0 => exact absurd h0 hs
              | sub _ h1 h2 => rw [ht] at h1; cases h1; rw [hm] at h2; cases h2
              | null _ _ _ h3 => rw [hg] at h3; cases h3
              | item _ _ _ h3 h4 h5 h6 =>
                rw [hg] at h3; cases h3
                exact ⟨_, _, v, h4, h5, h6, by simp, he⟩
          · simp at h
          · rename_i hg; cases h
            have := key _ hg (by simp [Val.null]) rfl
            simp [this]
          · rename_i hg; cases h
            have := key _ hg (by simp [Val.null]) rfl
            simp [this]
          · simp at h
        · rw [Bool.not_eq_true] at hm
          rw [if_pos (by simp [hm])] at h
          split at h
          · simp at h
          · rename_i hg; cases h
            refine ⟨.inl, ?_⟩
            rintro (h | ⟨v, ho, -⟩)
            · exact h
            · cases ho with
              | top h0 => exact absurd h0 hs
              | sub _ _ _ h1 h2 => rw [hg] at h1; cases h1; simp [Val.isInvalid] at h2
              | null _ h1 h2 => rw [ht] at h1; cases h1; rw [hm] at h2; cases h2
              | item _ h1 h2 => rw [ht] at h1; cases h1; rw [hm] at h2; cases h2
          · rename_i v hv hg
            have hvi : v.isInvalid = false := by
              cases v <;> simp [Val.isInvalid]
              exact hv rfl
            cases h
            rw [mem_merge_check, hloc]
            refine or_congr_right ?_
            constructor
            · rintro ⟨rfl, he⟩
              exact ⟨v, .sub hs ht hm hg hvi, he⟩
            · rintro ⟨v', ho, he⟩
              cases ho with
              | top h0 => exact absurd h0 hs
              | sub _ _ _ h1 h2 => rw [hg] at h1; cases h1; exact ⟨rfl, he⟩
              | null _ h1 h2 => rw [ht] at h1; cases h1; rw [hm] at h2; cases h2
              | item _ h1 h2 => rw [ht] at h1; cases h1; rw [hm] at h2; cases h2

theorem checkAll_errors (c : Checker) (data : Val) (attrs : Attributes) (d : Direction) (as : List Attr)
    (s r : Issues) (h : c.checkAll data attrs d as s = .ok r) (l : Loc) (e : VErr) :
    e ∈ r.errorsAt l ↔ e ∈ s.errorsAt l ∨
      ∃ a ∈ as, ∃ v, Observed attrs data a l v ∧ e ∈ (c.checkPresence v d a).errorsAt [] := by
  induction as generalizing s with
  | nil => simp only [Checker.checkAll, Except.ok.injEq] at h; subst h; simp
  | cons a as ih =>
    rw [Checker.checkAll] at h
    split at h
    · simp at h
    · rename_i s' hs
      rw [ih _ h, checkAttr_errors _ _ _ _ _ _ _ hs, or_assoc]
      simp only [List.mem_cons, exists_eq_or_imp]

/-- Everything a presence check reports, and where. -/
theorem call_errors (c : Checker) (data : Val) (attrs : Attributes) (d : Direction) (r : Issues)
    (h : c.call data attrs d = .ok r) (l : Loc) (e : VErr) :
    e ∈ r.errorsAt l ↔
      ∃ a ∈ attrs.all, ∃ v, Observed attrs data a l v ∧ e ∈ (c.checkPresence v d a).errorsAt [] := by
  rw [checkAll_errors _ _ _ _ _ _ _ h]; simp

end Scim
