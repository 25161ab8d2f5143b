import Verif.Lemmas.Issues

/-!
# Properties of issue collections (C12–C17)

All statements are about collections reachable by any history of `add`, `merge`, `pop` and `get`
(`Issues.Reach`).  `l₁ <+: l₂` is the prefix relation on locations.
-/

namespace Scim
open Issues

/-- The errors of the concrete collection used in the examples: a missing value (blocking) at
`("a", 0)` and a warning at `("a",)`. -/
def exIssues : Issues :=
  (({} : Issues).add ⟨15, []⟩ false [.name "a".toList, .idx 0]).add ⟨14, []⟩ true [.name "a".toList]

theorem exIssues_reach : Reach exIssues := .add _ _ _ (.add _ _ _ .empty)

/-- **C12** merging appends exactly the other collection's errors below the prefix. -/
theorem C12_merge_errors {s o : Issues} (_hs : Reach s) (ho : Reach o) (loc l : Loc) :
    (s.merge o loc).errorsAt l =
      s.errorsAt l ++ (if loc <+: l then o.errorsAt (l.drop loc.length) else []) := by
  rw [merge_eq, errorsAt_mergeLoop _ _ _ _ ho.wf.keys]
  rfl

/-- **C12** `has_issues(l)` after a merge. -/
theorem C12_merge_hasIssues {s o : Issues} (hs : Reach s) (ho : Reach o) (loc l : Loc) :
    (s.merge o loc).hasIssues [l] = true ↔
      s.hasIssues [l] = true ∨ ∃ m, o.errorsAt m ≠ [] ∧ l <+: loc ++ m := by
  have e : ∀ x : Issues, x.hasIssues [l] = x.hasIssuesAt l := by intro x; simp [hasIssues]
  rw [e, e, hasIssuesAt_iff (Reach.merge loc hs ho).wf, hasIssuesAt_iff hs.wf]
  constructor
  · rintro ⟨m, hm, he⟩
    rw [C12_merge_errors hs ho] at he
    by_cases h1 : s.errorsAt m = []
    · right
      rw [h1, List.nil_append] at he
      split at he
      · rename_i hp
        refine ⟨m.drop loc.length, he, ?_⟩
        rw [prefix_eq_append hp]; exact hm
      · exact absurd rfl he
    · exact .inl ⟨m, hm, h1⟩
  · rintro (⟨m, hm, he⟩ | ⟨m, he, hm⟩)
    · refine ⟨m, hm, ?_⟩
      rw [C12_merge_errors hs ho]
      simp [he]
    · refine ⟨loc ++ m, hm, ?_⟩
      rw [C12_merge_errors hs ho]
      simp [he]

/-- `has_issues(l)` means: some error is recorded at `l` or below. -/
theorem C12_hasIssues_iff {s : Issues} (hs : Reach s) (l : Loc) :
    s.hasIssues [l] = true ↔ ∃ m, l <+: m ∧ s.errorsAt m ≠ [] := by
  have e : s.hasIssues [l] = s.hasIssuesAt l := by simp [hasIssues]
  rw [e]; exact hasIssuesAt_iff hs.wf l

example : (exIssues.merge exIssues [.name "b".toList]).errorsAt [.name "b".toList, .name "a".toList]
    = [⟨14, []⟩] ∧ exIssues.errorsAt [.name "b".toList, .name "a".toList] = [] := by
  constructor <;> decide

/-- **C13** after any history of `add`, a location is blocked exactly by the blocking issues added at one
of its prefixes. -/
theorem C13_canProceed_adds (h : AddHistory) (l : Loc) :
    h.run.canProceed [l] = false ↔ ∃ x ∈ h, x.2.1 = false ∧ x.2.2 <+: l := by
  have e : h.run.canProceed [l] = h.run.canProceedAt l := by simp [canProceed]
  rw [e, canProceedAt_false_iff]
  have key : ∀ (h : AddHistory) (s : Issues) (q : Loc),
      (aget q (h.foldl (fun s x => s.add x.1 x.2.1 x.2.2) s).stop).isSome ↔
        (aget q s.stop).isSome ∨ ∃ x ∈ h, x.2.1 = false ∧ x.2.2 = q := by
    intro h
    induction h with
    | nil => intro s q; simp
    | cons x h ih =>
      intro s q
      obtain ⟨e, b, loc⟩ := x
      simp only [List.foldl_cons, ih, List.mem_cons, exists_eq_or_imp]
      cases b
      · simp only [add, Bool.false_eq_true, ↓reduceIte, updateAt, aget_aset, true_and]
        by_cases hl : loc = q
        · simp [hl]
        · simp [hl]
      · simp [add]
  unfold AddHistory.run
  constructor
  · rintro ⟨q, hq, hs⟩
    rw [key] at hs
    rcases hs with hs | ⟨x, hx, hb, rfl⟩
    · simp at hs
    · exact ⟨x, hx, hb, hq⟩
  · rintro ⟨x, hx, hb, hp⟩
    exact ⟨x.2.2, hp, (key _ _ _).2 (.inr ⟨x, hx, hb, rfl⟩)⟩

/-- **C13** `can_proceed(*ls)` is the conjunction over its locations; without arguments it asks about the
empty location. -/
theorem C13_canProceed_many (s : Issues) (l : Loc) (ls : List Loc) :
    s.canProceed (l :: ls) = (s.canProceed [l] && ls.all (fun m => s.canProceed [m])) ∧
      s.canProceed [] = s.canProceed [[]] := by
  simp [canProceed]

example : exIssues.canProceed [[.name "a".toList, .idx 0, .name "x".toList]] = false ∧
    exIssues.canProceed [[.name "a".toList]] = true ∧
    exIssues = AddHistory.run [(⟨15, []⟩, false, [.name "a".toList, .idx 0]),
      (⟨14, []⟩, true, [.name "a".toList])] := by
  refine ⟨by decide, by decide, rfl⟩

/-- **C14** after a merge a location is blocked exactly when it was blocked before or some error of the
other collection — blocking or not — lands on one of its prefixes. -/
theorem C14_merge_blocks {s o : Issues} (_hs : Reach s) (ho : Reach o) (loc l : Loc) :
    (s.merge o loc).canProceed [l] = false ↔
      s.canProceed [l] = false ∨ ∃ m, o.errorsAt m ≠ [] ∧ loc ++ m <+: l := by
  have e : ∀ x : Issues, x.canProceed [l] = x.canProceedAt l := by intro x; simp [canProceed]
  rw [e, e, canProceedAt_false_iff, canProceedAt_false_iff]
  simp only [merge_eq, stop_mergeLoop_isSome, ← errorsAt_ne_nil_iff ho.wf]
  constructor
  · rintro ⟨q, hq, hs | ⟨m, hm, rfl⟩⟩
    · exact .inl ⟨q, hq, hs⟩
    · exact .inr ⟨m, hm, hq⟩
  · rintro (⟨q, hq, hs⟩ | ⟨m, hm, hp⟩)
    · exact ⟨q, hq, .inl hs⟩
    · exact ⟨_, hp, .inr ⟨m, hm, rfl⟩⟩

/-- **C14** what was blocked stays blocked. -/
theorem C14_merge_keeps_blocked {s o : Issues} (hs : Reach s) (ho : Reach o) (loc l : Loc)
    (h : s.canProceed [l] = false) : (s.merge o loc).canProceed [l] = false :=
  (C14_merge_blocks hs ho loc l).2 (.inl h)

/-- **C14** what is blocked in the other collection is blocked below the prefix. -/
theorem C14_merge_carries_blocked {s o : Issues} (hs : Reach s) (ho : Reach o) (loc l : Loc)
    (h : o.canProceed [l] = false) : (s.merge o loc).canProceed [loc ++ l] = false := by
  have e : o.canProceed [l] = o.canProceedAt l := by simp [canProceed]
  rw [e, canProceedAt_false_iff] at h
  obtain ⟨q, hq, hsome⟩ := h
  refine (C14_merge_blocks hs ho loc _).2 (.inr ⟨q, ?_, ?_⟩)
  · rw [errorsAt_ne_nil_iff ho.wf]
    exact ho.wf.stopSub _ (aget_isSome_iff.1 hsome)
  · exact (List.prefix_append_right_inj loc).2 hq

/-- **C14** the expectation that merging a warning blocks nothing is *false*: merging a collection in
which every location may proceed makes one that may not. -/
theorem C14_warning_blocks :
    ∃ s o : Issues, ∃ l : Loc, Reach s ∧ Reach o ∧ (∀ m, o.canProceed [m] = true) ∧
      s.canProceed [l] = true ∧ (s.merge o).canProceed [l] = false := by
  refine ⟨{}, ({} : Issues).add ⟨14, []⟩ true [.name "a".toList], [.name "a".toList],
    .empty, .add _ _ _ .empty, ?_, by decide, by decide⟩
  intro m
  simp [canProceed, canProceedAt, add]

example : (exIssues.merge exIssues [.name "b".toList]).canProceed [[.name "b".toList, .name "a".toList]]
    = false := by decide

/-- **C15** the report holds, at every nested path, exactly the codes of the locations whose string form
is that path, in order; and nothing where there is no such location. -/
theorem C15_report {s : Issues} (hs : ∀ p ∈ s.issues, errorsKey ∉ p.1.map LKey.toStr) :
    ∃ r, s.toDict = .ok r ∧ ∀ path, errorsKey ∉ path →
      r.errorsAt path =
        let here := s.issues.filter (fun p => p.1.map LKey.toStr = path)
        if here = [] then none else some (here.flatMap (fun p => p.2.map (·.code))) := by
  obtain ⟨r, he, hat⟩ := reportLoop_spec s.issues (.dict []) .empty hs
  refine ⟨r, he, ?_⟩
  intro path hp
  rw [hat path hp]
  have : Report.errorsAt path (.dict []) = none := by cases path <;> simp [Report.errorsAt]
  simp [this]

/-- **C15** with distinct string forms: every location's codes, and only those. -/
theorem C15_report_distinct {s : Issues} (hr : Reach s)
    (hs : ∀ p ∈ s.issues, errorsKey ∉ p.1.map LKey.toStr)
    (hd : ∀ l₁ l₂, s.errorsAt l₁ ≠ [] → s.errorsAt l₂ ≠ [] →
      l₁.map LKey.toStr = l₂.map LKey.toStr → l₁ = l₂) :
    ∃ r, s.toDict = .ok r ∧ ∀ path, errorsKey ∉ path → ∀ codes,
      r.errorsAt path = some codes ↔
        ∃ l, l.map LKey.toStr = path ∧ s.errorsAt l ≠ [] ∧ codes = (s.errorsAt l).map (·.code) := by
  obtain ⟨r, he, hat⟩ := C15_report hs
  refine ⟨r, he, ?_⟩
  intro path hp codes
  rw [hat path hp]
  have hmem : ∀ l es, (l, es) ∈ s.issues → s.errorsAt l = es ∧ es ≠ [] := by
    intro l es hm
    refine ⟨?_, hr.wf.nonempty _ hm⟩
    simp [errorsAt, aget_of_mem hr.wf.keys hm]
  have hback : ∀ l, s.errorsAt l ≠ [] → (l, s.errorsAt l) ∈ s.issues := by
    intro l hl
    unfold errorsAt at hl ⊢
    cases hg : aget l s.issues with
    | none => simp [hg] at hl
    | some es => exact mem_of_aget hg
  have single : ∀ l, l.map LKey.toStr = path → s.errorsAt l ≠ [] →
      s.issues.filter (fun p => p.1.map LKey.toStr = path) = [(l, s.errorsAt l)] := by
    intro l hl hne
    have hall : ∀ p ∈ s.issues.filter (fun p => p.1.map LKey.toStr = path),
        p = (l, s.errorsAt l) := by
      intro p hpm
      rw [List.mem_filter] at hpm
      obtain ⟨h1, h2⟩ := hpm
      obtain ⟨q, es⟩ := p
      have hq := hmem q es h1
      have : q = l := by
        apply hd
        · rw [hq.1]; exact hq.2
        · exact hne
        · simpa [hl] using h2
      subst this
      rw [hq.1]
    have hin : (l, s.errorsAt l) ∈ s.issues.filter (fun p => p.1.map LKey.toStr = path) := by
      rw [List.mem_filter]; exact ⟨hback l hne, by simpa using hl⟩
    have hnd : (s.issues.filter (fun p => p.1.map LKey.toStr = path)).Nodup := by
      apply List.Nodup.sublist List.filter_sublist
      have := hr.wf.keys
      exact (List.pairwise_map.1 this).imp (fun h e => h (by rw [e]))
    generalize s.issues.filter (fun p => p.1.map LKey.toStr = path) = F at hall hin hnd
    cases F with
    | nil => simp at hin
    | cons a t =>
      have ha := hall a (by simp)
      subst ha
      cases t with
      | nil => rfl
      | cons b t =>
        have hb := hall b (by simp)
        subst hb
        simp at hnd
  constructor
  · intro h
    by_cases hf : s.issues.filter (fun p => p.1.map LKey.toStr = path) = []
    · simp [hf] at h
    · obtain ⟨⟨l, es⟩, hm⟩ := List.exists_mem_of_ne_nil _ hf
      rw [List.mem_filter] at hm
      have hl : l.map LKey.toStr = path := by simpa using hm.2
      have hq := hmem l es hm.1
      have hne : s.errorsAt l ≠ [] := by rw [hq.1]; exact hq.2
      refine ⟨l, hl, hne, ?_⟩
      simp only [single l hl hne] at h
      simpa using h.symm
  · rintro ⟨l, hl, hne, rfl⟩
    simp only [single l hl hne]
    simp

example : (∀ p ∈ exIssues.issues, errorsKey ∉ p.1.map LKey.toStr) ∧
    (∀ l₁ l₂, exIssues.errorsAt l₁ ≠ [] → exIssues.errorsAt l₂ ≠ [] →
      l₁.map LKey.toStr = l₂.map LKey.toStr → l₁ = l₂) := by
  refine ⟨by decide, ?_⟩
  intro l₁ l₂ h1 h2
  rw [errorsAt_ne_nil_iff exIssues_reach.wf] at h1 h2
  revert h1 h2
  have : exIssues.issues.map (·.1) = [[.name "a".toList, .idx 0], [.name "a".toList]] := by decide
  rw [this]
  simp only [List.mem_cons, List.not_mem_nil, or_false]
  rintro (rfl | rfl) (rfl | rfl) <;> simp

/-- **C16** what `pop` leaves at the location: all issues of other codes, in order. -/
theorem C16_pop_keeps_others {s : Issues} (hs : Reach s) (loc : Loc) (code : Nat) :
    ((s.pop loc code).errorsAt loc).filter (fun e => e.code ≠ code) =
      (s.errorsAt loc).filter (fun e => e.code ≠ code) := by
  rw [errorsAt_pop_self s hs.wf.keys, popLoop_filter]

/-- **C16** `pop` adds nothing and keeps the order. -/
theorem C16_pop_sublist {s : Issues} (hs : Reach s) (loc : Loc) (code : Nat) :
    ((s.pop loc code).errorsAt loc).Sublist (s.errorsAt loc) := by
  rw [errorsAt_pop_self s hs.wf.keys]; exact popLoop_sublist _ _ _ _

/-- **C16** other locations are untouched. -/
theorem C16_pop_frame (s : Issues) (loc l : Loc) (code : Nat) (h : l ≠ loc) :
    (s.pop loc code).errorsAt l = s.errorsAt l :=
  errorsAt_pop_ne s loc l code (Ne.symm h)

/-- **C16** no issue with the code remains, provided no two adjacent issues had it. -/
theorem C16_pop_removes_partial {s : Issues} (hs : Reach s) (loc : Loc) (code : Nat)
    (hadj : ∀ a b x y, s.errorsAt loc = a ++ x :: y :: b → ¬ (x.code = code ∧ y.code = code)) :
    ∀ e ∈ (s.pop loc code).errorsAt loc, e.code ≠ code := by
  rw [errorsAt_pop_self s hs.wf.keys]
  have := popLoop_noAdj code (s.errorsAt loc).length [] (s.errorsAt loc) (Nat.le_refl _)
    (by simp) hadj
  simpa using this

/-- **C16** the full claim is *false*: two adjacent issues with the code. -/
theorem C16_pop_adjacent_fails :
    ∃ s : Issues, Reach s ∧ ∃ loc code, ∃ e ∈ (s.pop loc code).errorsAt loc, e.code = code := by
  refine ⟨(({} : Issues).add ⟨29, "x".toList⟩ false []).add ⟨29, "y".toList⟩ false [],
    .add _ _ _ (.add _ _ _ .empty), [], 29, ⟨29, "y".toList⟩, by decide, rfl⟩

/-- **C16** the returned collection does not show what was removed but what is left at the location. -/
theorem C16_pop_returns_rest {s : Issues} (hs : Reach s) (loc : Loc) (code : Nat)
    (h : s.errorsAt loc ≠ []) :
    (s.popResult loc code).errorsAt [] = (s.pop loc code).errorsAt loc := by
  rw [errorsAt_pop_self s hs.wf.keys]
  unfold popResult
  cases hg : aget loc s.issues with
  | none => simp [errorsAt, hg] at h
  | some errs => simp [errorsAt, hg]

example : ∀ a b x y, exIssues.errorsAt [.name "a".toList] = a ++ x :: y :: b →
    ¬ (x.code = 14 ∧ y.code = 14) := by
  have : exIssues.errorsAt [.name "a".toList] = [⟨14, []⟩] := by decide
  rw [this]
  intro a b x y h
  have := congrArg List.length h
  simp at this
  omega

example : (exIssues.pop [.name "a".toList] 14).errorsAt [.name "a".toList] = [] ∧
    (exIssues.pop [.name "a".toList] 14).errorsAt [.name "a".toList, .idx 0] = [⟨15, []⟩] := by
  constructor <;> decide

/-- **C17** looking at a location shows exactly the issues below it. -/
theorem C17_get (s : Issues) (loc l : Loc) : (s.get loc).errorsAt l = s.errorsAt (loc ++ l) :=
  errorsAt_get s loc l

/-- **C17** and a location is blocked there when it is blocked below `loc` in the original. -/
theorem C17_get_canProceed (s : Issues) (loc l : Loc) :
    (s.get loc).canProceed [l] = false ↔
      ∃ q, q <+: l ∧ (aget (loc ++ q) s.stop).isSome = true := by
  have e : (s.get loc).canProceed [l] = (s.get loc).canProceedAt l := by simp [canProceed]
  rw [e, canProceedAt_false_iff]
  simp only [stop_get]

/-- **C17** a copy obtained by `get` can be merged without error only if every location in it has an
entry in the blocking table; a warning alone makes the merge raise `KeyError`. -/
theorem C17_get_merge_keyError :
    ∃ s : Issues, Reach s ∧ ({} : Issues).mergeCopy (s.get [.name "a".toList]) = .error .keyError := by
  exact ⟨({} : Issues).add ⟨14, []⟩ true [.name "a".toList], .add _ _ _ .empty, rfl⟩

example : (exIssues.get [.name "a".toList]).errorsAt [.idx 0] = [⟨15, []⟩] := by decide

end Scim
