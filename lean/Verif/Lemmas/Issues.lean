import Verif.Lemmas.Assoc
import Verif.Spec.Issues

/-! Helper lemmas about issue collections. -/

namespace Scim.Issues

theorem mem_unionCodes (a b : List Nat) (c : Nat) : c ∈ unionCodes a b ↔ c ∈ a ∨ c ∈ b := by
  unfold unionCodes
  induction b generalizing a with
  | nil => simp
  | cons x r ih =>
    simp only [List.foldl_cons, ih]
    by_cases h : x ∈ a
    · simp only [h, ↓reduceIte, List.mem_cons]
      constructor
      · rintro (h' | h') <;> simp [h']
      · rintro (h' | rfl | h') <;> simp [*]
    · simp only [h, ↓reduceIte, List.mem_append, List.mem_cons, List.not_mem_nil,
        or_false, or_assoc]

theorem nodup_unionCodes (a b : List Nat) (h : a.Nodup) : (unionCodes a b).Nodup := by
  unfold unionCodes
  induction b generalizing a with
  | nil => simpa
  | cons x r ih =>
    simp only [List.foldl_cons]
    apply ih
    split
    · exact h
    · rename_i hx
      rw [List.nodup_append]
      refine ⟨h, by simp, ?_⟩
      intro u hu v hv e
      simp at hv; subst hv; subst e; exact hx hu

theorem WF.empty : WF {} := by constructor <;> simp

theorem errorsAt_ne_nil_iff {s : Issues} (h : WF s) (l : Loc) :
    s.errorsAt l ≠ [] ↔ l ∈ s.issues.map (·.1) := by
  unfold errorsAt
  rw [← aget_isSome_iff]
  constructor
  · intro h'; cases hc : aget l s.issues <;> simp_all
  · intro h'
    cases hc : aget l s.issues with
    | none => simp [hc] at h'
    | some v => simpa using h.nonempty _ (mem_of_aget hc)

theorem errorsAt_extend (s : List (Loc × List VErr)) (l l' : Loc) (es : List VErr) :
    ((aget l' (extendAt l es s)).getD []) =
      ((aget l' s).getD []) ++ (if l = l' then es else []) := by
  unfold extendAt
  rw [aget_aset]
  by_cases h : l = l'
  · subst h; simp
  · simp [h]

/-- Extending errors and blocking codes at one location keeps the invariant. -/
theorem WF.step {s : Issues} (h : WF s) (l : Loc) (es : List VErr) (hes : es ≠ [])
    (codes : List Nat) (hc : ∀ c ∈ codes, ∃ e ∈ es, e.code = c) (b : Bool) :
    WF { issues := extendAt l es s.issues
         stop := if b then s.stop else updateAt l codes s.stop } := by
  have hErr : ∀ q, errorsAt { issues := extendAt l es s.issues
                              stop := if b then s.stop else updateAt l codes s.stop } q
      = s.errorsAt q ++ (if l = q then es else []) := by
    intro q; exact errorsAt_extend _ _ _ _
  refine ⟨nodup_keys_aset _ _ _ h.keys, ?_, ?_, ?_, ?_, ?_⟩
  · intro p hp
    have hp' : aget p.1 (extendAt l es s.issues) = some p.2 :=
      aget_of_mem (nodup_keys_aset _ _ _ h.keys) hp
    unfold extendAt at hp'
    rw [aget_aset] at hp'
    by_cases hl : l = p.1
    · simp only [if_pos hl, Option.some.injEq] at hp'
      rw [← hp']; simp [hes]
    · simp only [if_neg hl] at hp'
      exact h.nonempty _ (mem_of_aget hp')
  · cases b
    · exact nodup_keys_aset _ _ _ h.stopKeys
    · exact h.stopKeys
  · intro q hq
    unfold extendAt
    rw [mem_keys_aset]
    cases b
    · simp only [Bool.false_eq_true, ↓reduceIte, updateAt] at hq
      rw [mem_keys_aset] at hq
      rcases hq with hq | hq
      · exact .inl hq
      · exact .inr (h.stopSub _ hq)
    · exact .inr (h.stopSub _ hq)
  · intro q cs hq c hcs
    rw [hErr]
    cases b
    · simp only [Bool.false_eq_true, ↓reduceIte, updateAt] at hq
      rw [aget_aset] at hq
      by_cases hl : l = q
      · subst hl
        simp only [↓reduceIte, Option.some.injEq] at hq
        subst hq
        rw [mem_unionCodes] at hcs
        rcases hcs with hcs | hcs
        · cases hg : aget l s.stop with
          | none => simp [hg] at hcs
          | some cs' =>
            simp only [hg, Option.getD_some] at hcs
            obtain ⟨e, he, hec⟩ := h.codesSub _ _ hg c hcs
            exact ⟨e, by simp [he], hec⟩
        · obtain ⟨e, he, hec⟩ := hc c hcs
          exact ⟨e, by simp [he], hec⟩
      · simp only [if_neg hl] at hq
        obtain ⟨e, he, hec⟩ := h.codesSub _ _ hq c hcs
        exact ⟨e, by simp [he], hec⟩
    · obtain ⟨e, he, hec⟩ := h.codesSub _ _ hq c hcs
      exact ⟨e, by simp [he], hec⟩
  · intro q cs hq
    cases b
    · simp only [Bool.false_eq_true, ↓reduceIte, updateAt] at hq
      rw [aget_aset] at hq
      by_cases hl : l = q
      · subst hl
        simp only [↓reduceIte, Option.some.injEq] at hq
        subst hq
        apply nodup_unionCodes
        cases hg : aget l s.stop with
        | none => simp
        | some cs' => simpa using h.codesNodup _ _ hg
      · simp only [if_neg hl] at hq
        exact h.codesNodup _ _ hq
    · exact h.codesNodup _ _ hq

theorem WF.add {s : Issues} (h : WF s) (e : VErr) (b : Bool) (l : Loc) : WF (s.add e b l) :=
  h.step l [e] (by simp) [e.code] (by simp) b

/-- The loop of `merge` over a list of entries. -/
def mergeLoop (st : List (Loc × List Nat)) (loc : Loc) (s : Issues)
    (L : List (Loc × List VErr)) : Issues :=
  L.foldl
    (fun acc p =>
      { issues := extendAt (loc ++ p.1) p.2 acc.issues
        stop := updateAt (loc ++ p.1) ((aget p.1 st).getD []) acc.stop }) s

theorem merge_eq (s o : Issues) (loc : Loc) : s.merge o loc = mergeLoop o.stop loc s o.issues := rfl

theorem WF.mergeLoop {s : Issues} (h : WF s) (st) (loc : Loc) (L : List (Loc × List VErr))
    (hne : ∀ p ∈ L, p.2 ≠ [])
    (hst : ∀ p ∈ L, ∀ cs, aget p.1 st = some cs → ∀ c ∈ cs, ∃ e ∈ p.2, e.code = c) :
    WF (mergeLoop st loc s L) := by
  induction L generalizing s with
  | nil => exact h
  | cons p r ih =>
    simp only [Issues.mergeLoop, List.foldl_cons]
    apply ih
    · refine h.step (loc ++ p.1) p.2 (hne p (by simp)) _ ?_ false
      intro c hc
      cases hg : aget p.1 st with
      | none => simp [hg] at hc
      | some cs =>
        simp only [hg, Option.getD_some] at hc
        exact hst p (by simp) cs hg c hc
    · intro q hq; exact hne q (by simp [hq])
    · intro q hq; exact hst q (by simp [hq])

theorem WF.merge {s o : Issues} (h : WF s) (ho : WF o) (loc : Loc) : WF (s.merge o loc) := by
  rw [merge_eq]
  apply h.mergeLoop _ _ _ ho.nonempty
  intro p hp cs hcs c hc
  obtain ⟨e, he, hec⟩ := ho.codesSub _ _ hcs c hc
  refine ⟨e, ?_, hec⟩
  have : aget p.1 o.issues = some p.2 := aget_of_mem ho.keys hp
  simpa [errorsAt, this] using he

theorem aget_filterMap_drop {β : Type} (m : List (Loc × β)) (loc l : Loc) :
    aget l (m.filterMap fun p =>
      if p.1.take loc.length = loc then some (p.1.drop loc.length, p.2) else none)
      = aget (loc ++ l) m := by
  induction m with
  | nil => rfl
  | cons p r ih =>
    obtain ⟨q, v⟩ := p
    simp only [List.filterMap_cons, aget_cons]
    by_cases h : q.take loc.length = loc
    · simp only [h, ↓reduceIte, aget_cons, ih]
      have hq : q = loc ++ q.drop loc.length := by
        conv => lhs; rw [← List.take_append_drop loc.length q, h]
      by_cases h2 : q.drop loc.length = l
      · have : q = loc ++ l := by rw [hq, h2]
        simp [h2, this]
      · have : ¬ q = loc ++ l := by
          intro e; apply h2; rw [e]; simp
        simp [h2, this]
    · have : ¬ q = loc ++ l := by
        intro e; apply h; rw [e]; simp
      simp [h, this, ih]

theorem keys_filterMap_drop {β : Type} (m : List (Loc × β)) (loc : Loc)
    (h : (m.map (·.1)).Nodup) :
    ((m.filterMap fun p =>
      if p.1.take loc.length = loc then some (p.1.drop loc.length, p.2) else none).map (·.1)).Nodup := by
  induction m with
  | nil => simp
  | cons p r ih =>
    obtain ⟨q, v⟩ := p
    simp only [List.map_cons, List.nodup_cons] at h
    simp only [List.filterMap_cons]
    by_cases hq : q.take loc.length = loc
    · simp only [hq, ↓reduceIte, List.map_cons, List.nodup_cons]
      refine ⟨?_, ih h.2⟩
      intro hm
      rw [← aget_isSome_iff, aget_filterMap_drop, aget_isSome_iff] at hm
      apply h.1
      have : q = loc ++ q.drop loc.length := by
        conv => lhs; rw [← List.take_append_drop loc.length q, hq]
      rw [this]; exact hm
    · simp only [hq, ↓reduceIte]; exact ih h.2

theorem errorsAt_get (s : Issues) (loc l : Loc) : (s.get loc).errorsAt l = s.errorsAt (loc ++ l) := by
  unfold errorsAt get
  rw [aget_filterMap_drop]

theorem stop_get (s : Issues) (loc l : Loc) : aget l (s.get loc).stop = aget (loc ++ l) s.stop := by
  unfold get
  simp only
  rw [aget_filterMap_drop]

theorem WF.get {s : Issues} (h : WF s) (loc : Loc) : WF (s.get loc) := by
  refine ⟨keys_filterMap_drop _ _ h.keys, ?_, keys_filterMap_drop _ _ h.stopKeys, ?_, ?_, ?_⟩
  · intro p hp
    unfold Issues.get at hp
    simp only [List.mem_filterMap] at hp
    obtain ⟨q, hq, he⟩ := hp
    split at he
    · simp only [Option.some.injEq] at he
      rw [← he]; exact h.nonempty q hq
    · simp at he
  · intro q hq
    rw [← aget_isSome_iff, stop_get, aget_isSome_iff] at hq
    rw [← aget_isSome_iff]
    unfold Issues.get
    simp only
    rw [aget_filterMap_drop, aget_isSome_iff]
    exact h.stopSub _ hq
  · intro q cs hq c hc
    rw [stop_get] at hq
    rw [errorsAt_get]
    exact h.codesSub _ _ hq c hc
  · intro q cs hq
    rw [stop_get] at hq
    exact h.codesNodup _ _ hq

/-! ### `pop` -/

theorem filter_erase_of_not {e : VErr} (code : Nat) (l : List VErr) (h : e.code = code) :
    (l.erase e).filter (fun x => x.code ≠ code) = l.filter (fun x => x.code ≠ code) := by
  induction l with
  | nil => rfl
  | cons a r ih =>
    rw [List.erase_cons]
    by_cases hb : a = e
    · subst hb; simp [h]
    · simp only [beq_iff_eq, hb, ↓reduceIte, List.filter_cons, ih]

theorem popLoop_filter (code : Nat) (fuel i : Nat) (l : List VErr) :
    (popLoop code fuel i l).filter (fun x => x.code ≠ code) = l.filter (fun x => x.code ≠ code) := by
  induction fuel generalizing i l with
  | zero => rfl
  | succ n ih =>
    unfold popLoop
    split
    · rfl
    · split
      · rename_i he
        rw [ih, filter_erase_of_not _ _ he]
      · exact ih _ _

theorem popLoop_sublist (code : Nat) (fuel i : Nat) (l : List VErr) :
    (popLoop code fuel i l).Sublist l := by
  induction fuel generalizing i l with
  | zero => exact List.Sublist.refl _
  | succ n ih =>
    unfold popLoop
    split
    · exact List.Sublist.refl _
    · split
      · exact (ih _ _).trans List.erase_sublist
      · exact ih _ _

theorem errorsAt_pop_ne (s : Issues) (l l' : Loc) (code : Nat) (h : l ≠ l') :
    (s.pop l code).errorsAt l' = s.errorsAt l' := by
  unfold pop errorsAt
  split
  · rfl
  · simp only
    split
    · rw [aget_adel_ne h]
    · rw [aget_aset_ne h]

theorem errorsAt_pop_self (s : Issues) (hk : (s.issues.map (·.1)).Nodup) (l : Loc) (code : Nat) :
    (s.pop l code).errorsAt l = popLoop code (s.errorsAt l).length 0 (s.errorsAt l) := by
  unfold pop errorsAt
  split
  · rename_i h; simp [h, popLoop]
  · rename_i errs h
    simp only [h, Option.getD_some]
    split
    · rename_i he
      rw [aget_adel_self hk]
      simp only [List.isEmpty_iff] at he
      simp [he]
    · simp

/-- Blocking codes left after `pop`. -/
def leftCodes (s : Issues) (l : Loc) (code : Nat) (cs : List Nat) : List Nat :=
  if popHits code (s.errorsAt l) then cs.erase code else cs

/-- Blocking codes after `pop`. -/
theorem stop_pop (s : Issues) (hk : (s.stop.map (·.1)).Nodup) (l l' : Loc) (code : Nat) :
    aget l' (s.pop l code).stop =
      if l = l' ∧ l ∈ s.issues.map (·.1) then
        match aget l s.stop with
        | none => none
        | some cs =>
          if leftCodes s l code cs = [] then none else some (leftCodes s l code cs)
      else aget l' s.stop := by
  unfold pop
  cases h : aget l s.issues with
  | none =>
    have : l ∉ s.issues.map (·.1) := aget_eq_none_iff.1 h
    simp [this]
  | some errs =>
    have hm : l ∈ s.issues.map (·.1) := by rw [← aget_isSome_iff, h]; rfl
    by_cases hl : l = l'
    · subst hl
      have hlc : ∀ cs, leftCodes s l code cs = if popHits code errs then cs.erase code else cs := by
        intro cs; simp [leftCodes, errorsAt, h]
      simp only [hlc, hm, and_self, ↓reduceIte]
      cases hs : aget l s.stop with
      | none =>
        by_cases hp : popHits code errs = true
        · simp [hp, hs]
        · simp [hp, hs]
      | some cs =>
        by_cases hp : popHits code errs = true
        · simp only [hp, ↓reduceIte, aget_aset_self]
          split
          · rename_i he
            simp only [Option.some.injEq] at he
            rw [aget_adel_self (nodup_keys_aset _ _ _ hk)]
            simp [he]
          · rename_i he
            rw [aget_aset_self]
            have : cs.erase code ≠ [] := fun e => he (by rw [e])
            simp [this]
        · simp only [hp, Bool.false_eq_true, ↓reduceIte]
          split
          · rename_i he
            rw [hs] at he
            simp only [Option.some.injEq] at he
            rw [aget_adel_self hk]
            simp [he]
          · rename_i he
            rw [hs] at he ⊢
            have : cs ≠ [] := fun e => he (by rw [e])
            simp [this]
    · simp only [hl, false_and, ↓reduceIte]
      have key : ∀ m : List (Loc × List Nat), aget l' m = aget l' s.stop →
          aget l' (match aget l m with
            | some [] => adel l m
            | _ => m) = aget l' s.stop := by
        intro m hm'
        split
        · rw [aget_adel_ne hl]; exact hm'
        · exact hm'
      apply key
      split
      · split
        · rw [aget_aset_ne hl]
        · rfl
      · rfl

theorem keys_pop_stop (s : Issues) (hk : (s.stop.map (·.1)).Nodup) (l : Loc) (code : Nat) :
    ((s.pop l code).stop.map (·.1)).Nodup := by
  unfold pop
  split
  · exact hk
  · simp only
    have h1 : ∀ m : List (Loc × List Nat), (m.map (·.1)).Nodup →
        ((match aget l m with
            | some [] => adel l m
            | _ => m).map (fun (x : Loc × List Nat) => x.1)).Nodup := by
      intro m hm
      split
      · exact nodup_keys_adel _ _ hm
      · exact hm
    apply h1
    split
    · split
      · exact nodup_keys_aset _ _ _ hk
      · exact hk
    · exact hk

theorem popHits_iff {code : Nat} {l : List VErr} : popHits code l = true ↔ ∃ e ∈ l, e.code = code := by
  simp [popHits]

theorem WF.pop {s : Issues} (h : WF s) (l : Loc) (code : Nat) : WF (s.pop l code) := by
  have hkeys : ((s.pop l code).issues.map (·.1)).Nodup := by
    unfold Issues.pop
    split
    · exact h.keys
    · simp only
      split
      · exact nodup_keys_adel _ _ h.keys
      · exact nodup_keys_aset _ _ _ h.keys
  have hne : ∀ p ∈ (s.pop l code).issues, p.2 ≠ [] := by
    intro p hp
    have hp' : aget p.1 (s.pop l code).issues = some p.2 := aget_of_mem hkeys hp
    unfold Issues.pop at hp'
    split at hp'
    · exact h.nonempty _ (mem_of_aget hp')
    · simp only at hp'
      split at hp'
      · by_cases hl : l = p.1
        · subst hl
          rw [aget_adel_self h.keys] at hp'; cases hp'
        · rw [aget_adel_ne hl] at hp'
          exact h.nonempty _ (mem_of_aget hp')
      · rename_i he
        rw [aget_aset] at hp'
        split at hp'
        · simp only [Option.some.injEq] at hp'
          rw [← hp']; simpa using he
        · exact h.nonempty _ (mem_of_aget hp')
  have hcodes : ∀ q cs, aget q (s.pop l code).stop = some cs →
      ∀ c ∈ cs, ∃ e ∈ (s.pop l code).errorsAt q, e.code = c := by
    intro q cs hq c hc
    rw [stop_pop s h.stopKeys] at hq
    split at hq
    · rename_i hlq
      obtain ⟨rfl, hm⟩ := hlq
      split at hq
      · cases hq
      · rename_i cs0 hs0
        split at hq
        · cases hq
        · simp only [Option.some.injEq] at hq
          subst hq
          unfold leftCodes at hc
          have hc0 : c ∈ cs0 := by
            split at hc
            · exact List.mem_of_mem_erase hc
            · exact hc
          obtain ⟨e, he, hec⟩ := h.codesSub _ _ hs0 c hc0
          have hcne : c ≠ code := by
            intro e'
            subst e'
            have hit : popHits c (s.errorsAt l) = true := popHits_iff.2 ⟨e, he, hec⟩
            rw [if_pos hit] at hc
            exact (List.Nodup.mem_erase_iff (h.codesNodup _ _ hs0)).1 hc |>.1 rfl
          refine ⟨e, ?_, hec⟩
          rw [errorsAt_pop_self s h.keys]
          have : e ∈ (popLoop code (s.errorsAt l).length 0 (s.errorsAt l)).filter
              (fun x => x.code ≠ code) := by
            rw [popLoop_filter]
            simp [he, hec, hcne]
          exact (List.mem_filter.1 this).1
    · rename_i hlq
      obtain ⟨e, he, hec⟩ := h.codesSub _ _ hq c hc
      refine ⟨e, ?_, hec⟩
      by_cases hl : l = q
      · subst hl
        have hno : l ∉ s.issues.map (·.1) := fun hm => hlq ⟨rfl, hm⟩
        exfalso
        apply hno
        apply h.stopSub
        rw [← aget_isSome_iff, hq]; rfl
      · rw [errorsAt_pop_ne _ _ _ _ hl]; exact he
  refine ⟨hkeys, hne, keys_pop_stop s h.stopKeys l code, ?_, hcodes, ?_⟩
  · intro q hq
    rw [← aget_isSome_iff] at hq
    cases hg : aget q (s.pop l code).stop with
    | none => simp [hg] at hq
    | some cs =>
      have hg' := hg
      rw [stop_pop s h.stopKeys] at hg
      split at hg
      · rename_i hlq
        obtain ⟨rfl, hm⟩ := hlq
        split at hg
        · cases hg
        · split at hg
          · cases hg
          · rename_i hcs
            simp only [Option.some.injEq] at hg
            obtain ⟨c, hc⟩ := List.exists_mem_of_ne_nil _ hcs
            rw [hg] at hc
            obtain ⟨e, he, _⟩ := hcodes _ _ hg' c hc
            rw [← aget_isSome_iff]
            unfold Issues.errorsAt at he
            cases hi : aget l (s.pop l code).issues with
            | none => simp [hi] at he
            | some _ => rfl
      · rename_i hlq
        have hmem : q ∈ s.issues.map (·.1) := by
          apply h.stopSub; rw [← aget_isSome_iff, hg]; rfl
        have hl : l ≠ q := by
          intro e; subst e; exact hlq ⟨rfl, hmem⟩
        rw [← errorsAt_ne_nil_iff h] at hmem
        rw [← errorsAt_pop_ne s l q code hl] at hmem
        rw [← aget_isSome_iff]
        unfold Issues.errorsAt at hmem
        cases hi : aget q (s.pop l code).issues with
        | none => simp [hi] at hmem
        | some _ => rfl
  · intro q cs hq
    rw [stop_pop s h.stopKeys] at hq
    split at hq
    · split at hq
      · cases hq
      · rename_i cs0 hs0
        split at hq
        · cases hq
        · simp only [Option.some.injEq] at hq
          subst hq
          unfold leftCodes
          split
          · exact (h.codesNodup _ _ hs0).erase _
          · exact h.codesNodup _ _ hs0
    · exact h.codesNodup _ _ hq

theorem Reach.wf {s : Issues} (h : Reach s) : WF s := by
  induction h with
  | empty => exact WF.empty
  | add e b l _ ih => exact ih.add e b l
  | merge l _ _ ih1 ih2 => exact ih1.merge ih2 l
  | pop l c _ ih => exact ih.pop l c
  | get l _ ih => exact ih.get l

/-! ### `merge` -/

theorem prefix_eq_append {loc l : Loc} (h : loc <+: l) : loc ++ l.drop loc.length = l := by
  obtain ⟨t, rfl⟩ := h; simp

theorem errorsAt_mergeLoop (st) (loc : Loc) (s : Issues) (L : List (Loc × List VErr))
    (hL : (L.map (·.1)).Nodup) (l : Loc) :
    (mergeLoop st loc s L).errorsAt l =
      s.errorsAt l ++ (if loc <+: l then (aget (l.drop loc.length) L).getD [] else []) := by
  induction L generalizing s with
  | nil => simp [mergeLoop]
  | cons p r ih =>
    obtain ⟨q, es⟩ := p
    simp only [List.map_cons, List.nodup_cons] at hL
    simp only [mergeLoop, List.foldl_cons]
    have := ih { issues := extendAt (loc ++ q) es s.issues
                 stop := updateAt (loc ++ q) ((aget q st).getD []) s.stop } hL.2
    simp only [mergeLoop] at this
    rw [this]
    unfold errorsAt
    simp only [errorsAt_extend, aget_cons]
    by_cases hp : loc <+: l
    · simp only [hp, ↓reduceIte]
      have hl := prefix_eq_append hp
      by_cases hq : q = l.drop loc.length
      · have : loc ++ q = l := by rw [hq, hl]
        have hn : aget (l.drop loc.length) r = none := by
          rw [aget_eq_none_iff, ← hq]; exact hL.1
        simp [this, hq, hl, hn]
      · have : ¬ loc ++ q = l := by
          intro e; apply hq; rw [← e]; simp
        simp [this, hq]
    · have : ¬ loc ++ q = l := by
        intro e; apply hp; rw [← e]; simp
      simp [hp, this]

theorem stop_mergeLoop_isSome (st) (loc : Loc) (s : Issues) (L : List (Loc × List VErr)) (l : Loc) :
    (aget l (mergeLoop st loc s L).stop).isSome ↔
      (aget l s.stop).isSome ∨ ∃ m ∈ L.map (·.1), loc ++ m = l := by
  induction L generalizing s with
  | nil => simp [mergeLoop]
  | cons p r ih =>
    simp only [mergeLoop, List.foldl_cons]
    have := ih { issues := extendAt (loc ++ p.1) p.2 s.issues
                 stop := updateAt (loc ++ p.1) ((aget p.1 st).getD []) s.stop }
    simp only [mergeLoop] at this
    rw [this]
    simp only [updateAt, aget_aset, List.map_cons, List.mem_cons, exists_eq_or_imp]
    by_cases h : loc ++ p.1 = l
    · simp [h]
    · simp [h]

theorem issues_merge_isSome (s o : Issues) (loc l : Loc) :
    (aget l (s.merge o loc).issues).isSome ↔ (aget l s.issues).isSome ∨ ∃ m ∈ o.issues.map (·.1), loc ++ m = l := by
  rw [merge_eq]
  generalize o.stop = st
  generalize o.issues = L
  induction L generalizing s with
  | nil => simp [mergeLoop]
  | cons p r ih =>
    simp only [mergeLoop, List.foldl_cons]
    have := ih { issues := extendAt (loc ++ p.1) p.2 s.issues
                 stop := updateAt (loc ++ p.1) ((aget p.1 st).getD []) s.stop }
    simp only [mergeLoop] at this
    rw [this]
    simp only [extendAt, aget_aset, List.map_cons, List.mem_cons, exists_eq_or_imp]
    by_cases h : loc ++ p.1 = l
    · simp [h]
    · simp [h]

/-! ### `can_proceed` -/

theorem canProceedAt_iff (s : Issues) (l : Loc) :
    s.canProceedAt l = true ↔ ∀ q, q <+: l → aget q s.stop = none := by
  unfold canProceedAt
  simp only [List.all_eq_true, List.mem_range, Option.isNone_iff_eq_none]
  constructor
  · intro h q hq
    obtain ⟨t, rfl⟩ := hq
    have := h q.length (by simp; omega)
    simpa using this
  · intro h i _
    exact h _ (List.take_prefix _ _)

theorem canProceedAt_false_iff (s : Issues) (l : Loc) :
    s.canProceedAt l = false ↔ ∃ q, q <+: l ∧ (aget q s.stop).isSome := by
  rw [← Bool.not_eq_true, canProceedAt_iff]
  constructor
  · intro h
    apply Classical.byContradiction
    intro hn
    apply h
    intro q hq
    cases hg : aget q s.stop with
    | none => rfl
    | some v => exact absurd ⟨q, hq, by simp [hg]⟩ hn
  · rintro ⟨q, hq, hs⟩ h
    rw [h q hq] at hs; simp at hs

theorem hasIssuesAt_iff {s : Issues} (h : WF s) (l : Loc) :
    s.hasIssuesAt l = true ↔ ∃ m, l <+: m ∧ s.errorsAt m ≠ [] := by
  unfold hasIssuesAt
  simp only [List.any_eq_true, decide_eq_true_eq]
  constructor
  · rintro ⟨p, hp, ht⟩
    refine ⟨p.1, ?_, (errorsAt_ne_nil_iff h _).2 (List.mem_map.2 ⟨p, hp, rfl⟩)⟩
    rw [← ht]; exact List.take_prefix _ _
  · rintro ⟨m, hm, he⟩
    rw [errorsAt_ne_nil_iff h] at he
    obtain ⟨p, hp, rfl⟩ := List.mem_map.1 he
    refine ⟨p, hp, ?_⟩
    obtain ⟨t, ht⟩ := hm
    rw [← ht]; simp

end Scim.Issues

namespace Scim.Issues

/-- With no two adjacent issues of the code, the loop of `pop` removes all of them. -/
theorem popLoop_noAdj (code : Nat) (fuel : Nat) (done rest : List VErr) (hf : rest.length ≤ fuel)
    (hd : ∀ e ∈ done, e.code ≠ code)
    (hadj : ∀ a b x y, rest = a ++ x :: y :: b → ¬ (x.code = code ∧ y.code = code)) :
    ∀ e ∈ popLoop code fuel done.length (done ++ rest), e.code ≠ code := by
  induction fuel generalizing done rest with
  | zero =>
    have : rest = [] := by cases rest <;> simp_all
    subst this
    simpa [popLoop] using hd
  | succ n ih =>
    unfold popLoop
    cases rest with
    | nil => simpa using hd
    | cons x r =>
      have hx : (done ++ x :: r)[done.length]? = some x := by simp
      simp only [hx]
      by_cases hc : x.code = code
      · simp only [hc, ↓reduceIte]
        have herase : (done ++ x :: r).erase x = done ++ r := by
          rw [List.erase_append_right _ (fun hm => hd x hm hc)]
          simp
        rw [herase]
        cases r with
        | nil =>
          have : done ++ [] = done := by simp
          rw [this]
          intro e he
          exact hd e ((popLoop_sublist _ _ _ _).subset he)
        | cons y r' =>
          have hy : y.code ≠ code := fun h => hadj [] r' x y rfl ⟨hc, h⟩
          have key := ih (done ++ [y]) r' (by simp at hf; omega)
            (by intro e he; simp at he; rcases he with he | rfl; exact hd e he; exact hy)
            (by intro a b u v h; exact hadj (x :: y :: a) b u v (by simp [h]))
          simpa using key
      · simp only [hc, ↓reduceIte]
        have key := ih (done ++ [x]) r (by simp at hf; omega)
            (by intro e he; simp at he; rcases he with he | rfl; exact hd e he; exact hc)
            (by intro a b u v h; exact hadj (x :: a) b u v (by simp [h]))
        simpa using key

end Scim.Issues

namespace Scim

/-- Reports in which `_errors` is a list and every other member a dictionary. -/
inductive Report.Good : Report → Prop
  | mk (kvs : List (Str × Report))
      (h1 : ∀ v, aget errorsKey kvs = some v → ∃ cs, v = .codes cs)
      (h2 : ∀ k v, k ≠ errorsKey → aget k kvs = some v → Good v) : Good (.dict kvs)

theorem Report.Good.empty : Report.Good (.dict []) := .mk _ (by simp) (by simp)

theorem Report.insert_good (cs : List Nat) (path : List Str) (hp : errorsKey ∉ path) (r : Report)
    (hr : r.Good) :
    ∃ r', r.insert cs path = .ok r' ∧ r'.Good ∧
      ∀ path', errorsKey ∉ path' → r'.errorsAt path' =
        if path = path' then some ((r.errorsAt path).getD [] ++ cs) else r.errorsAt path' := by
  induction path generalizing r with
  | nil =>
    cases hr with
    | mk kvs h1 h2 =>
    simp only [insert, append]
    have hgood : ∀ cs', Good (.dict (aset errorsKey (.codes cs') kvs)) := by
      intro cs'
      refine .mk _ ?_ ?_
      · intro v hv; rw [aget_aset_self] at hv; cases hv; exact ⟨_, rfl⟩
      · intro k v hk hv; rw [aget_aset_ne (Ne.symm hk)] at hv; exact h2 k v hk hv
    have hother : ∀ cs' path', errorsKey ∉ path' → [] ≠ path' →
        errorsAt path' (.dict (aset errorsKey (.codes cs') kvs)) = errorsAt path' (.dict kvs) := by
      intro cs' path' hp' hne
      cases path' with
      | nil => exact absurd rfl hne
      | cons p ps =>
        simp only [List.mem_cons, not_or] at hp'
        simp only [errorsAt]
        rw [aget_aset_ne hp'.1]
    cases hg : aget errorsKey kvs with
    | none =>
      refine ⟨_, rfl, hgood _, ?_⟩
      intro path' hp'
      by_cases he : [] = path'
      · subst he; simp [errorsAt, hg]
      · simp only [he, ↓reduceIte]; exact hother _ _ hp' he
    | some v =>
      obtain ⟨old, rfl⟩ := h1 v hg
      refine ⟨_, rfl, hgood _, ?_⟩
      intro path' hp'
      by_cases he : [] = path'
      · subst he; simp [errorsAt, hg]
      · simp only [he, ↓reduceIte]; exact hother _ _ hp' he
  | cons p ps ih =>
    simp only [List.mem_cons, not_or] at hp
    cases hr with
    | mk kvs h1 h2 =>
    have hsub : Good ((aget p kvs).getD (.dict [])) := by
      cases hg : aget p kvs with
      | none => exact Good.empty
      | some v => exact h2 p v (Ne.symm hp.1) hg
    obtain ⟨r', he, hgd, hat⟩ := ih hp.2 _ hsub
    refine ⟨.dict (aset p r' kvs), by simp [insert, he], ?_, ?_⟩
    · refine .mk _ ?_ ?_
      · intro v hv; rw [aget_aset_ne (Ne.symm hp.1)] at hv; exact h1 v hv
      · intro k v hk hv
        rw [aget_aset] at hv
        split at hv
        · cases hv; exact hgd
        · exact h2 k v hk hv
    · intro path' hp'
      have hnil : ∀ ps, errorsAt ps (.dict []) = none := by
        intro ps; cases ps <;> simp [errorsAt]
      cases path' with
      | nil =>
        simp only [reduceCtorEq, ↓reduceIte, errorsAt]
        rw [aget_aset_ne (Ne.symm hp.1)]
      | cons q qs =>
        simp only [List.mem_cons, not_or] at hp'
        simp only [errorsAt, aget_aset]
        by_cases hq : p = q
        · subst hq
          simp only [↓reduceIte, Option.bind_some, hat qs hp'.2, List.cons.injEq, true_and]
          cases hg : aget p kvs with
          | none => simp [hnil]
          | some v => simp
        · simp [hq]

theorem reportLoop_spec (L : List (Loc × List VErr)) (r : Report) (hr : r.Good)
    (hL : ∀ p ∈ L, errorsKey ∉ p.1.map LKey.toStr) :
    ∃ r', reportLoop L r = .ok r' ∧
      ∀ path, errorsKey ∉ path → r'.errorsAt path =
        if L.filter (fun p => p.1.map LKey.toStr = path) = [] then r.errorsAt path
        else some ((r.errorsAt path).getD [] ++
          (L.filter (fun p => p.1.map LKey.toStr = path)).flatMap (fun p => p.2.map (·.code))) := by
  induction L generalizing r with
  | nil => exact ⟨r, rfl, by simp⟩
  | cons p L ih =>
    obtain ⟨loc, errs⟩ := p
    obtain ⟨r1, he1, hg1, hat1⟩ :=
      Report.insert_good (errs.map (·.code)) (loc.map LKey.toStr) (hL (loc, errs) (by simp)) r hr
    obtain ⟨r2, he2, hat2⟩ := ih r1 hg1 (fun p hp => hL p (by simp [hp]))
    refine ⟨r2, by simp [reportLoop, he1, he2], ?_⟩
    intro path hp
    rw [hat2 path hp, hat1 path hp]
    by_cases h : loc.map LKey.toStr = path
    · subst h
      simp only [↓reduceIte, List.filter_cons, decide_true, List.flatMap_cons, reduceCtorEq,
        Option.getD_some]
      split
      · rename_i hn; simp [hn]
      · simp
    · have hf : List.filter (fun p => decide (p.1.map LKey.toStr = path)) ((loc, errs) :: L)
          = List.filter (fun p => decide (p.1.map LKey.toStr = path)) L :=
        List.filter_cons_of_neg (by simpa using h)
      rw [hf, if_neg h]

end Scim
