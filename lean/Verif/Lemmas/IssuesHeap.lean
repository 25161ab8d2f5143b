import Verif.Lemmas.Issues
import Verif.Spec.IssuesHeap

/-! Helper lemmas about issue collections that share lists and sets. -/

namespace Scim

namespace Store
variable {α : Type}

/-- The invariant of the stores: every dictionary has distinct keys and distinct existing lists (or sets),
and collections of different origin hold different lists (or sets). -/
structure Inv (s : Store α) (org : List Nat) : Prop where
  len : org.length = s.tabs.length
  keys : ∀ i, ((s.tab i).map (·.1)).Nodup
  bound : ∀ i, ∀ p ∈ s.tab i, p.2 < s.cells.length
  own : ∀ i, ((s.tab i).map (·.2)).Nodup
  apart : ∀ i j, org[i]? ≠ org[j]? → ∀ p ∈ s.tab i, ∀ q ∈ s.tab j, p.2 ≠ q.2

theorem tab_set (c : List (List α)) (tabs : List (List (Loc × Nat))) (o : Nat) (t : List (Loc × Nat)) (j : Nat) :
    tab { cells := c, tabs := tabs.set o t } j = if j = o ∧ o < tabs.length then t else ((tabs[j]?).getD []) := by
  unfold tab
  simp only [List.getElem?_set]
  by_cases h : j = o
  · subst h
    by_cases hl : j < tabs.length
    · simp [hl]
    · simp only [↓reduceIte, hl, and_false, Option.getD_none]
      rw [List.getElem?_eq_none (by omega)]; rfl
  · have h' : ¬ o = j := fun e => h e.symm
    simp [h, h']

theorem tab_of_ge {s : Store α} {o : Nat} (h : s.tabs.length ≤ o) : s.tab o = [] := by
  unfold tab; rw [List.getElem?_eq_none h]; rfl

theorem tab_lt {s : Store α} {o : Nat} {l : Loc} {r : Nat} (h : aget l (s.tab o) = some r) : o < s.tabs.length := by
  apply Classical.byContradiction
  intro hc
  rw [tab_of_ge (by omega)] at h
  cases h

theorem cell_write (s : Store α) (r r' : Nat) (v : List α) :
    (s.write r v).cell r' = if r' = r ∧ r < s.cells.length then v else s.cell r' := by
  unfold write cell
  simp only [List.getElem?_set]
  by_cases h : r' = r
  · subst h
    by_cases hl : r' < s.cells.length
    · simp [hl]
    · simp only [↓reduceIte, hl, and_false, Option.getD_none]
      rw [List.getElem?_eq_none (by omega)]; rfl
  · have h' : ¬ r = r' := fun e => h e.symm
    simp [h, h']

@[simp] theorem tab_write (s : Store α) (r : Nat) (v : List α) (o : Nat) : (s.write r v).tab o = s.tab o := rfl

theorem Inv.write {s : Store α} {org} (h : s.Inv org) (r : Nat) (v : List α) : (s.write r v).Inv org :=
  ⟨h.len, h.keys, by
    intro i p hp
    have := h.bound i p hp
    simpa [Store.write] using this, h.own, h.apart⟩

/-- Looking up a location in what a caller sees. -/
theorem aget_map {β γ : Type} (f : β → γ) (l : Loc) (t : List (Loc × β)) :
    aget l (t.map fun p => (p.1, f p.2)) = (aget l t).map f := by
  induction t with
  | nil => rfl
  | cons p t ih =>
    obtain ⟨k, v⟩ := p
    simp only [List.map_cons, aget_cons, ih]
    split <;> rfl

theorem aget_val (s : Store α) (o : Nat) (l : Loc) : aget l (s.val o) = (aget l (s.tab o)).map s.cell := by
  unfold val; exact aget_map _ _ _

theorem keys_val (s : Store α) (o : Nat) : (s.val o).map (·.1) = (s.tab o).map (·.1) := by
  unfold val; simp [List.map_map, Function.comp_def]

/-- A collection that does not hold the list does not see it change. -/
theorem val_write_other (s : Store α) (r : Nat) (v : List α) (j : Nat) (h : ∀ p ∈ s.tab j, p.2 ≠ r) :
    (s.write r v).val j = s.val j := by
  unfold val
  rw [tab_write]
  apply List.map_congr_left
  intro p hp
  rw [cell_write, if_neg (fun hc => h p hp hc.1)]

/-- A change of the list stored for a location is seen as an assignment to this location. -/
theorem val_write {s : Store α} {org} (h : s.Inv org) {o : Nat} {l : Loc} {r : Nat}
    (hr : aget l (s.tab o) = some r) (v : List α) : (s.write r v).val o = aset l v (s.val o) := by
  have hk := h.keys o
  have ho := h.own o
  have hb := h.bound o
  unfold val
  rw [tab_write]
  generalize s.tab o = t at hk ho hb hr
  induction t with
  | nil => cases hr
  | cons p t ih =>
    obtain ⟨k, q⟩ := p
    simp only [List.map_cons, List.nodup_cons] at hk ho
    rw [aget_cons] at hr
    simp only [List.map_cons, aset_cons]
    by_cases hkl : k = l
    · rw [if_pos hkl] at hr
      cases hr
      rw [if_pos hkl, cell_write, if_pos ⟨rfl, hb _ (List.mem_cons_self ..)⟩]
      congr 1
      apply List.map_congr_left
      intro p hp
      rw [cell_write, if_neg]
      rintro ⟨e, -⟩
      exact ho.1 (List.mem_map.2 ⟨p, hp, e⟩)
    · rw [if_neg hkl] at hr
      rw [if_neg hkl]
      have hne : q ≠ r := by
        intro e
        subst e
        exact ho.1 (List.mem_map.2 ⟨_, mem_of_aget hr, rfl⟩)
      rw [cell_write, if_neg (fun hc => hne hc.1)]
      congr 1
      exact ih hk.2 ho.2 (fun p hp => hb p (List.mem_cons_of_mem _ hp)) hr

/-- A plain dictionary lookup that finds its key, and a `defaultdict` lookup in general. -/
theorem fetch_found {s : Store α} {auto : Bool} {o : Nat} {l : Loc} {r : Nat} (h : aget l (s.tab o) = some r) :
    s.fetch auto o l = (s, .ok r) := by
  unfold fetch; rw [h]

theorem fetch_plain {s : Store α} {o : Nat} {l : Loc} (h : aget l (s.tab o) = none) :
    s.fetch false o l = (s, .error .keyError) := by
  unfold fetch; rw [h]; rfl

theorem fetch_new {s : Store α} {o : Nat} {l : Loc} (h : aget l (s.tab o) = none) :
    s.fetch true o l =
      ({ cells := s.cells ++ [[]], tabs := s.tabs.set o (s.tab o ++ [(l, s.cells.length)]) }, .ok s.cells.length) := by
  unfold fetch; rw [h]; rfl

theorem aget_append_new {β : Type} {l l' : Loc} {t : List (Loc × β)} {v : β} (h : aget l t = none) :
    aget l' (t ++ [(l, v)]) = if l = l' then some v else aget l' t := by
  induction t with
  | nil => simp [aget_cons]
  | cons p t ih =>
    obtain ⟨k, w⟩ := p
    rw [aget_cons] at h
    by_cases hk : k = l
    · rw [if_pos hk] at h; cases h
    · rw [if_neg hk] at h
      simp only [List.cons_append, aget_cons, ih h]
      by_cases hkl : k = l'
      · subst hkl
        rw [if_pos rfl, if_neg (fun e => hk e.symm), if_pos rfl]
      · simp [hkl]

theorem aset_new {β : Type} {l : Loc} {t : List (Loc × β)} {v : β} (h : aget l t = none) :
    aset l v t = t ++ [(l, v)] := by
  induction t with
  | nil => rfl
  | cons p t ih =>
    obtain ⟨k, w⟩ := p
    rw [aget_cons] at h
    by_cases hk : k = l
    · rw [if_pos hk] at h; cases h
    · rw [if_neg hk] at h
      rw [aset_cons, if_neg hk, ih h]; rfl

theorem aset_aset' {β : Type} (l : Loc) (v w : β) (t : List (Loc × β)) : aset l v (aset l w t) = aset l v t := by
  induction t with
  | nil => simp [aset]
  | cons p t ih =>
    obtain ⟨k, x⟩ := p
    by_cases hk : k = l
    · simp [aset_cons, hk]
    · simp [aset_cons, hk, ih]

theorem aset_same {β : Type} {l : Loc} {v : β} {t : List (Loc × β)} (h : aget l t = some v) : aset l v t = t := by
  induction t with
  | nil => cases h
  | cons p t ih =>
    obtain ⟨k, x⟩ := p
    rw [aget_cons] at h
    by_cases hk : k = l
    · rw [if_pos hk] at h; cases h; simp [aset_cons, hk]
    · rw [if_neg hk] at h; simp [aset_cons, hk, ih h]

/-- What a lookup `d[l]` in the dictionary of collection `o` does: it finds or creates the list `r`. -/
structure Fetched (s : Store α) (org : List Nat) (o : Nat) (l : Loc) (s' : Store α) (r : Nat) : Prop where
  inv : s'.Inv org
  here : aget l (s'.tab o) = some r
  cell : s'.cell r = (aget l (s.val o)).getD []
  val : s'.val o = aset l ((aget l (s.val o)).getD []) (s.val o)
  tabs : ∀ j, j ≠ o → s'.tab j = s.tab j
  vals : ∀ j, j ≠ o → s'.val j = s.val j
  old : ∀ q, q < s.cells.length → s'.cell q = s.cell q
  size : s'.tabs.length = s.tabs.length
  grow : s.cells.length ≤ s'.cells.length
  foreign : ∀ j, org[j]? ≠ org[o]? → ∀ p ∈ s.tab j, p.2 ≠ r
  keep : ∀ l' q, aget l' (s.tab o) = some q → aget l' (s'.tab o) = some q
  fresh : ∀ q, s.cells.length ≤ q → s'.cell q = []

theorem fetched_found {s : Store α} {org} (h : s.Inv org) {o : Nat} {l : Loc} {r : Nat}
    (hr : aget l (s.tab o) = some r) : Fetched s org o l s r := by
  have hv : aget l (s.val o) = some (s.cell r) := by rw [aget_val, hr]; rfl
  refine ⟨h, hr, by rw [hv]; rfl, by rw [hv]; exact (aset_same hv).symm, fun _ _ => rfl, fun _ _ => rfl,
    fun _ _ => rfl, rfl, Nat.le_refl _, ?_, fun _ _ h => h, ?_⟩
  · intro j hj p hp
    exact h.apart j o hj p hp _ (mem_of_aget hr)
  · intro q hq
    unfold Store.cell; rw [List.getElem?_eq_none hq]; rfl

theorem fetched_new {s : Store α} {org} (h : s.Inv org) {o : Nat} {l : Loc} (ho : o < s.tabs.length)
    (hr : aget l (s.tab o) = none) :
    Fetched s org o l { cells := s.cells ++ [[]], tabs := s.tabs.set o (s.tab o ++ [(l, s.cells.length)]) }
      s.cells.length := by
  have htab : ∀ j, tab { cells := s.cells ++ [[]], tabs := s.tabs.set o (s.tab o ++ [(l, s.cells.length)]) } j
      = if j = o then s.tab o ++ [(l, s.cells.length)] else s.tab j := by
    intro j
    rw [tab_set]
    by_cases hj : j = o
    · simp [hj, ho]
    · simp only [hj, false_and, ↓reduceIte]; rfl
  have hcell : ∀ q, q < s.cells.length →
      cell { cells := s.cells ++ [[]], tabs := s.tabs.set o (s.tab o ++ [(l, s.cells.length)]) } q = s.cell q := by
    intro q hq
    unfold cell
    rw [List.getElem?_append_left hq]
  have hnew : cell { cells := s.cells ++ [[]], tabs := s.tabs.set o (s.tab o ++ [(l, s.cells.length)]) }
      s.cells.length = [] := by
    unfold cell
    simp
  have hnone : aget l (s.val o) = none := by rw [aget_val, hr]; rfl
  have hvals : ∀ j, (s.tab j).map (fun p => (p.1,
      cell { cells := s.cells ++ [[]], tabs := s.tabs.set o (s.tab o ++ [(l, s.cells.length)]) } p.2)) = s.val j := by
    intro j
    apply List.map_congr_left
    intro p hp
    rw [hcell _ (h.bound j p hp)]
  have hlnone : l ∉ (s.tab o).map (·.1) := aget_eq_none_iff.1 hr
  have hmem : ∀ j, ∀ p ∈ tab { cells := s.cells ++ [[]], tabs := s.tabs.set o (s.tab o ++ [(l, s.cells.length)]) } j,
      p ∈ s.tab j ∨ (j = o ∧ p = (l, s.cells.length)) := by
    intro j p hp
    rw [htab] at hp
    by_cases hj : j = o
    · subst hj
      rw [if_pos rfl] at hp
      rcases List.mem_append.1 hp with hp | hp
      · exact .inl hp
      · exact .inr ⟨rfl, List.mem_singleton.1 hp⟩
    · rw [if_neg hj] at hp; exact .inl hp
  refine ⟨⟨?_, ?_, ?_, ?_, ?_⟩, ?_, ?_, ?_, ?_, ?_, hcell, by simp, by simp, ?_, ?_, ?_⟩
  · rw [h.len]; simp
  · intro i
    rw [htab]
    by_cases hi : i = o
    · rw [if_pos hi, List.map_append, List.nodup_append]
      refine ⟨h.keys o, by simp, ?_⟩
      intro a ha b hb e
      simp at hb
      subst hb; subst e
      exact hlnone ha
    · rw [if_neg hi]; exact h.keys i
  · intro i p hp
    rcases hmem i p hp with hp | ⟨-, rfl⟩
    · have := h.bound i p hp
      simp only [List.length_append, List.length_singleton]; omega
    · simp
  · intro i
    rw [htab]
    by_cases hi : i = o
    · rw [if_pos hi, List.map_append, List.nodup_append]
      refine ⟨h.own o, by simp, ?_⟩
      intro a ha b hb e
      simp only [List.map_cons, List.map_nil, List.mem_singleton] at hb
      obtain ⟨p, hp, rfl⟩ := List.mem_map.1 ha
      have := h.bound o p hp
      omega
    · rw [if_neg hi]; exact h.own i
  · intro i j hij p hp q hq
    rcases hmem i p hp with hp' | ⟨rfl, rfl⟩ <;> rcases hmem j q hq with hq' | ⟨rfl, rfl⟩
    · exact h.apart i j hij p hp' q hq'
    · have := h.bound i p hp'
      show p.2 ≠ s.cells.length
      omega
    · have := h.bound j q hq'
      show s.cells.length ≠ q.2
      omega
    · exact absurd rfl hij
  · rw [htab, if_pos rfl, aget_append_new hr, if_pos rfl]
  · rw [hnone, hnew]; rfl
  · rw [hnone, Option.getD_none, aset_new hnone]
    show (tab _ o).map _ = _
    rw [htab, if_pos rfl, List.map_append, hvals]
    simp [hnew]
  · intro j hj; rw [htab, if_neg hj]
  · intro j hj
    show (tab _ j).map _ = _
    rw [htab, if_neg hj, hvals]
  · intro j _ p hp
    have := h.bound j p hp
    omega
  · intro l' q hq
    rw [htab, if_pos rfl, aget_append_new hr, if_neg]
    · exact hq
    · intro e; subst e; rw [hr] at hq; cases hq
  · intro q hq
    by_cases he : q = s.cells.length
    · rw [he, hnew]
    · unfold cell
      rw [List.getElem?_eq_none (by simp; omega)]; rfl

/-- A `defaultdict` lookup always succeeds. -/
theorem fetch_auto {s : Store α} {org} (h : s.Inv org) {o : Nat} (ho : o < s.tabs.length) (l : Loc) :
    ∃ s' r, s.fetch true o l = (s', .ok r) ∧ Fetched s org o l s' r := by
  cases hr : aget l (s.tab o) with
  | some r => exact ⟨s, r, fetch_found hr, fetched_found h hr⟩
  | none => exact ⟨_, _, fetch_new hr, fetched_new h ho hr⟩

/-- Changing the list that a lookup found or created. -/
theorem Fetched.write {s s' : Store α} {org o l r} (h : Fetched s org o l s' r) (v : List α) :
    (s'.write r v).Inv org ∧ (s'.write r v).val o = aset l v (s.val o)
      ∧ ∀ j, org[j]? ≠ org[o]? → (s'.write r v).val j = s.val j := by
  refine ⟨h.inv.write r v, ?_, ?_⟩
  · rw [val_write h.inv h.here, h.val, aset_aset']
  · intro j hj
    have hjo : j ≠ o := fun e => hj (by rw [e])
    rw [val_write_other, h.vals j hjo]
    intro p hp
    rw [h.tabs j hjo] at hp
    exact h.foreign j hj p hp

/-- A lookup succeeds, or it is one of a missing key in a plain dictionary. -/
theorem fetch_cases {s : Store α} {org} (h : s.Inv org) (auto : Bool) {o : Nat} (ho : o < s.tabs.length) (l : Loc) :
    (∃ s' r, s.fetch auto o l = (s', .ok r) ∧ Fetched s org o l s' r ∧ (auto = true ∨ (aget l (s.val o)).isSome))
      ∨ (auto = false ∧ aget l (s.val o) = none ∧ s.fetch auto o l = (s, .error .keyError)) := by
  cases hr : aget l (s.tab o) with
  | some r =>
    refine .inl ⟨s, r, fetch_found hr, fetched_found h hr, .inr ?_⟩
    rw [aget_val, hr]; rfl
  | none =>
    cases auto with
    | true => exact .inl ⟨_, _, fetch_new hr, fetched_new h ho hr, .inl rfl⟩
    | false => exact .inr ⟨rfl, by rw [aget_val, hr]; rfl, fetch_plain hr⟩

/-! ### New dictionaries and removed keys -/

theorem tab_snoc (s : Store α) (t : List (Loc × Nat)) (j : Nat) :
    tab { s with tabs := s.tabs ++ [t] } j = if j = s.tabs.length then t else s.tab j := by
  unfold tab
  by_cases hj : j = s.tabs.length
  · subst hj; simp
  · simp only [hj, ↓reduceIte]
    by_cases hl : j < s.tabs.length
    · rw [List.getElem?_append_left hl]
    · rw [List.getElem?_eq_none (by simp; omega), List.getElem?_eq_none (by omega)]

theorem val_snoc (s : Store α) (t : List (Loc × Nat)) {j : Nat} (hj : j ≠ s.tabs.length) :
    val { s with tabs := s.tabs ++ [t] } j = s.val j := by
  show (tab _ j).map _ = _
  rw [tab_snoc, if_neg hj]; rfl

theorem Inv.snoc {s : Store α} {org} (h : s.Inv org) {t : List (Loc × Nat)} {f : Nat}
    (hk : (t.map (·.1)).Nodup) (ho : (t.map (·.2)).Nodup)
    (hsub : ∀ p ∈ t, ∃ o, org[o]? = some f ∧ ∃ q ∈ s.tab o, q.2 = p.2) :
    Inv { s with tabs := s.tabs ++ [t] } (org ++ [f]) := by
  have horg : ∀ i, i ≠ s.tabs.length → (org ++ [f])[i]? = org[i]? := by
    intro i hi
    by_cases hl : i < org.length
    · rw [List.getElem?_append_left hl]
    · rw [List.getElem?_eq_none (by simp; have := h.len; omega), List.getElem?_eq_none (by omega)]
  have hlast : (org ++ [f])[s.tabs.length]? = some f := by
    rw [← h.len]; simp
  refine ⟨by simp [h.len], ?_, ?_, ?_, ?_⟩
  · intro i; rw [tab_snoc]; split
    · exact hk
    · exact h.keys i
  · intro i p hp
    rw [tab_snoc] at hp
    split at hp
    · obtain ⟨o, -, q, hq, e⟩ := hsub p hp
      rw [← e]; exact h.bound o q hq
    · exact h.bound i p hp
  · intro i; rw [tab_snoc]; split
    · exact ho
    · exact h.own i
  · intro i j hij p hp q hq
    rw [tab_snoc] at hp hq
    by_cases hi : i = s.tabs.length <;> by_cases hj : j = s.tabs.length
    · exact absurd (by rw [hi, hj]) hij
    · rw [if_pos hi] at hp
      rw [if_neg hj] at hq
      rw [hi, hlast, horg j hj] at hij
      obtain ⟨o, ho', q', hq', e⟩ := hsub p hp
      rw [← e]
      exact h.apart o j (by rw [ho']; exact hij) q' hq' q hq
    · rw [if_neg hi] at hp
      rw [if_pos hj] at hq
      rw [hj, hlast, horg i hi] at hij
      obtain ⟨o, ho', q', hq', e⟩ := hsub q hq
      rw [← e]
      exact h.apart i o (by rw [ho']; exact hij) p hp q' hq'
    · rw [if_neg hi] at hp
      rw [if_neg hj] at hq
      rw [horg i hi, horg j hj] at hij
      exact h.apart i j hij p hp q hq

theorem Inv.fresh {s : Store α} {org} (h : s.Inv org) (f : Nat) : s.fresh.Inv (org ++ [f]) :=
  h.snoc (by simp) (by simp) (fun p hp => absurd hp List.not_mem_nil)

/-- The entries of a view. -/
def viewTab (loc : Loc) (t : List (Loc × Nat)) : List (Loc × Nat) :=
  t.filterMap fun p => if p.1.take loc.length = loc then some (p.1.drop loc.length, p.2) else none

theorem view_eq (s : Store α) (o : Nat) (loc : Loc) :
    s.view o loc = { s with tabs := s.tabs ++ [viewTab loc (s.tab o)] } := rfl

theorem mem_viewTab {loc : Loc} {t : List (Loc × Nat)} {p : Loc × Nat} (h : p ∈ viewTab loc t) :
    (loc ++ p.1, p.2) ∈ t := by
  unfold viewTab at h
  obtain ⟨q, hq, e⟩ := List.mem_filterMap.1 h
  split at e
  · rename_i hc
    cases e
    have : loc ++ q.1.drop loc.length = q.1 := by
      conv => rhs; rw [← List.take_append_drop loc.length q.1, hc]
    show (loc ++ q.1.drop loc.length, q.2) ∈ t
    rw [this]; exact hq
  · cases e

theorem viewTab_own {loc : Loc} {t : List (Loc × Nat)} (h : (t.map (·.2)).Nodup) :
    ((viewTab loc t).map (·.2)).Nodup := by
  induction t with
  | nil => exact List.nodup_nil
  | cons p t ih =>
    simp only [List.map_cons, List.nodup_cons] at h
    unfold viewTab
    rw [List.filterMap_cons]
    split
    · rename_i e
      exact ih h.2
    · rename_i q e
      split at e
      · cases e
        simp only [List.map_cons, List.nodup_cons]
        refine ⟨?_, ih h.2⟩
        intro hm
        obtain ⟨q, hq, e⟩ := List.mem_map.1 hm
        exact h.1 (List.mem_map.2 ⟨_, mem_viewTab hq, e⟩)
      · cases e

theorem Inv.view {s : Store α} {org} (h : s.Inv org) {o : Nat} (loc : Loc) {f : Nat} (hf : org[o]? = some f) :
    (s.view o loc).Inv (org ++ [f]) := by
  rw [view_eq]
  apply h.snoc
  · exact Issues.keys_filterMap_drop _ _ (h.keys o)
  · exact viewTab_own (h.own o)
  · intro p hp
    exact ⟨o, hf, _, mem_viewTab hp, rfl⟩

theorem view_tab_new (s : Store α) (o : Nat) (loc : Loc) :
    (s.view o loc).tab s.tabs.length = viewTab loc (s.tab o) := by
  rw [view_eq, tab_snoc, if_pos rfl]

theorem view_aget (s : Store α) (o : Nat) (loc l : Loc) :
    aget l ((s.view o loc).tab s.tabs.length) = aget (loc ++ l) (s.tab o) := by
  rw [view_tab_new]; exact Issues.aget_filterMap_drop _ _ _

theorem view_val_new (s : Store α) (o : Nat) (loc : Loc) :
    (s.view o loc).val s.tabs.length = (s.val o).filterMap fun p =>
      if p.1.take loc.length = loc then some (p.1.drop loc.length, p.2) else none := by
  show ((s.view o loc).tab s.tabs.length).map _ = _
  rw [view_tab_new]
  unfold Store.val viewTab
  rw [List.filterMap_map, List.map_filterMap]
  congr 1
  funext p
  simp only [Function.comp_apply]
  split <;> rfl

theorem adel_map {β γ : Type} (f : β → γ) (l : Loc) (t : List (Loc × β)) :
    (adel l t).map (fun p => (p.1, f p.2)) = adel l (t.map fun p => (p.1, f p.2)) := by
  induction t with
  | nil => rfl
  | cons p t ih =>
    obtain ⟨k, v⟩ := p
    simp only [adel, List.map_cons]
    split
    · rfl
    · rw [List.map_cons, ih]

theorem adel_sublist {β : Type} (l : Loc) (t : List (Loc × β)) : (adel l t).Sublist t := by
  induction t with
  | nil => exact List.Sublist.refl _
  | cons p t ih =>
    obtain ⟨k, v⟩ := p
    simp only [adel]
    split
    · exact List.sublist_cons_self ..
    · exact ih.cons_cons _

theorem tab_drop (s : Store α) (o : Nat) (l : Loc) (j : Nat) :
    (s.drop o l).tab j = if j = o then adel l (s.tab o) else s.tab j := by
  unfold Store.drop
  rw [tab_set]
  by_cases hj : j = o
  · subst hj
    by_cases hl : j < s.tabs.length
    · simp [hl]
    · simp only [hl, and_false, ↓reduceIte]
      rw [tab_of_ge (by omega), List.getElem?_eq_none (by omega)]; rfl
  · simp only [hj, false_and, ↓reduceIte]; rfl

theorem Inv.drop {s : Store α} {org} (h : s.Inv org) (o : Nat) (l : Loc) : (s.drop o l).Inv org := by
  have hs : ∀ j, ((s.drop o l).tab j).Sublist (s.tab j) := by
    intro j
    rw [tab_drop]
    split
    · rename_i e; rw [e]; exact adel_sublist _ _
    · exact List.Sublist.refl _
  refine ⟨by simp [Store.drop, h.len], ?_, ?_, ?_, ?_⟩
  · intro i; exact (h.keys i).sublist ((hs i).map _)
  · intro i p hp; exact h.bound i p ((hs i).subset hp)
  · intro i; exact (h.own i).sublist ((hs i).map _)
  · intro i j hij p hp q hq
    exact h.apart i j hij p ((hs i).subset hp) q ((hs j).subset hq)

theorem val_drop (s : Store α) (o : Nat) (l : Loc) (j : Nat) :
    (s.drop o l).val j = if j = o then adel l (s.val o) else s.val j := by
  show ((s.drop o l).tab j).map _ = _
  rw [tab_drop]
  split
  · exact adel_map _ _ _
  · rfl

theorem adel_aset {β : Type} {l : Loc} {v : β} {t : List (Loc × β)} (h : (aget l t).isSome) :
    adel l (aset l v t) = adel l t := by
  induction t with
  | nil => cases h
  | cons p t ih =>
    obtain ⟨k, x⟩ := p
    rw [aget_cons] at h
    by_cases hk : k = l
    · simp [aset_cons, hk, adel]
    · rw [if_neg hk] at h; simp [aset_cons, hk, adel, ih h]

theorem write_write (s : Store α) (r : Nat) (v w : List α) : (s.write r v).write r w = s.write r w := by
  unfold write; simp [List.set_set]

theorem write_cell (s : Store α) (r : Nat) : s.write r (s.cell r) = s := by
  unfold write cell
  congr 1
  apply List.ext_getElem?
  intro i
  rw [List.getElem?_set]
  split
  · rename_i e
    subst e
    split
    · rename_i hl; rw [List.getElem?_eq_getElem hl]; rfl
    · rename_i hl; rw [List.getElem?_eq_none (by omega)]
  · rfl

end Store

/-! ### Collections -/

namespace Heap

/-- The invariant of all reachable states. -/
structure Inv (h : Heap) (org : List Nat) : Prop where
  issues : h.issues.Inv org
  stop : h.stop.Inv org
  auto : org.length = h.auto.length
  orgs : ∀ f ∈ org, f < org.length
  sets : ∀ r, (h.stop.cell r).Nodup

theorem Inv.lt_issues {h : Heap} {org} (hi : h.Inv org) {o : Nat} (ho : o < h.size) : o < h.issues.tabs.length := by
  rw [← hi.issues.len, hi.auto]; exact ho

theorem Inv.lt_stop {h : Heap} {org} (hi : h.Inv org) {o : Nat} (ho : o < h.size) : o < h.stop.tabs.length := by
  rw [← hi.stop.len, hi.auto]; exact ho

/-- `self._issues[l].extend(…)`. -/
theorem extendIssues_cases {h : Heap} {org} (hi : h.Inv org) {o : Nat} (ho : o < h.size) (l : Loc)
    (errs : Store VErr → List VErr) :
    (∃ s r, Store.Fetched h.issues org o l s r
        ∧ h.extendIssues o l errs = ({ h with issues := s.write r (s.cell r ++ errs s) }, .ok ())
        ∧ (h.isAuto o = true ∨ (aget l (h.issues.val o)).isSome))
      ∨ (h.isAuto o = false ∧ aget l (h.issues.val o) = none
        ∧ h.extendIssues o l errs = (h, .error .keyError)) := by
  rcases Store.fetch_cases hi.issues (h.isAuto o) (hi.lt_issues ho) l with ⟨s, r, e, hf, hc⟩ | ⟨ha, hn, e⟩
  · refine .inl ⟨s, r, hf, ?_, hc⟩
    unfold extendIssues; rw [e]
  · refine .inr ⟨ha, hn, ?_⟩
    unfold extendIssues; rw [e]

theorem nodup_cell_fetched {s s' : Store Nat} {org o l r} (hf : Store.Fetched s org o l s' r)
    (hs : ∀ q, (s.cell q).Nodup) (q : Nat) : (s'.cell q).Nodup := by
  by_cases h : q < s.cells.length
  · rw [hf.old q h]; exact hs q
  · rw [hf.fresh q (by omega)]; exact List.nodup_nil

theorem nodup_cell_write {s : Store Nat} (hs : ∀ q, (s.cell q).Nodup) (r : Nat) {v : List Nat} (hv : v.Nodup)
    (q : Nat) : ((s.write r v).cell q).Nodup := by
  rw [Store.cell_write]
  split
  · exact hv
  · exact hs q

/-- `self._issues[l].extend(…)`: what changes and what does not. -/
theorem extendIssues_spec {h : Heap} {org} {o : Nat} {l : Loc} {s : Store VErr} {r : Nat}
    (hi : h.Inv org) (hf : Store.Fetched h.issues org o l s r) (v : List VErr) :
    Inv { h with issues := s.write r v } org
      ∧ (s.write r v).val o = aset l v (h.issues.val o)
      ∧ (∀ j, org[j]? ≠ org[o]? → (s.write r v).val j = h.issues.val j) := by
  obtain ⟨h1, h2, h3⟩ := hf.write v
  exact ⟨⟨h1, hi.stop, hi.auto, hi.orgs, hi.sets⟩, h2, h3⟩

/-- What every operation on collection `o` leaves alone. -/
structure Frame (org : List Nat) (h h' : Heap) (o : Nat) : Prop where
  inv : h'.Inv org
  auto : h'.auto = h.auto
  others : ∀ j, org[j]? ≠ org[o]? → h'.val j = h.val j

theorem Frame.refl {org h} (hi : Inv h org) (o : Nat) : Frame org h h o := ⟨hi, rfl, fun _ _ => rfl⟩

theorem ext_val {h h' : Heap} {j : Nat} (h1 : h'.issues.val j = h.issues.val j)
    (h2 : h'.stop.val j = h.stop.val j) : h'.val j = h.val j := by
  unfold val; rw [h1, h2]

/-- `add`: it succeeds when the dictionaries create entries or have them, and then does to the collection
what the function of the same name does to a value. -/
theorem add_spec {h : Heap} {org} (hi : h.Inv org) {o : Nat} (ho : o < h.size) (e : VErr) (p : Bool) (loc : Loc) :
    Frame org h (h.add o e p loc).1 o
      ∧ ((h.isAuto o = true ∨ ((aget loc (h.val o).issues).isSome ∧ (p = true ∨ (aget loc (h.val o).stop).isSome))) →
          (h.add o e p loc).2 = .ok () ∧ (h.add o e p loc).1.val o = (h.val o).add e p loc)
      ∧ (¬ (h.isAuto o = true ∨ ((aget loc (h.val o).issues).isSome ∧ (p = true ∨ (aget loc (h.val o).stop).isSome))) →
          (h.add o e p loc).2 = .error .keyError) := by
  unfold add
  rcases extendIssues_cases hi ho loc (fun _ => [e]) with ⟨s, r, hf, he, hc⟩ | ⟨ha, hn, he⟩
  · rw [he]
    dsimp only
    obtain ⟨hi1, hv1, ho1⟩ := extendIssues_spec hi hf (s.cell r ++ [e])
    have hv : (s.write r (s.cell r ++ [e])).val o = Issues.extendAt loc [e] (h.issues.val o) := by
      rw [hv1, hf.cell]; rfl
    cases p with
    | true =>
      rw [if_pos rfl]
      refine ⟨⟨hi1, rfl, fun j hj => ext_val (ho1 j hj) rfl⟩, ?_, ?_⟩
      · intro _
        refine ⟨rfl, ?_⟩
        unfold val Issues.add
        simp only [hv, ↓reduceIte]
      · intro hn
        exact absurd (hc.imp id fun hs => ⟨hs, .inl rfl⟩) hn
    | false =>
      rw [if_neg (by decide)]
      have hauto : isAuto { h with issues := s.write r (s.cell r ++ [e]) } o = h.isAuto o := rfl
      rw [hauto]
      rcases Store.fetch_cases hi.stop (h.isAuto o) (hi.lt_stop ho) loc with ⟨s2, r2, e2, hf2, hc2⟩ | ⟨ha2, hn2, e2⟩
      · rw [e2]
        dsimp only
        obtain ⟨h1, h2, h3⟩ := hf2.write (Issues.unionCodes (s2.cell r2) [e.code])
        have hnd := nodup_cell_fetched hf2 hi.sets
        refine ⟨⟨⟨hi1.issues, h1, hi.auto, hi.orgs, nodup_cell_write hnd _ (Issues.nodup_unionCodes _ _ (hnd r2))⟩, rfl,
          fun j hj => ext_val (ho1 j hj) (h3 j hj)⟩, ?_, ?_⟩
        · intro _
          refine ⟨rfl, ?_⟩
          unfold val Issues.add
          have h2' : (s2.write r2 (Issues.unionCodes (s2.cell r2) [e.code])).val o
              = Issues.updateAt loc [e.code] (h.stop.val o) := by
            rw [h2, hf2.cell]; rfl
          simp only [hv, Bool.false_eq_true, ↓reduceIte, h2']
        · intro hn
          refine absurd ?_ hn
          rcases hc2 with hc2 | hc2
          · exact .inl hc2
          · rcases hc with hc | hc
            · exact .inl hc
            · exact .inr ⟨hc, .inr hc2⟩
      · rw [e2]
        dsimp only
        refine ⟨⟨hi1, rfl, fun j hj => ext_val (ho1 j hj) rfl⟩, ?_, fun _ => rfl⟩
        rintro (hc' | ⟨-, hc' | hc'⟩)
        · rw [ha2] at hc'; cases hc'
        · cases hc'
        · have : aget loc (h.val o).stop = none := hn2
          rw [this] at hc'; cases hc'
  · rw [he]
    refine ⟨Frame.refl hi o, ?_, fun _ => rfl⟩
    rintro (hc' | ⟨hc', -⟩)
    · rw [ha] at hc'; cases hc'
    · have : aget loc (h.val o).issues = none := hn
      rw [this] at hc'; cases hc'

/-- One round of `merge`, whatever its outcome. -/
theorem mergeOne_frame {h : Heap} {org} (hi : h.Inv org) {o a : Nat} (ho : o < h.size) (ha : a < h.size)
    (loc l : Loc) (r : Nat) :
    (h.mergeOne o a loc l r).1.Inv org ∧ (h.mergeOne o a loc l r).1.auto = h.auto
      ∧ (∀ j, org[j]? ≠ org[o]? → (h.mergeOne o a loc l r).1.issues.val j = h.issues.val j)
      ∧ (∀ j, j ≠ o → (h.mergeOne o a loc l r).1.issues.tab j = h.issues.tab j)
      ∧ (∀ j, org[j]? ≠ org[o]? → j ≠ a → (h.mergeOne o a loc l r).1.stop.val j = h.stop.val j) := by
  unfold mergeOne
  rcases extendIssues_cases hi ho (loc ++ l) (fun s => s.cell r) with ⟨s, q, hf, he, hc⟩ | ⟨hna, hn, he⟩
  · rw [he]
    dsimp only
    obtain ⟨hi1, hv1, ho1⟩ := extendIssues_spec hi hf (s.cell q ++ s.cell r)
    have htab : ∀ j, j ≠ o → (s.write q (s.cell q ++ s.cell r)).tab j = h.issues.tab j := by
      intro j hj; rw [Store.tab_write]; exact hf.tabs j hj
    have ha1 : ∀ k, isAuto { h with issues := s.write q (s.cell q ++ s.cell r) } k = h.isAuto k := fun _ => rfl
    rw [ha1, ha1]
    rcases Store.fetch_cases hi.stop (h.isAuto o) (hi.lt_stop ho) (loc ++ l) with ⟨s2, r2, e2, hf2, -⟩ | ⟨-, -, e2⟩
    · rw [e2]
      dsimp only
      have hnd := nodup_cell_fetched hf2 hi.sets
      have hal : a < s2.tabs.length := by rw [hf2.size]; exact hi.lt_stop ha
      rcases Store.fetch_cases hf2.inv (h.isAuto a) hal l with ⟨s3, r3, e3, hf3, -⟩ | ⟨-, -, e3⟩
      · rw [e3]
        dsimp only
        have hnd3 := nodup_cell_fetched hf3 hnd
        refine ⟨⟨hi1.issues, hf3.inv.write _ _, hi.auto, hi.orgs,
          nodup_cell_write hnd3 _ (Issues.nodup_unionCodes _ _ (hnd3 r2))⟩, rfl, ho1, htab, ?_⟩
        intro j hj hja
        have hjo : j ≠ o := fun e => hj (by rw [e])
        rw [Store.val_write_other, hf3.vals j hja, hf2.vals j hjo]
        intro p hp
        rw [hf3.tabs j hja, hf2.tabs j hjo] at hp
        exact hf2.foreign j hj p hp
      · rw [e3]
        dsimp only
        refine ⟨⟨hi1.issues, hf2.inv, hi.auto, hi.orgs, hnd⟩, rfl, ho1, htab, ?_⟩
        intro j hj _
        exact hf2.vals j (fun e => hj (by rw [e]))
    · rw [e2]
      exact ⟨hi1, rfl, ho1, htab, fun _ _ _ => rfl⟩
  · rw [he]
    exact ⟨hi, rfl, fun _ _ => rfl, fun _ _ => rfl, fun _ _ _ => rfl⟩

theorem size_of_auto {h h' : Heap} (e : h'.auto = h.auto) : h'.size = h.size := by unfold size; rw [e]

/-- `merge`, whatever its outcome: it changes at most the collection itself, collections related to it,
and the blocking entries of its argument. -/
theorem mergeLoop_frame {org : List Nat} (n o a : Nat) (loc : Loc) (fuel i : Nat) (h : Heap) (hi : h.Inv org)
    (ho : o < h.size) (ha : a < h.size) :
    (mergeLoop n o a loc fuel i h).1.Inv org ∧ (mergeLoop n o a loc fuel i h).1.auto = h.auto
      ∧ (∀ j, org[j]? ≠ org[o]? → (mergeLoop n o a loc fuel i h).1.issues.val j = h.issues.val j)
      ∧ (∀ j, org[j]? ≠ org[o]? → j ≠ a → (mergeLoop n o a loc fuel i h).1.stop.val j = h.stop.val j) := by
  induction fuel generalizing i h with
  | zero => exact ⟨hi, rfl, fun _ _ => rfl, fun _ _ _ => rfl⟩
  | succ fuel ih =>
    unfold mergeLoop
    split
    · exact ⟨hi, rfl, fun _ _ => rfl, fun _ _ _ => rfl⟩
    · split
      · exact ⟨hi, rfl, fun _ _ => rfl, fun _ _ _ => rfl⟩
      · rename_i l r _
        obtain ⟨h1, h2, h3, -, h5⟩ := mergeOne_frame hi ho ha loc l r
        cases hm : h.mergeOne o a loc l r with
        | mk h' res =>
          rw [hm] at h1 h2 h3 h5
          dsimp only at h1 h2 h3 h5
          cases res with
          | error x => exact ⟨h1, h2, h3, h5⟩
          | ok u =>
            dsimp only
            obtain ⟨g1, g2, g3, g4⟩ := ih (i + 1) h' h1 (by rw [size_of_auto h2]; exact ho) (by rw [size_of_auto h2]; exact ha)
            exact ⟨g1, g2.trans h2, fun j hj => (g3 j hj).trans (h3 j hj), fun j hj hja => (g4 j hj hja).trans (h5 j hj hja)⟩

end Heap
end Scim
