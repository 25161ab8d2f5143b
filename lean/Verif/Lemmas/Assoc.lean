import Verif.Model.Base

/-! Helper lemmas about insertion-ordered dictionaries. -/

namespace Scim
variable {κ : Type} [DecidableEq κ] {β : Type}

@[simp] theorem aget_nil (k : κ) : aget k ([] : List (κ × β)) = none := rfl

theorem aget_cons (k k' : κ) (v : β) (r : List (κ × β)) :
    aget k ((k', v) :: r) = if k' = k then some v else aget k r := rfl

theorem aset_cons (k k' : κ) (v v' : β) (r : List (κ × β)) :
    aset k v ((k', v') :: r) = if k' = k then (k', v) :: r else (k', v') :: aset k v r := rfl

theorem aget_aset (k k' : κ) (v : β) (m : List (κ × β)) :
    aget k' (aset k v m) = if k = k' then some v else aget k' m := by
  induction m with
  | nil => simp [aset, aget]
  | cons p r ih =>
    obtain ⟨a, b⟩ := p
    simp only [aset_cons]
    by_cases h : a = k
    · subst h
      by_cases h2 : a = k' <;> simp [h2, aget_cons]
    · simp only [if_neg h, aget_cons, ih]
      by_cases h2 : a = k'
      · subst h2
        have : ¬ k = a := fun e => h e.symm
        simp [this]
      · simp [h2]

@[simp] theorem aget_aset_self (k : κ) (v : β) (m : List (κ × β)) : aget k (aset k v m) = some v := by
  simp [aget_aset]

theorem aget_aset_ne {k k' : κ} (h : k ≠ k') (v : β) (m : List (κ × β)) :
    aget k' (aset k v m) = aget k' m := by
  simp [aget_aset, h]

theorem keys_aset (k : κ) (v : β) (m : List (κ × β)) :
    (aset k v m).map (·.1) = if k ∈ m.map (·.1) then m.map (·.1) else m.map (·.1) ++ [k] := by
  induction m with
  | nil => simp [aset]
  | cons p r ih =>
    obtain ⟨a, b⟩ := p
    simp only [aset_cons]
    by_cases h : a = k
    · subst h; simp
    · have hk : ¬ k = a := fun e => h e.symm
      simp only [if_neg h, List.map_cons, ih, List.mem_cons, hk, false_or]
      split <;> simp

theorem nodup_keys_aset (k : κ) (v : β) (m : List (κ × β)) (h : (m.map (·.1)).Nodup) :
    ((aset k v m).map (·.1)).Nodup := by
  rw [keys_aset]
  split
  · exact h
  · rename_i hk
    rw [List.nodup_append]
    refine ⟨h, by simp, ?_⟩
    intro a ha b hb
    simp only [List.mem_singleton] at hb
    subst hb
    intro e; subst e; exact hk ha

theorem mem_of_aget {k : κ} {v : β} {m : List (κ × β)} (h : aget k m = some v) : (k, v) ∈ m := by
  induction m with
  | nil => simp at h
  | cons p r ih =>
    obtain ⟨a, b⟩ := p
    rw [aget_cons] at h
    by_cases hk : a = k
    · simp [hk] at h; simp [hk, h]
    · simp [hk] at h; exact List.mem_cons_of_mem _ (ih h)

theorem aget_isSome_iff {k : κ} {m : List (κ × β)} : (aget k m).isSome ↔ k ∈ m.map (·.1) := by
  induction m with
  | nil => simp
  | cons p r ih =>
    obtain ⟨a, b⟩ := p
    rw [aget_cons]
    by_cases hk : a = k
    · simp [hk]
    · have : ¬ k = a := fun e => hk e.symm
      simp only [if_neg hk, ih, List.map_cons, List.mem_cons, this, false_or]

theorem aget_eq_none_iff {k : κ} {m : List (κ × β)} : aget k m = none ↔ k ∉ m.map (·.1) := by
  rw [← aget_isSome_iff]
  cases aget k m <;> simp

theorem aget_of_mem {k : κ} {v : β} {m : List (κ × β)} (hn : (m.map (·.1)).Nodup)
    (h : (k, v) ∈ m) : aget k m = some v := by
  induction m with
  | nil => simp at h
  | cons p r ih =>
    obtain ⟨a, b⟩ := p
    rw [aget_cons]
    simp only [List.map_cons, List.nodup_cons] at hn
    rcases List.mem_cons.1 h with h | h
    · cases h; simp
    · have : k ∈ r.map (·.1) := List.mem_map.2 ⟨_, h, rfl⟩
      have hne : ¬ a = k := fun e => hn.1 (e ▸ this)
      simp [hne, ih hn.2 h]

theorem aget_adel_ne {k k' : κ} (h : k ≠ k') (m : List (κ × β)) :
    aget k' (adel k m) = aget k' m := by
  induction m with
  | nil => rfl
  | cons p r ih =>
    obtain ⟨a, b⟩ := p
    simp only [adel]
    by_cases hk : a = k
    · subst hk; simp [aget_cons, h]
    · simp [hk, aget_cons, ih]

theorem aget_adel_self {k : κ} {m : List (κ × β)} (hn : (m.map (·.1)).Nodup) :
    aget k (adel k m) = none := by
  induction m with
  | nil => rfl
  | cons p r ih =>
    obtain ⟨a, b⟩ := p
    simp only [List.map_cons, List.nodup_cons] at hn
    simp only [adel]
    by_cases hk : a = k
    · subst hk; simp only [↓reduceIte]; exact aget_eq_none_iff.2 hn.1
    · simp [hk, aget_cons, ih hn.2]

theorem keys_adel_sublist (k : κ) (m : List (κ × β)) :
    ((adel k m).map (·.1)).Sublist (m.map (·.1)) := by
  induction m with
  | nil => simp [adel]
  | cons p r ih =>
    obtain ⟨a, b⟩ := p
    simp only [adel]
    split
    · simp
    · simpa using ih

theorem nodup_keys_adel (k : κ) (m : List (κ × β)) (h : (m.map (·.1)).Nodup) :
    ((adel k m).map (·.1)).Nodup := h.sublist (keys_adel_sublist k m)

theorem mem_keys_adel {k k' : κ} {m : List (κ × β)} (h : k' ∈ (adel k m).map (·.1)) :
    k' ∈ m.map (·.1) := (keys_adel_sublist k m).subset h

theorem mem_keys_aset {k k' : κ} {v : β} {m : List (κ × β)} :
    k' ∈ (aset k v m).map (·.1) ↔ k' = k ∨ k' ∈ m.map (·.1) := by
  rw [keys_aset]
  split
  · rename_i h
    constructor
    · exact Or.inr
    · rintro (rfl | h') <;> assumption
  · simp [or_comm]

end Scim
