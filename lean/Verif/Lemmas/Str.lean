import Verif.Model.Base

/-! Helper lemmas about splitting and joining. -/

namespace Scim

@[simp] theorem joinWith_nil (c : Char) : joinWith c [] = [] := rfl
@[simp] theorem joinWith_single (c : Char) (s : Str) : joinWith c [s] = s := rfl
theorem joinWith_cons_cons (c : Char) (s t : Str) (r : List Str) :
    joinWith c (s :: t :: r) = s ++ c :: joinWith c (t :: r) := rfl

theorem joinWith_cons_of_ne {c : Char} (s : Str) {r : List Str} (h : r ≠ []) :
    joinWith c (s :: r) = s ++ c :: joinWith c r := by
  cases r with
  | nil => exact absurd rfl h
  | cons t r => rfl

theorem joinWith_append_single {c : Char} (ps : List Str) (l : Str) (h : ps ≠ []) :
    joinWith c (ps ++ [l]) = joinWith c ps ++ c :: l := by
  induction ps with
  | nil => exact absurd rfl h
  | cons p ps ih =>
    cases ps with
    | nil => rfl
    | cons q qs =>
      have := ih (by simp)
      simp only [List.cons_append] at this ⊢
      rw [joinWith_cons_cons, this, joinWith_cons_cons]
      simp

theorem splitChar_ne_nil (c : Char) (s : Str) : splitChar c s ≠ [] := by
  cases s with
  | nil => simp [splitChar]
  | cons a s =>
    simp only [splitChar]
    split
    · simp
    · split <;> simp

theorem joinWith_splitChar (c : Char) (s : Str) : joinWith c (splitChar c s) = s := by
  induction s with
  | nil => rfl
  | cons a s ih =>
    simp only [splitChar]
    split
    · rename_i h
      subst h
      rw [joinWith_cons_of_ne _ (splitChar_ne_nil _ _), ih]; rfl
    · cases hs : splitChar c s with
      | nil => exact absurd hs (splitChar_ne_nil _ _)
      | cons p ps =>
        simp only
        rw [hs] at ih
        cases ps with
        | nil => simp only [joinWith_single] at ih ⊢; rw [ih]
        | cons q qs => rw [joinWith_cons_cons] at ih ⊢; simp [ih]

theorem not_mem_splitChar (c : Char) (s : Str) : ∀ p ∈ splitChar c s, c ∉ p := by
  induction s with
  | nil => simp [splitChar]
  | cons a s ih =>
    simp only [splitChar]
    split
    · intro p hp
      rcases List.mem_cons.1 hp with rfl | hp
      · simp
      · exact ih p hp
    · rename_i hne
      cases hs : splitChar c s with
      | nil => exact absurd hs (splitChar_ne_nil _ _)
      | cons q qs =>
        rw [hs] at ih
        intro p hp
        simp only at hp
        rcases List.mem_cons.1 hp with rfl | hp
        · have := ih q (by simp)
          simp only [List.mem_cons, not_or]
          exact ⟨fun e => hne e.symm, this⟩
        · exact ih p (by simp [hp])

theorem splitChar_of_not_mem {c : Char} {s : Str} (h : c ∉ s) : splitChar c s = [s] := by
  induction s with
  | nil => rfl
  | cons a s ih =>
    simp only [List.mem_cons, not_or] at h
    simp only [splitChar]
    rw [if_neg (fun e => h.1 e.symm), ih h.2]

theorem splitChar_append_sep {c : Char} (p rest : Str) (h : c ∉ p) :
    splitChar c (p ++ c :: rest) = p :: splitChar c rest := by
  induction p with
  | nil => simp [splitChar]
  | cons a p ih =>
    simp only [List.mem_cons, not_or] at h
    simp only [List.cons_append, splitChar]
    rw [if_neg (fun e => h.1 e.symm), ih h.2]

theorem splitChar_joinWith {c : Char} (ps : List Str) (hne : ps ≠ []) (h : ∀ p ∈ ps, c ∉ p) :
    splitChar c (joinWith c ps) = ps := by
  induction ps with
  | nil => exact absurd rfl hne
  | cons p ps ih =>
    cases ps with
    | nil => exact splitChar_of_not_mem (h p (by simp))
    | cons q qs =>
      rw [joinWith_cons_cons, splitChar_append_sep _ _ (h p (by simp)),
        ih (by simp) (fun x hx => h x (by simp [hx]))]

theorem joinWith_ne_nil {c : Char} (ps : List Str) (hne : ps ≠ []) (h : ∀ p ∈ ps, p ≠ []) :
    joinWith c ps ≠ [] := by
  cases ps with
  | nil => exact absurd rfl hne
  | cons p ps =>
    cases ps with
    | nil => exact h p (by simp)
    | cons q qs => rw [joinWith_cons_cons]; simp

end Scim
