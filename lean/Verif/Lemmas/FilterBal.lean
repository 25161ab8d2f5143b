import Verif.Lemmas.FilterOutcome

/-! Balanced brackets. -/

namespace Scim
open Issues

/-- The bracket depth after a text; `none` if it was negative in between. -/
def run : Nat → Str → Option Nat
  | d, [] => some d
  | d, c :: cs =>
    if c = '(' then run (d + 1) cs
    else if c = ')' then (if d = 0 then none else run (d - 1) cs)
    else run d cs

theorem run_append (d : Nat) (u v : Str) : run d (u ++ v) = (run d u).bind (fun d => run d v) := by
  induction u generalizing d with
  | nil => rfl
  | cons c u ih =>
    rw [List.cons_append, run, run]
    split
    · exact ih _
    · split
      · split
        · rfl
        · exact ih _
      · exact ih _

theorem run_iff (d e : Nat) (s : Str) : run d s = some e ↔
    (d + s.count '(' = s.count ')' + e ∧ ∀ p, p <+: s → p.count ')' ≤ d + p.count '(') := by
  induction s generalizing d with
  | nil => simp [run]
  | cons c s ih =>
    have hpre : ∀ (k : Nat), (∀ p, p <+: c :: s → p.count ')' ≤ d + p.count '(') ↔
        (∀ p, p <+: s → (c :: p).count ')' ≤ d + (c :: p).count '(') := by
      intro _
      constructor
      · intro h p hp; exact h _ (List.cons_prefix_cons.mpr ⟨rfl, hp⟩)
      · intro h p hp
        cases p with
        | nil => simp
        | cons c' p =>
          obtain ⟨rfl, hp'⟩ := List.cons_prefix_cons.mp hp
          exact h p hp'
    rw [hpre 0, run]
    by_cases h1 : c = '('
    · subst h1
      rw [if_pos rfl, ih]
      have e1 : ∀ p : Str, ('(' :: p).count ')' = p.count ')' := fun p => by simp
      have e2 : ∀ p : Str, ('(' :: p).count '(' = p.count '(' + 1 := fun p => by simp
      simp only [e1, e2]
      constructor
      · rintro ⟨a, b⟩; exact ⟨by omega, fun p hp => by have := b p hp; omega⟩
      · rintro ⟨a, b⟩; exact ⟨by omega, fun p hp => by have := b p hp; omega⟩
    · rw [if_neg h1]
      by_cases h2 : c = ')'
      · subst h2
        rw [if_pos rfl]
        have e1 : ∀ p : Str, (')' :: p).count ')' = p.count ')' + 1 := fun p => by simp
        have e2 : ∀ p : Str, (')' :: p).count '(' = p.count '(' := fun p => by simp
        simp only [e1, e2]
        cases d with
        | zero =>
          rw [if_pos rfl]
          constructor
          · intro h; cases h
          · rintro ⟨a, b⟩
            have := b [] (List.nil_prefix)
            simp at this
        | succ d =>
          rw [if_neg (by omega), Nat.add_sub_cancel, ih]
          constructor
          · rintro ⟨a, b⟩; exact ⟨by omega, fun p hp => by have := b p hp; omega⟩
          · rintro ⟨a, b⟩; exact ⟨by omega, fun p hp => by have := b p hp; omega⟩
      · rw [if_neg h2, ih]
        have e1 : ∀ p : Str, (c :: p).count ')' = p.count ')' := fun p => by rw [List.count_cons]; simp [h2]
        have e2 : ∀ p : Str, (c :: p).count '(' = p.count '(' := fun p => by rw [List.count_cons]; simp [h1]
        simp only [e1, e2]

theorem balanced_iff (s : Str) : Balanced s ↔ run 0 s = some 0 := by
  rw [run_iff]
  simp [Balanced]

/-- The depth the scan is at. -/
def depthOf (g : Option OpenGroup) : Nat := (g.map (·.depth)).getD 0

theorem scan_balanced (s : Str) (hq : '"' ∉ s) (pos : Nat) (g : Option OpenGroup) (hg : ∀ o, g = some o → 1 ≤ o.depth) :
    ((scanGroups s pos false g).stray = 0 ∧ (scanGroups s pos false g).unclosed = false) ↔ run (depthOf g) s = some 0 := by
  induction s generalizing pos g with
  | nil =>
    cases g with
    | none => simp [scanGroups, run, depthOf]
    | some o =>
      have := hg o rfl
      simp [scanGroups, run, depthOf]
      omega
  | cons c cs ih =>
    rw [List.mem_cons, not_or] at hq
    have hq1 : c ≠ '"' := fun h => hq.1 h.symm
    rw [scanGroups.eq_def, run]
    simp only [hq1, if_false, Bool.false_eq_true]
    cases g with
    | none =>
      by_cases h1 : c = '('
      · simp only [h1, if_true]
        exact ih hq.2 _ _ (by intro o ho; cases ho; exact Nat.le_refl _)
      · by_cases h2 : c = ')'
        · subst h2
          simp [depthOf]
        · simp only [h1, h2, if_false]
          exact ih hq.2 _ _ (by simp)
    | some o =>
      have ho := hg o rfl
      by_cases h1 : c = '('
      · simp only [h1, if_true]
        exact ih hq.2 _ _ (by intro o ho; cases ho; simp)
      · by_cases h2 : c = ')'
        · subst h2
          obtain ⟨d, hd⟩ : ∃ d, o.depth = d + 1 := ⟨o.depth - 1, by omega⟩
          have hdo : depthOf (some o) = d + 1 := by simp [depthOf, hd]
          have h3 : (')' = '(') = False := by decide
          simp only [h3, if_false, if_true, hdo, hd, Nat.add_sub_cancel]
          by_cases hz : d = 0
          · subst hz
            simp only [if_true]
            exact ih hq.2 _ none (by simp)
          · simp only [hz, if_false]
            exact ih hq.2 _ _ (by intro o ho; cases ho; simp; omega)
        · simp only [h1, h2, if_false]
          exact ih hq.2 _ _ (by intro o' ho'; cases ho'; exact ho)

theorem groups_balanced (s : Str) (hq : '"' ∉ s) (pos : Nat) (g : Option OpenGroup)
    (hg : ∀ o, g = some o → 1 ≤ o.depth ∧ ∃ u, o.text = u ++ ['('] ∧ run 0 u.reverse = some (o.depth - 1)) :
    ∀ p ∈ (scanGroups s pos false g).groups, run 0 (p.2.drop 1).dropLast = some 0 := by
  induction s generalizing pos g with
  | nil => simp [scanGroups]
  | cons c cs ih =>
    rw [List.mem_cons, not_or] at hq
    have hq1 : c ≠ '"' := fun h => hq.1 h.symm
    intro p hp
    rw [scanGroups.eq_def] at hp
    simp only [hq1, if_false, Bool.false_eq_true] at hp
    cases g with
    | none =>
      by_cases h1 : c = '('
      · simp only [h1, if_true] at hp
        refine ih hq.2 _ _ ?_ p hp
        intro o ho; cases ho
        exact ⟨Nat.le_refl _, [], rfl, rfl⟩
      · by_cases h2 : c = ')'
        · subst h2
          have h3 : (')' = '(') = False := by decide
          simp only [h3, if_false, if_true] at hp
          exact ih hq.2 _ _ (by simp) p hp
        · simp only [h1, h2, if_false] at hp
          exact ih hq.2 _ _ (by simp) p hp
    | some o =>
      obtain ⟨ho, u, hu, hr⟩ := hg o rfl
      obtain ⟨d, hd⟩ : ∃ d, o.depth = d + 1 := ⟨o.depth - 1, by omega⟩
      rw [hd, Nat.add_sub_cancel] at hr
      by_cases h1 : c = '('
      · subst h1
        simp only [if_true] at hp
        refine ih hq.2 _ _ ?_ p hp
        intro o' ho'; cases ho'
        refine ⟨by simp, '(' :: u, by rw [hu]; rfl, ?_⟩
        rw [List.reverse_cons, run_append, hr]
        simp [run, hd]
      · by_cases h2 : c = ')'
        · subst h2
          have h3 : (')' = '(') = False := by decide
          simp only [h3, if_false, if_true, hd, Nat.add_sub_cancel] at hp
          by_cases hz : d = 0
          · subst hz
            simp only [if_true] at hp
            rcases List.mem_cons.mp hp with rfl | hp
            · have e : ((')' :: o.text).reverse.drop 1).dropLast = u.reverse := by
                rw [hu]
                simp
              rw [e]; exact hr
            · exact ih hq.2 _ _ (by simp) p hp
          · simp only [hz, if_false] at hp
            refine ih hq.2 _ _ ?_ p hp
            intro o' ho'; cases ho'
            refine ⟨by simp; omega, ')' :: u, by rw [hu]; rfl, ?_⟩
            rw [List.reverse_cons, run_append, hr]
            obtain ⟨e, rfl⟩ : ∃ e, d = e + 1 := ⟨d - 1, by omega⟩
            simp [run]
        · simp only [h1, h2, if_false] at hp
          refine ih hq.2 _ _ ?_ p hp
          intro o' ho'; cases ho'
          refine ⟨ho, c :: u, by rw [hu]; rfl, ?_⟩
          rw [List.reverse_cons, run_append, hr]
          simp [run, h1, h2, hd]

/-- Code 100 has been reported. -/
def Has100 (is : Issues) : Prop := ∃ e ∈ is.errorsAt [], e.code = 100

theorem has100_add_old {is : Issues} (h : Has100 is) (c : Nat) : Has100 (is.add { code := c } false) := by
  obtain ⟨e, he, hc⟩ := h
  exact ⟨e, by rw [errorsAt_add]; exact List.mem_append_left _ he, hc⟩

theorem has100_add (is : Issues) : Has100 (is.add { code := 100 } false) :=
  ⟨{ code := 100 }, by rw [errorsAt_add]; simp, rfl⟩

theorem has100_stray_old (n : Nat) {is : Issues} (h : Has100 is) : Has100 (strayIssues n is) := by
  induction n generalizing is with
  | zero => exact h
  | succ n ih => exact ih (has100_add is)

theorem has100_stray {n : Nat} (hn : n ≠ 0) (is : Issues) : Has100 (strayIssues n is) := by
  cases n with
  | zero => exact absurd rfl hn
  | succ n => exact has100_stray_old n (has100_add is)

section
variable [PyEnv]

theorem scanStrings_none {s : Str} (h1 : '"' ∉ s) (h2 : '\'' ∉ s) (pos : Nat) : scanStrings s pos 0 = [] := by
  induction s generalizing pos with
  | nil => rfl
  | cons c cs ih =>
    rw [List.mem_cons, not_or] at h1 h2
    rw [scanStrings, if_neg]
    · exact ih h1.2 h2.2 _
    · rintro ⟨h | h, -⟩
      · exact h2.1 h.symm
      · exact h1.1 h.symm

theorem scanCplx_none {s : Str} (h1 : '"' ∉ s) (h2 : '[' ∉ s) (h3 : ']' ∉ s) (pos : Nat) (rep : Str) :
    scanCplx s pos false rep none = {} := by
  induction s generalizing pos rep with
  | nil => rfl
  | cons c cs ih =>
    rw [List.mem_cons, not_or] at h1 h2 h3
    rw [scanCplx.eq_def]
    have e1 : c ≠ '"' := fun h => h1.1 h.symm
    have e2 : c ≠ '[' := fun h => h2.1 h.symm
    have e3 : c ≠ ']' := fun h => h3.1 h.symm
    simp only [e1, e2, e3, if_false, Bool.false_eq_true]
    split
    · exact ih h1.2 h2.2 h3.2 _ _
    · exact ih h1.2 h2.2 h3.2 _ _

/-- A text without quotes and square brackets. -/
theorem filterParse_plain {s : Str} (h1 : '"' ∉ s) (h2 : '\'' ∉ s) (h3 : '[' ∉ s) (h4 : ']' ∉ s) :
    Filter.parse s = match parseOperator (s.length + 1) [] [] s with
      | .error e => .error e
      | .ok (o, is) => .ok (if (Issues.merge {} is).canProceed then o else none, Issues.merge {} is) := by
  unfold Filter.parse
  rw [scanStrings_none h1 h2]
  have e : hideLoop [] s = s := rfl
  dsimp only
  rw [e, scanCplx_none h1 h3 h4]
  rfl

theorem parseOperator_unbalanced {fuel : Nat} {strings cplx} {s : Str} (hq : '"' ∉ s) (hb : run 0 s ≠ some 0)
    {r : Option Op × Issues} (h : parseOperator fuel strings cplx s = .ok r) : r.1 = none ∧ Has100 r.2 ∧ Blocked (fun _ => True) r.2 := by
  cases fuel with
  | zero => cases h
  | succ fuel =>
    unfold parseOperator at h
    dsimp only at h
    split at h
    · cases h
    · have hb' := mt (scan_balanced s hq 0 none (by simp)).mp hb
      have h100 : Has100 (if (scanGroups s 0 false none).unclosed = true then
          (strayIssues (scanGroups s 0 false none).stray {}).add { code := 100 } false
          else strayIssues (scanGroups s 0 false none).stray {}) ∧
          Blocked (fun _ => True) (if (scanGroups s 0 false none).unclosed = true then
          (strayIssues (scanGroups s 0 false none).stray {}).add { code := 100 } false
          else strayIssues (scanGroups s 0 false none).stray {}) := by
        have hst := strayIssues_st (K := fun _ => True) trivial (scanGroups s 0 false none).stray {} St.empty
        split
        · exact ⟨has100_add _, hst.1.add trivial⟩
        · rename_i hu
          have hne : (scanGroups s 0 false none).stray ≠ 0 := fun h => hb' ⟨h, by simpa using hu⟩
          exact ⟨has100_stray hne _, hst.2 (.inr (by omega))⟩
      generalize (if (scanGroups s 0 false none).unclosed = true then
          (strayIssues (scanGroups s 0 false none).stray {}).add { code := 100 } false
          else strayIssues (scanGroups s 0 false none).stray {}) = is at h h100
      generalize strip (hideLoop (scanGroups s 0 false none).groups s) = pre at h
      have h3 : Has100 (if pre.isEmpty = true then is.add { code := 107 } false else is) ∧
          Blocked (fun _ => True) (if pre.isEmpty = true then is.add { code := 107 } false else is) := by
        split
        · exact ⟨has100_add_old h100.1 _, (St.add (.inr h100.2) trivial)⟩
        · exact h100
      generalize (if pre.isEmpty = true then is.add { code := 107 } false else is) = is3 at h h3
      rw [h3.2.not_proceed] at h
      simp only [Bool.not_false, if_true] at h
      cases h
      exact ⟨rfl, h3.1, h3.2⟩

theorem has100_merge {is : Issues} (h : Blocked (fun _ => True) is) (h1 : Has100 is) : Has100 (Issues.merge {} is) := by
  obtain ⟨e, he, hc⟩ := h1
  refine ⟨e, ?_, hc⟩
  rw [errorsAt_merge h.wf]
  simp [he]

end
end Scim
