import Verif.Lemmas.FilterSame
import Verif.Lemmas.Presence
import Verif.Props.Path
import Verif.Props.Operator

/-!
# C99 and C100: accepted filters are well-formed, and what equality of filters and paths means

The specification is in `Verif/Spec/FilterForm.lean`.
-/

namespace Scim
open Issues
variable [PyEnv]

/-- **C99** every filter the parser returns is well-formed: its names can be written down and are not dotted, its values
fit their operators and are never infinite or NaN, and `and` and `or` have at least two operands. -/
theorem C99_formed (s : Str) (o : Op) (is : Issues) (h : Filter.parse s = .ok (some o, is)) : o.Formed :=
  filterParse_formed h

/-- **C99** so is the filter of every path the parser returns. -/
theorem C99_path (s : Str) (p : PatchPath) (is : Issues) (o : Op) (h : PatchPath.parse s = .ok (some p, is))
    (ho : p.filter = some o) : o.Formed :=
  pathParse_formed h ho

/-- **C100** comparing two filters never raises; they are equal exactly when they are the same filter: the same
operators, on attributes of the same spelling, with the same values and operands in the same order. -/
theorem C100_eq (a b : Op) : (∃ c, Filter.eq a b = .ok c) ∧ (Filter.eq a b = .ok true ↔ SameFilter a b) := by
  classical
  have h : Filter.eq a b = Val.pyEqN ((convVal a.toDict).size + (convVal b.toDict).size + 1) (convVal a.toDict)
      (convVal b.toDict) := by
    unfold Filter.eq Val.pyEq
    rw [toDict_fields a, toDict_fields b, Val.toCont, Val.toCont, convVal, convVal]
  rw [h, pyEqN_op _ a b (by omega)]
  refine ⟨⟨_, rfl⟩, fun h => ?_, fun h => ?_⟩
  · exact (of_decide_eq_true (Except.ok.inj h)).symm
  · rw [decide_eq_true h.symm]

/-- **C100** equality is symmetric and transitive; a filter that was accepted is equal to itself. -/
theorem C100_equivalence :
    (∀ s o is, Filter.parse s = .ok (some o, is) → Filter.eq o o = .ok true) ∧
    (∀ a b, Filter.eq a b = .ok true → Filter.eq b a = .ok true) ∧
    (∀ a b c, Filter.eq a b = .ok true → Filter.eq b c = .ok true → Filter.eq a c = .ok true) := by
  refine ⟨?_, ?_, ?_⟩
  · intro s o is h
    exact (C100_eq o o).2.mpr (C99_formed s o is h).refl
  · intro a b h
    exact (C100_eq b a).2.mpr ((C100_eq a b).2.mp h).symm
  · intro a b c h h'
    exact (C100_eq a c).2.mpr (((C100_eq a b).2.mp h).trans ((C100_eq b c).2.mp h'))

/-- **C100** equal filters select the same resources: when two filters were accepted and are equal, matching either one
gives the same result on all data, for all schemas. -/
theorem C100_same_results (s t : Str) (a b : Op) (is is' : Issues) (ha : Filter.parse s = .ok (some a, is))
    (hb : Filter.parse t = .ok (some b, is')) (h : Filter.eq a b = .ok true) (data : Val) (attrs : List Attr) (strict : Bool) :
    Filter.call a data attrs strict = Filter.call b data attrs strict :=
  ((C100_eq a b).2.mp h).matchOn (C99_formed s a is ha) (C99_formed t b is' hb) data attrs strict

/-- **C100** texts of the grammar that denote the same filter give equal filters, however they are spaced and bracketed. -/
theorem C100_texts (t t' : Str) (o : Op) (h : FilterText t o) (h' : FilterText t' o) :
    ∃ a b, Filter.parse t = .ok (some a, {}) ∧ Filter.parse t' = .ok (some b, {}) ∧ Filter.eq a b = .ok true := by
  have h1 := C54_grammar t [] [] o h Ws.nil Ws.nil
  have h2 := C54_grammar t' [] [] o h' Ws.nil Ws.nil
  simp only [List.nil_append, List.append_nil] at h1 h2
  exact ⟨o, o, h1, h2, C100_equivalence.1 t o {} h1⟩

/-- Related by `R` when both are there; otherwise both are missing. -/
def BothOr {α : Type} (R : α → α → Prop) : Option α → Option α → Prop
  | some x, some y => R x y
  | none, none => True
  | _, _ => False

theorem optRepEq_iff (a b : Option AttrRep) : optRepEq a b = true ↔ BothOr AttrRep.SameAs a b := by
  cases a <;> cases b <;> simp [optRepEq, BothOr, eqv_sameAs]

/-- **C100** comparing two paths never raises; they are equal exactly when their attributes agree up to letter case,
their filters are the same, and so are the attributes behind the filters, up to letter case. -/
theorem C100_path_eq (a b : PatchPath) : (∃ c, PatchPath.eq a b = .ok c) ∧ (PatchPath.eq a b = .ok true ↔
    a.rep.SameAs b.rep ∧ BothOr SameFilter a.filter b.filter ∧ BothOr AttrRep.SameAs a.subRep b.subRep) := by
  rw [← optRepEq_iff, ← eqv_sameAs]
  unfold PatchPath.eq
  cases hr : a.rep.eqv b.rep with
  | false => simp
  | true =>
    simp only [Bool.not_true, Bool.false_eq_true, if_false, true_and]
    cases hx : a.filter with
    | none => cases hy : b.filter <;> simp [BothOr]
    | some x =>
      cases hy : b.filter with
      | none => simp [BothOr]
      | some y =>
        obtain ⟨⟨c, hc⟩, hi⟩ := C100_eq x y
        dsimp only
        rw [hc] at hi ⊢
        refine ⟨⟨_, rfl⟩, ?_⟩
        simp only [BothOr, ← hi]
        simp

end Scim

namespace Scim.Examples.FilterEq
local instance filterEqEnv : PyEnv := asciiEnv

/-- **C99** an accepted filter with every kind of part -/
example : Filter.parse "not (emails[type eq \"work\" and primary eq true] or urn:a:b:x.y co 'z') and n gt 1.5".toList
    = .ok (some (.and [.not (.or [.cplx { attr := "emails".toList } (.and [.cmp .eq { attr := "type".toList } (.str "work".toList),
        .cmp .eq { attr := "primary".toList } (.bool true)]),
      .cplx { schema := "urn:a:b".toList, attr := "x".toList } (.cmp .co { attr := "y".toList } (.str "z".toList))]),
      .cmp .gt { attr := "n".toList } (.flt (.fin (3/2)))]), {}) := by decide +kernel

/-- **C99** the filter of an accepted path -/
example : PatchPath.parse "emails[type eq \"work\"].value".toList
    = .ok (some ⟨{ attr := "emails".toList }, some (.cplx { attr := "emails".toList }
      (.cmp .eq { attr := "type".toList } (.str "work".toList))), some { attr := "emails".toList, sub := "value".toList }⟩, {}) := by
  decide +kernel

/-- The filters of two texts are equal. -/
def eqTexts (s t : String) : Option Bool :=
  match Filter.parse s.toList, Filter.parse t.toList with
  | .ok (some a, _), .ok (some b, _) => match Filter.eq a b with
    | .ok c => some c
    | .error _ => none
  | _, _ => none

/-- **C100** spacing, brackets, kinds of quotes, the case of operators and the writing of numbers do not matter -/
example : eqTexts "a eq \"x\" and (b GT 1.0)" " (a  EQ 'x')  and b gt 1" = some true := by decide +kernel
/-- **C100** the order of operands, the operator and the letter case of names do -/
example : eqTexts "a pr and b pr" "b pr and a pr" = some false := by decide +kernel
example : eqTexts "a pr and b pr" "a pr or b pr" = some false := by decide +kernel
example : eqTexts "a gt 1" "a ge 1" = some false := by decide +kernel

/-- **C100** names are compared with their letter case, although they mean the same attribute -/
theorem C100_case : eqTexts "userName pr" "username pr" = some false := by decide +kernel

/-- **C100** the hypotheses of the theorem on results are met by different texts -/
example : ∃ a b, Filter.parse "emails.value sw \"x\" or not (active eq true)".toList = .ok (some a, {}) ∧
    Filter.parse "(emails.value SW 'x') or (not  (active eq 1.0))".toList = .ok (some b, {}) ∧ a ≠ b ∧
    Filter.eq a b = .ok true := by
  refine ⟨.or [.cplx { attr := "emails".toList } (.cmp .sw { attr := "value".toList } (.str "x".toList)),
    .not (.cmp .eq { attr := "active".toList } (.bool true))],
    .or [.cplx { attr := "emails".toList } (.cmp .sw { attr := "value".toList } (.str "x".toList)),
    .not (.cmp .eq { attr := "active".toList } (.int 1))], ?_⟩
  decide +kernel

/-- **C100** without the hypothesis that the filters were accepted it fails: of dotted names only the last part is
compared. -/
theorem C100_by_hand :
    let a : Op := .pr { attr := "name".toList, sub := "x".toList }
    let b : Op := .pr { attr := "other".toList, sub := "x".toList }
    let attrs : List Attr := [.simple { rep := { attr := "name".toList, sub := "x".toList }, type := .string }]
    let data := Val.toCont (.dict [("name".toList, .dict [("x".toList, .str "y".toList)])])
    Filter.eq a b = .ok true ∧ Filter.call a data attrs ≠ Filter.call b data attrs := by decide +kernel

/-- **C100** a filter built by hand around NaN is not equal to itself; the parser makes none -/
theorem C100_nan : Filter.eq (.cmp .eq { attr := "a".toList } (.flt .nan)) (.cmp .eq { attr := "a".toList } (.flt .nan)) = .ok false := by
  decide +kernel

/-- The paths of two texts are equal. -/
def eqPaths (s t : String) : Option Bool :=
  match PatchPath.parse s.toList, PatchPath.parse t.toList with
  | .ok (some a, _), .ok (some b, _) => match PatchPath.eq a b with
    | .ok c => some c
    | .error _ => none
  | _, _ => none

/-- **C100** paths -/
example : eqPaths "name.familyName" "NAME.FAMILYname" = some true := by decide +kernel
example : eqPaths "emails[type eq 'work'].value" "emails[ type EQ \"work\" ].VALUE" = some true := by decide +kernel
example : eqPaths "emails[type eq 'work'].value" "emails[type eq 'work']" = some false := by decide +kernel
/-- **C100** in filters the letter case of names matters, even of the attribute that is compared without it before -/
theorem C100_path_case : eqPaths "emails" "Emails" = some true ∧ eqPaths "emails[type pr]" "Emails[type pr]" = some false := by
  decide +kernel

end Scim.Examples.FilterEq
