import Verif.Lemmas.Validators

/-! Which error codes processing a value can report. -/

namespace Scim

open Issues

/-- A well-formed collection whose codes all satisfy `P`. -/
structure Issues.Only (P : Nat → Prop) (i : Issues) : Prop where
  wf : i.WF
  only : ∀ l, ∀ e ∈ i.errorsAt l, P e.code

namespace Issues.Only

variable {P : Nat → Prop}

theorem empty : Only P {} := ⟨WF.empty, by simp⟩

theorem add {i : Issues} (h : Only P i) {e : VErr} (he : P e.code) (b : Bool) (l : Loc) : Only P (i.add e b l) := by
  refine ⟨h.wf.add _ _ _, ?_⟩
  intro l' e' hm
  rw [errorsAt_add] at hm
  rcases List.mem_append.mp hm with hm | hm
  · exact h.only _ _ hm
  · split at hm
    · rw [List.mem_singleton.mp hm]; exact he
    · simp at hm

theorem merge {i o : Issues} (h : Only P i) (ho : Only P o) (l : Loc) : Only P (i.merge o l) := by
  refine ⟨h.wf.merge ho.wf l, ?_⟩
  intro l' e' hm
  rw [errorsAt_merge ho.wf] at hm
  rcases List.mem_append.mp hm with hm | hm
  · exact h.only _ _ hm
  · split at hm
    · exact ho.only _ _ hm
    · simp at hm

theorem blocking {c : Nat} (hc : P c) : Only P (Scim.blocking c) := empty.add (e := ⟨c, []⟩) hc _ _

end Issues.Only

variable [PyEnv]

/-- The codes of type conversions and of the check of canonical values. -/
def valueCodes : List Nat := [1, 2, 3, 8, 14]

theorem parse_only (t : AttrType) (v r : Val) (i : Issues) (h : t.parse v = .ok (r, i)) :
    i.Only (· ∈ valueCodes) := by
  have b : ∀ c, c ∈ valueCodes → (blocking c).Only (· ∈ valueCodes) := fun c hc => .blocking hc
  have b1 := b 1 (by decide)
  have b2 := b 2 (by decide)
  have b3 := b 3 (by decide)
  have b8 := b 8 (by decide)
  have e0 : Issues.Only (· ∈ valueCodes) {} := .empty
  cases t with
  | unknown => simp only [AttrType.parse, Except.ok.injEq, Prod.mk.injEq] at h; rw [← h.2]; exact e0
  | boolean =>
    simp only [AttrType.parse, booleanConv] at h
    split at h <;> cases h
    · exact e0
    · exact b2
  | decimal =>
    simp only [AttrType.parse, decimalConv] at h
    split at h
    · cases h; exact e0
    · split at h
      · split at h <;> cases h
        exact e0
      · cases h; exact b2
    · cases h; exact b2
  | integer =>
    simp only [AttrType.parse, integerConv] at h
    split at h
    · split at h
      · cases h
      · split at h <;> cases h
        · exact e0
        · exact b2
    · cases h; exact e0
    · cases h; exact e0
    · cases h; exact b2
  | binary =>
    simp only [AttrType.parse, binaryConv] at h
    split at h
    · split at h
      · cases h
      · split at h
        · cases h; exact b3
        · split at h <;> cases h
          · exact b3
          · exact e0
    · cases h; exact b2
  | extRef =>
    simp only [AttrType.parse, extRefConv] at h
    split at h
    · split at h <;> cases h
      · exact e0
      · exact e0.merge b8 []
    · cases h; exact b2
  | dateTime =>
    simp only [AttrType.parse] at h
    split at h
    · split at h <;> cases h
      · exact e0
      · exact b1
    · cases h; exact b2
  | complex =>
    simp only [AttrType.parse] at h
    split at h <;> cases h
    · exact e0
    · exact b2
  | string | uriRef | scimRef =>
    simp only [AttrType.parse, stringConv] at h
    split at h <;> cases h
    · exact e0
    · exact b2

theorem conv_only {m : Mode} {t : AttrType} {v r : Val} {i : Issues} (h : t.conv m v = .ok (r, i)) :
    i.Only (· ∈ valueCodes) := by
  cases m
  · exact parse_only t v r i h
  · have h : t.dump v = .ok (r, i) := h
    by_cases hd : t = .dateTime
    · subst hd
      simp only [AttrType.dump] at h
      split at h <;> cases h
      · exact .empty
      · exact .blocking (by decide)
    · have h' : t.parse v = .ok (r, i) := by
        cases t <;> first | exact absurd rfl hd | exact h
      exact parse_only t v r i h'

section
variable {P : Nat → Prop} (hP : ∀ c ∈ valueCodes, P c)
include hP

theorem conv_only' {m : Mode} {t : AttrType} {v r : Val} {i : Issues} (h : t.conv m v = .ok (r, i)) : i.Only P :=
  ⟨(conv_only h).wf, fun l e he => hP _ ((conv_only h).only l e he)⟩

theorem processOne_only {m : Mode} {a : AttrInfo} {loc : Loc} {v r : Val} {s is : Issues} (hs : s.Only P)
    (h : a.processOne m loc v s = .ok (r, is)) : is.Only P := by
  unfold AttrInfo.processOne at h
  split at h
  · cases h
  · rename_i item i hc
    simp only at h
    split at h <;> cases h
    · exact (hs.merge (conv_only' hP hc) loc).add (hP 14 (by decide)) _ _
    · exact hs.merge (conv_only' hP hc) loc

theorem processItems_only {m : Mode} {a : AttrInfo} {k : Nat} {xs ys : List Val} {s is : Issues} (hs : s.Only P)
    (h : a.processItems m k xs s = .ok (ys, is)) : is.Only P := by
  induction xs generalizing k s ys with
  | nil => simp only [AttrInfo.processItems] at h; cases h; exact hs
  | cons x xs ih =>
    simp only [AttrInfo.processItems] at h
    split at h
    · cases h
    · rename_i item s1 hx
      split at h
      · cases h
      · rename_i items s2 hr
        cases h
        exact ih (processOne_only hP hs hx) hr

omit [PyEnv] hP in
theorem runProcs_only {ps : List Proc} (hps : ∀ p ∈ ps, ∀ v r is, p v = .ok (r, is) → is.Only P) {v r : Val}
    {s is : Issues} (hs : s.Only P) (h : runProcs ps v s = .ok (r, is)) : is.Only P := by
  induction ps generalizing v s with
  | nil => simp only [runProcs] at h; cases h; exact hs
  | cons p ps ih =>
    simp only [runProcs] at h
    split at h
    · cases h
    · rename_i v' i hp
      exact ih (fun q hq => hps q (List.mem_cons_of_mem _ hq)) (hs.merge (hps p (by simp) _ _ _ hp) []) h

theorem base_only {m : Mode} {a : AttrInfo} {v : Val} {o : Option Val} {is : Issues}
    (h : a.base m v = .ok (o, is)) : is.Only P := by
  unfold AttrInfo.base at h
  split at h
  · split at h
    · split at h
      · cases h
      · rename_i hx; cases h; exact processItems_only hP .empty hx
    · cases h; exact .blocking (hP 2 (by decide))
  · split at h
    · cases h
    · rename_i hx; cases h; exact processOne_only hP .empty hx

theorem info_process_only {m : Mode} {a : AttrInfo} (ha : ∀ p ∈ a.procs m, ∀ v r is, p v = .ok (r, is) → is.Only P)
    {v r : Val} {is : Issues} (h : a.process m v = .ok (r, is)) : is.Only P := by
  rw [info_process_eq] at h
  split at h
  · cases h; exact .empty
  · split at h
    · cases h
    · rename_i hb; cases h; exact base_only hP hb
    · rename_i p i hb
      split at h
      · cases h; exact base_only hP hb
      · exact runProcs_only ha (base_only hP hb) h

omit hP in
theorem complexItems_only {f : Loc → Val → Issues → PyM (Val × Issues)}
    (hf : ∀ loc v s r is, s.Only P → f loc v s = .ok (r, is) → is.Only P) {k : Nat} {xs ys : List Val}
    {s is : Issues} (hs : s.Only P) (h : complexItems f k xs s = .ok (ys, is)) : is.Only P := by
  induction xs generalizing k s ys with
  | nil => simp only [complexItems] at h; cases h; exact hs
  | cons x xs ih =>
    simp only [complexItems] at h
    split at h
    · cases h
    · rename_i item s1 hx
      split at h
      · cases h
      · rename_i items s2 hr
        cases h
        exact ih (hf _ _ _ _ _ hs hx) hr

omit hP [PyEnv] in
/-- The processor reports only such codes. -/
def ProcOnly (P : Nat → Prop) (p : Proc) : Prop := ∀ v r is, p v = .ok (r, is) → is.Only P

mutual
/-- The processors of an attribute, and of its sub-attributes, report only such codes. -/
def _root_.Scim.Attr.ProcsOnly (P : Nat → Prop) (m : Mode) : Attr → Prop
  | .simple i => ∀ p ∈ i.procs m, ProcOnly P p
  | .complex i subs ps ds =>
    (∀ p ∈ i.procs m, ProcOnly P p) ∧ (∀ p ∈ (match m with | .parse => ps | .dump => ds), ProcOnly P p) ∧ ProcsOnlyAll P m subs
/-- the same for all attributes of a list -/
def _root_.Scim.ProcsOnlyAll (P : Nat → Prop) (m : Mode) : List Attr → Prop
  | [] => True
  | a :: r => a.ProcsOnly P m ∧ ProcsOnlyAll P m r
end

omit [PyEnv] hP in
theorem procsOnlyAll_iff {m : Mode} {as : List Attr} : ProcsOnlyAll P m as ↔ ∀ a ∈ as, a.ProcsOnly P m := by
  induction as with
  | nil => simp [ProcsOnlyAll]
  | cons a as ih => simp [ProcsOnlyAll, ih]

mutual
theorem process_only {m : Mode} : ∀ (a : Attr), a.ProcsOnly P m → ∀ {v r : Val} {is : Issues},
    a.process m v = .ok (r, is) → is.Only P
  | .simple info, hs, v, r, is, h => by
    rw [Attr.process] at h
    exact info_process_only hP hs h
  | .complex info subs ps ds, hs, v, r, is, h => by
    obtain ⟨hs1, hs2, hs3⟩ := hs
    rw [complex_process_eq] at h
    split at h
    · cases h
    · rename_i value issues hi
      have hw : issues.Only P := info_process_only hP hs1 hi
      split at h
      · cases h; exact hw
      · split at h
        · cases h
        · rename_i parsed issues2 hb
          have hw2 : issues2.Only P := by
            unfold complexBody at hb
            split at hb
            · split at hb
              · split at hb
                · cases hb
                · rename_i hc
                  cases hb
                  exact complexItems_only (fun loc v s r is hs h => processSubs_only subs hs3 hs h) hw hc
              · cases hb
            · exact processSubs_only subs hs3 hw hb
          split at h
          · cases h; exact hw2
          · exact runProcs_only hs2 hw2 h
theorem processSubs_only {m : Mode} : ∀ (ss : List Attr), ProcsOnlyAll P m ss → ∀ {loc : Loc} {item parsed r : Val}
    {s is : Issues}, s.Only P → processSubs m ss loc item parsed s = .ok (r, is) → is.Only P
  | [], _, loc, item, parsed, r, s, is, hw, h => by
    rw [processSubs] at h; cases h; exact hw
  | a :: ss, hs, loc, item, parsed, r, s, is, hw, h => by
    have hs1 : a.ProcsOnly P m := hs.1
    have hs2 : ProcsOnlyAll P m ss := hs.2
    rw [processSubs] at h
    split at h
    · cases h
    · exact processSubs_only ss hs2 hw h
    · split at h
      · cases h
      · rename_i hp
        split at h
        · cases h
        · exact processSubs_only ss hs2 (hw.merge (process_only a hs1 hp) _) h
end

theorem processTop_only {m : Mode} : ∀ (as : List Attr), ProcsOnlyAll P m as → ∀ {data r0 r : Val} {s is : Issues}, s.Only P →
    processTop m as data r0 s = .ok (r, is) → is.Only P
  | [], _, data, r0, r, s, is, hw, h => by rw [processTop] at h; cases h; exact hw
  | a :: as, hs, data, r0, r, s, is, hw, h => by
    rw [processTop] at h
    split at h
    · cases h
    · exact processTop_only as hs.2 hw h
    · split at h
      · cases h
      · rename_i hp
        split at h
        · cases h
        · exact processTop_only as hs.2 (hw.merge (process_only hP a hs.1 hp) _) h

end

section
variable {P : Nat → Prop}

theorem procOnly_primary (h9 : P 9) : ProcOnly P validateSinglePrimary := by
  intro v r is hv
  unfold validateSinglePrimary at hv
  split at hv
  · split at hv
    · cases hv
    · cases hv
      split
      · exact Issues.Only.empty.add (e := ⟨9, []⟩) h9 _ _
      · exact .empty
  · cases hv

mutual
/-- The processors of standard attributes. -/
theorem standard_procsOnly {m : Mode} (h7 : P 7) (h9 : P 9) : ∀ (a : Attr), a.Standard m → a.ProcsOnly P m
  | .simple info, hs => by
    intro p hp v r is hv
    have hs' : info.procs m = [] ∨ (info.type = .string ∧ info.multi = false ∧ info.procs m = [bulkIdValidator]) := hs
    have hp' : p ∈ info.procs m := hp
    rcases hs' with hs' | ⟨_, _, hs'⟩
    · rw [hs'] at hp'; simp at hp'
    · rw [hs'] at hp'
      rw [List.mem_singleton.mp hp'] at hv
      unfold bulkIdValidator at hv
      split at hv
      · split at hv <;> cases hv
        · exact .blocking h7
        · exact .empty
      · cases hv
  | .complex info subs ps ds, hs => by
    obtain ⟨_, _, hs1, hs2, _, hs3⟩ := hs
    refine ⟨?_, ?_, standard_procsOnlyAll h7 h9 subs hs3⟩
    · intro p hp
      have hp' : p ∈ info.procs m := hp
      rw [hs1] at hp'; simp at hp'
    · intro p hp
      rw [(hs2 p hp).1]
      exact procOnly_primary h9
theorem standard_procsOnlyAll {m : Mode} (h7 : P 7) (h9 : P 9) : ∀ (as : List Attr), StandardAll m as → ProcsOnlyAll P m as
  | [], _ => trivial
  | a :: as, hs => ⟨standard_procsOnly h7 h9 a hs.1, standard_procsOnlyAll h7 h9 as hs.2⟩
end

end

section
variable {P : Nat → Prop}

omit [PyEnv] in
theorem schemasLoop_only (h27 : P 27) {main : Str} {known : List Str} : ∀ {l : List Str} {a b : Bool} {s : Issues},
    s.Only P → (schemasLoop main known l a b s).2.Only P
  | [], _, _, _, hs => hs
  | x :: r, a, b, s, hs => by
    rw [schemasLoop]
    split
    · exact schemasLoop_only h27 hs
    · split
      · exact schemasLoop_only h27 (hs.add (e := ⟨27, []⟩) h27 _ _)
      · exact schemasLoop_only h27 hs

theorem extKeysLoop_only (h29 : P 29) {known listed : List Str} : ∀ {l : List Str} {s : Issues},
    s.Only P → (extKeysLoop known listed l s).Only P
  | [], _, hs => hs
  | k :: r, s, hs => by
    rw [extKeysLoop]
    refine extKeysLoop_only h29 ?_
    split
    · exact hs.add (e := ⟨29, k⟩) h29 _ _
    · exact hs

theorem validateSchemasField_only (h27 : P 27) (h28 : P 28) (h29 : P 29) {d : Val} {xs : List Val} {main : Str}
    {known : List Str} {is : Issues} (h : validateSchemasField d xs main known = .ok is) : is.Only P := by
  unfold validateSchemasField at h
  split at h
  · cases h
  · rename_i listed hl
    cases h
    refine extKeysLoop_only h29 ?_
    split
    · exact schemasLoop_only h27 .empty
    · exact (schemasLoop_only h27 .empty).add (e := ⟨28, []⟩) h28 _ _

end

/-- The codes parsing an object with a standard schema can report. -/
def objectCodes : List Nat := [1, 2, 3, 7, 8, 9, 14, 27, 28, 29]

theorem schema_process_only {m : Mode} {s : Schema} (hs : StandardAll m s.attrs.top) {data r : Val} {is : Issues}
    (hd : data.isNone = false) (h : s.process m data = .ok (r, is)) : is.Only (· ∈ objectCodes) := by
  unfold Schema.process at h
  rw [hd, if_neg (by simp)] at h
  split at h
  · cases h; exact .blocking (by decide)
  · split at h
    · cases h
    · rename_i r1 is1 ht
      have h1 : is1.Only (· ∈ objectCodes) :=
        processTop_only (by decide) _ (standard_procsOnlyAll (by decide) (by decide) _ hs) .empty ht
      simp only at h
      split at h
      · cases h
      · split at h
        · cases h
        · split at h
          · split at h
            · split at h
              · cases h
              · rename_i hv
                cases h
                exact (Issues.Only.empty.merge h1 []).merge
                  (validateSchemasField_only (by decide) (by decide) (by decide) hv) []
            · cases h
          · cases h; exact Issues.Only.empty.merge h1 []

end Scim
