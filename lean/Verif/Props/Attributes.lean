import Verif.Lemmas.Attributes
import Verif.Model.DecEq

/-!
# Properties of attribute processing (C23–C27)

`m : Mode` is `parse` or `dump`; a result of the attribute `a` on the value `v` is `a.process m v`.
-/

namespace Scim
open Issues

section
variable [PyEnv]

/-! ### C23 multi-valued attributes -/

/-- **C23** anything but a list (or `None`) is `Invalid` with a blocking issue. -/
theorem C23_non_list (m : Mode) (a : AttrInfo) (hm : a.multi = true) (v : Val) (hv : v.isNone = false)
    (hl : v.isList = false) : ∃ is, (Attr.simple a).process m v = .ok (.invalid, is) ∧ is.Blocks := by
  rw [Attr.process, info_process_eq, hv]
  simp only [Bool.false_eq_true, if_false, AttrInfo.base, hm, if_true]
  cases v <;> first | exact ⟨_, rfl, blocks_blocking 2⟩ | simp [Val.isList] at hl

/-- **C23** a list gives a list of the same length; the item at each place is the result of the same
attribute, taken as single-valued, on the input at that place, and that result's issues are exactly the issues
below the index.  There is no issue anywhere else. -/
theorem C23_items (m : Mode) (a : AttrInfo) (hm : a.multi = true) (hp : a.procs m = []) (xs : List Val)
    (r : Val) (is : Issues) (h : (Attr.simple a).process m (.list xs) = .ok (r, is)) :
    ∃ ys, r = .list ys ∧ ys.length = xs.length ∧
      (∀ i x, xs[i]? = some x → x.isNone = false → ∃ y isx, ys[i]? = some y ∧
        (Attr.simple { a with multi := false }).process m x = .ok (y, isx) ∧
        ∀ l, is.errorsAt (.idx i :: l) = isx.errorsAt l) ∧
      (∀ l, is.errorsAt l ≠ [] → ∃ i l', i < xs.length ∧ l = .idx i :: l') := by
  rw [Attr.process, info_process_eq] at h
  simp only [Val.isNone, Bool.false_eq_true, if_false, AttrInfo.base, hm, if_true] at h
  split at h
  · cases h
  · rename_i hb
    split at hb
    · cases hb
    · cases hb
  · rename_i p i hb
    split at hb
    · cases hb
    · rename_i ys i' hpi
      cases hb
      have hr : r = .list ys ∧ is = i := by
        split at h
        · cases h; exact ⟨rfl, rfl⟩
        · rw [hp, runProcs] at h; cases h; exact ⟨rfl, rfl⟩
      obtain ⟨rfl, rfl⟩ := hr
      obtain ⟨h1, h2, _⟩ := processItems_spec hpi
      refine ⟨ys, rfl, processItems_length hpi, ?_, ?_⟩
      · intro j x hx hnn
        obtain ⟨y, i1, hy, ho, he⟩ := h1 j x hx
        refine ⟨y, i1, hy, ?_, ?_⟩
        · rw [Attr.process, info_process_eq, hnn]
          simp only [Bool.false_eq_true, if_false, AttrInfo.base]
          have ho' : ({ a with multi := false } : AttrInfo).processOne m [] x {} = .ok (y, i1) := ho
          rw [ho']
          have hp' : ({ a with multi := false } : AttrInfo).procs m = [] := by
            cases m <;> exact hp
          simp only [hp', runProcs, ite_self]
        · intro l
          have := he l
          rw [Nat.zero_add] at this
          rw [this]; simp
      · intro l hl
        apply Classical.byContradiction
        intro hcon
        apply hl
        rw [h2 l]
        · rfl
        · intro i l' hi e
          rw [Nat.zero_add] at e
          exact hcon ⟨i, l', hi, e⟩

/-- **C23** a `null` item is `Invalid` and reported at its index. -/
theorem C23_null_item (m : Mode) (a : AttrInfo) (hm : a.multi = true) (hp : a.procs m = [])
    (ht : a.type ≠ .unknown) (xs : List Val) (r : Val) (is : Issues)
    (h : (Attr.simple a).process m (.list xs) = .ok (r, is)) (i : Nat) (hi : xs[i]? = some .null) :
    ∃ ys, r = .list ys ∧ ys[i]? = some .invalid ∧ is.errorsAt [.idx i] ≠ [] := by
  rw [Attr.process, info_process_eq] at h
  simp only [Val.isNone, Bool.false_eq_true, if_false, AttrInfo.base, hm, if_true] at h
  split at h
  · cases h
  · rename_i hb
    split at hb
    · cases hb
    · cases hb
  · rename_i p i' hb
    split at hb
    · cases hb
    · rename_i ys i'' hpi
      cases hb
      have hr : r = .list ys ∧ is = i' := by
        split at h
        · cases h; exact ⟨rfl, rfl⟩
        · rw [hp, runProcs] at h; cases h; exact ⟨rfl, rfl⟩
      obtain ⟨rfl, rfl⟩ := hr
      obtain ⟨y, i1, hy, ho, he⟩ := (processItems_spec hpi).1 i _ hi
      have hconv : a.type.conv m .null = .ok badType := by
        cases m <;> cases hta : a.type <;> first | exact absurd hta ht | rfl
      have hone : a.one m .null = .ok (.invalid, Issues.empty.merge (blocking 2)) := by
        simp [AttrInfo.one, AttrInfo.processOne, hconv, badType, AttrInfo.isCanonical]
      rw [hone] at ho
      cases ho
      refine ⟨ys, rfl, hy, ?_⟩
      have := he []
      rw [Nat.zero_add] at this
      rw [this, errorsAt_merge (wf_blocking 2), errorsAt_blocking]
      simp

/-! ### C24 canonical values -/

/-- The result of the constructor, on one value. -/
theorem canonical_iff (ce : Bool) (cs : List Prim) (p : Prim) :
    (cs.map (Prim.normCase ce)).any (fun c => (p.normCase ce).pyEq c) = true ↔
      ∃ c ∈ cs, IsCanonicalValue ce p c := by
  simp only [List.any_map, List.any_eq_true, Function.comp]
  have : ∀ c : Prim, (p.normCase ce).pyEq (c.normCase ce) = true ↔ IsCanonicalValue ce p c := by
    intro c
    cases p <;> cases c <;> cases ce <;>
      simp [Prim.normCase, IsCanonicalValue, Prim.pyEq, Prim.num?]
  simp only [this]

/-- **C24** single-valued: with enforced canonical values, a result comes without issue only if it is one of
them; otherwise it is `Invalid` and an issue stands at the attribute. -/
theorem C24_single (m : Mode) (i : AttrInfo) (cs : List Prim) (hc : i.canonical = some cs)
    (hv : i.validateCanon = true) (hm : i.multi = false) (hp : i.procs m = []) (v : Val)
    (hn : v.isNone = false) (hni : v.isInvalid = false) (r : Val) (is : Issues)
    (h : (mkAttr i).process m v = .ok (r, is)) :
    (is.hasIssues = false ∧ ∃ p, r = .prim p ∧ ∃ c ∈ cs, IsCanonicalValue i.caseExact p c) ∨
    (r = .invalid ∧ is.errorsAt [] ≠ []) := by
  rw [mkAttr, Attr.process, info_process_eq, hn] at h
  simp only [Bool.false_eq_true, if_false, AttrInfo.base, hm] at h
  simp only [AttrInfo.procs] at hp h
  rw [hp] at h
  unfold AttrInfo.processOne at h
  simp only at h
  cases hcv : i.type.conv m v with
  | error e => simp [hcv] at h
  | ok q =>
    obtain ⟨item, is0⟩ := q
    simp only [hcv, hc, hv, normCanonical, Option.map_some, Bool.and_true] at h
    generalize hcan : AttrInfo.isCanonical _ item = b at h
    cases b
    case true =>
      simp only [Bool.not_true, Bool.false_eq_true, if_false, runProcs] at h
      have hr : item = r ∧ Issues.empty.merge is0 [] = is := by
        split at h <;> (cases h; exact ⟨rfl, rfl⟩)
      obtain ⟨rfl, rfl⟩ := hr
      by_cases hu : i.type = .unknown
      · rw [hu, conv_unknown] at hcv
        cases hcv
        left
        refine ⟨rfl, ?_⟩
        cases v with
        | prim p =>
          refine ⟨p, rfl, ?_⟩
          simp only [AttrInfo.isCanonical] at hcan
          exact (canonical_iff _ _ _).mp hcan
        | invalid => simp [Val.isInvalid] at hni
        | _ => simp [AttrInfo.isCanonical] at hcan
      · rcases conv_dichotomy hu hcv with ⟨rfl, hb⟩ | ⟨rfl, hne⟩
        · right
          refine ⟨rfl, ?_⟩
          rw [errorsAt_merge (conv_wf hcv)]
          have := (hasIssues_iff_errors (conv_wf hcv)).mp hb.1
          obtain ⟨l, hl⟩ := this
          cases l with
          | nil => simpa using hl
          | cons a b => exact absurd (conv_errors hcv (by simp)) hl
        · left
          refine ⟨rfl, ?_⟩
          cases item with
          | prim p =>
            refine ⟨p, rfl, ?_⟩
            simp only [AttrInfo.isCanonical] at hcan
            exact (canonical_iff _ _ _).mp hcan
          | invalid => exact absurd rfl hne
          | _ => simp [AttrInfo.isCanonical] at hcan
    case false =>
      simp only [Bool.not_false, if_true, hasIssues_add] at h
      cases h
      right
      refine ⟨rfl, ?_⟩
      rw [errorsAt_add]
      simp

/-- **C24** multi-valued: every item is one of the canonical values, or `Invalid` with an issue at its
index. -/
theorem C24_multi (m : Mode) (i : AttrInfo) (cs : List Prim) (hc : i.canonical = some cs)
    (hv : i.validateCanon = true) (hm : i.multi = true) (hp : i.procs m = []) (xs : List Val)
    (r : Val) (is : Issues) (h : (mkAttr i).process m (.list xs) = .ok (r, is)) :
    ∃ ys, r = .list ys ∧ ys.length = xs.length ∧ ∀ k x, xs[k]? = some x → x.isNone = false →
      x.isInvalid = false →
      (∃ p, ys[k]? = some (.prim p) ∧ (∃ c ∈ cs, IsCanonicalValue i.caseExact p c)) ∨
      (ys[k]? = some .invalid ∧ is.errorsAt [.idx k] ≠ []) := by
  have hp' : AttrInfo.procs m { i with canonical := normCanonical i.caseExact i.canonical, refTypes := normRefTypes i.type i.refTypes } = [] := by
    cases m <;> exact hp
  obtain ⟨ys, h1, h2, h3, h4⟩ := C23_items m
    { i with canonical := normCanonical i.caseExact i.canonical, refTypes := normRefTypes i.type i.refTypes } hm hp' xs r is h
  refine ⟨ys, h1, h2, ?_⟩
  intro k x hx hn hni
  obtain ⟨y, isx, hy, hpr, he⟩ := h3 k x hx hn
  have hp'' : AttrInfo.procs m { i with multi := false } = [] := by
    cases m <;> exact hp
  have := C24_single m { i with multi := false } cs hc hv rfl hp'' x hn hni y isx hpr
  rcases this with ⟨_, p, rfl, hp⟩ | ⟨rfl, hi⟩
  · exact .inl ⟨p, hy, hp⟩
  · exact .inr ⟨hy, by rw [he []]; exact hi⟩

/-- **C24** a value of the right type that is not canonical is reported (code 14), and a canonical one is
returned unchanged without issue. -/
theorem C24_decides (m : Mode) (i : AttrInfo) (cs : List Prim) (hc : i.canonical = some cs)
    (hv : i.validateCanon = true) (hm : i.multi = false) (hp : i.procs m = []) (v : Val)
    (hn : v.isNone = false) (p : Prim) (hconv : i.type.conv m v = .ok (.prim p, {})) :
    ((∃ c ∈ cs, IsCanonicalValue i.caseExact p c) → (mkAttr i).process m v = .ok (.prim p, {})) ∧
    ((¬ ∃ c ∈ cs, IsCanonicalValue i.caseExact p c) →
      (mkAttr i).process m v = .ok (.invalid, Issues.empty.add ⟨14, []⟩ false)) := by
  simp only [AttrInfo.procs] at hp
  rw [mkAttr, Attr.process, info_process_eq, hn]
  simp only [Bool.false_eq_true, if_false, AttrInfo.base, hm, AttrInfo.procs, hp, AttrInfo.processOne, hconv, hc, hv,
    normCanonical, Option.map_some, Bool.and_true, runProcs, ite_self]
  rw [← canonical_iff]
  constructor
  · intro hcan
    simp [AttrInfo.isCanonical, hcan, Issues.merge]
  · intro hcan
    simp only [Bool.not_eq_true] at hcan
    simp [AttrInfo.isCanonical, hcan, Issues.merge]

/-! ### C25 null -/

/-- **C25** `None` is returned unchanged without issues by every attribute, simple or complex. -/
theorem C25_null (m : Mode) (a : Attr) : a.process m .null = .ok (.null, {}) := by
  cases a with
  | simple i => rfl
  | complex i subs ps ds =>
    rw [complex_process_eq]
    rfl

/-! ### C26 primary -/

/-- The item has `primary` set to `True`. -/
def IsPrimary (v : Val) : Prop := v.getName "primary".toList = .ok (.bool true)

theorem primaryEntries_spec (k : Nat) (xs : List Val) (es : List Nat) (h : primaryEntries k xs = .ok es) :
    es.Nodup ∧ ∀ j, j ∈ es ↔ ∃ i x, j = k + i ∧ xs[i]? = some x ∧ IsPrimary x := by
  induction xs generalizing k es with
  | nil => simp only [primaryEntries] at h; cases h; simp
  | cons v vs ih =>
    simp only [primaryEntries] at h
    split at h
    · cases h
    · rename_i x hx
      split at h
      · cases h
      · rename_i r hr
        obtain ⟨h1, h2⟩ := ih (k + 1) r hr
        have hk : k ∉ r := by
          intro hm
          obtain ⟨i, _, e, _⟩ := (h2 k).mp hm
          omega
        have hprim : x.isTrue = true ↔ IsPrimary v := by
          unfold IsPrimary
          rw [hx]
          constructor
          · intro ht
            unfold Val.isTrue at ht
            split at ht
            · rfl
            · cases ht
          · intro e; cases e; rfl
        have hmem : ∀ j, (j ∈ r ∨ (j = k ∧ IsPrimary v)) ↔
            ∃ i x, j = k + i ∧ (v :: vs)[i]? = some x ∧ IsPrimary x := by
          intro j
          constructor
          · rintro (hj | ⟨rfl, hj⟩)
            · obtain ⟨i, x, e, hx, hp⟩ := (h2 j).mp hj
              exact ⟨i + 1, x, by omega, by simpa using hx, hp⟩
            · exact ⟨0, v, by omega, by simp, hj⟩
          · rintro ⟨i, x, e, hx, hp⟩
            cases i with
            | zero =>
              simp only [List.getElem?_cons_zero, Option.some.injEq] at hx
              subst hx
              exact .inr ⟨by omega, hp⟩
            | succ i =>
              exact .inl ((h2 j).mpr ⟨i, x, by omega, by simpa using hx, hp⟩)
        split at h
        · rename_i ht
          cases h
          refine ⟨List.nodup_cons.mpr ⟨hk, h1⟩, ?_⟩
          intro j
          rw [← hmem j, List.mem_cons]
          constructor
          · rintro (rfl | h)
            · exact .inr ⟨rfl, hprim.mp ht⟩
            · exact .inl h
          · rintro (h | ⟨rfl, _⟩)
            · exact .inr h
            · exact .inl rfl
        · rename_i ht
          cases h
          refine ⟨h1, ?_⟩
          intro j
          rw [← hmem j]
          constructor
          · exact .inl
          · rintro (h | ⟨_, h⟩)
            · exact h
            · exact absurd (hprim.mpr h) ht

/-- **C26** an issue is reported exactly when two different items are primary; the items come back
unchanged. -/
theorem C26_single_primary (xs : List Val) (r : Val) (is : Issues)
    (h : validateSinglePrimary (.list xs) = .ok (r, is)) :
    r = .list xs ∧
    (is.hasIssues = true ↔ ∃ (j k : Nat) (x y : Val), j < k ∧ xs[j]? = some x ∧ xs[k]? = some y ∧ IsPrimary x ∧ IsPrimary y) := by
  unfold validateSinglePrimary at h
  simp only at h
  split at h
  · cases h
  · rename_i es he
    cases h
    obtain ⟨hnd, hm⟩ := primaryEntries_spec 0 xs es he
    refine ⟨rfl, ?_⟩
    have key : es.length > 1 ↔ ∃ j k, j < k ∧ j ∈ es ∧ k ∈ es := by
      constructor
      · intro hl
        match es, hl, hnd with
        | a :: b :: _, _, hnd =>
          simp only [List.nodup_cons, List.mem_cons, not_or] at hnd
          rcases Nat.lt_or_gt_of_ne hnd.1.1 with h | h
          · exact ⟨a, b, h, by simp, by simp⟩
          · exact ⟨b, a, h, by simp, by simp⟩
      · rintro ⟨j, k, hjk, hj, hk⟩
        match es, hj, hk with
        | [a], hj, hk => simp at hj hk; omega
        | a :: b :: t, _, _ => simp
    have hadd : (if es.length > 1 then Issues.empty.add ⟨9, []⟩ true else {}).hasIssues = true ↔ es.length > 1 := by
      by_cases hl : es.length > 1
      · simp [hl, hasIssues_add]
      · rw [if_neg hl]
        simp [hl, (hasIssues_false_iff {}).mpr rfl]
    rw [hadd, key]
    simp only [hm, Nat.zero_add]
    constructor
    · rintro ⟨j, k, hjk, ⟨i, x, rfl, hx, px⟩, ⟨i', y, rfl, hy, py⟩⟩
      exact ⟨_, _, x, y, hjk, hx, hy, px, py⟩
    · rintro ⟨j, k, x, y, hjk, hx, hy, px, py⟩
      exact ⟨j, k, hjk, ⟨j, x, rfl, hx, px⟩, ⟨k, y, rfl, hy, py⟩⟩

/-- **C26** the check never raises on items that are containers without an empty key. -/
theorem C26_total (xs : List Val) (hx : ∀ x ∈ xs, ∃ y, x.getName "primary".toList = .ok y) :
    ∃ is, validateSinglePrimary (.list xs) = .ok (.list xs, is) := by
  have : ∀ k, ∃ es, primaryEntries k xs = .ok es := by
    induction xs with
    | nil => intro k; exact ⟨[], rfl⟩
    | cons v vs ih =>
      intro k
      obtain ⟨y, hy⟩ := hx v (by simp)
      obtain ⟨es, he⟩ := ih (fun x h => hx x (List.mem_cons_of_mem _ h)) (k + 1)
      simp only [primaryEntries, hy, he]
      exact ⟨_, rfl⟩
  obtain ⟨es, he⟩ := this 0
  simp only [validateSinglePrimary, he]
  exact ⟨_, rfl⟩

/-! ### C27 complex attributes -/

omit [PyEnv] in
theorem runProcs_validates {ps : List Proc} (hps : ∀ p ∈ ps, ValidatesOnly p) {v r : Val} {s is : Issues}
    (h : runProcs ps v s = .ok (r, is)) :
    r = v ∧ ∀ l, is.errorsAt l ≠ [] → s.errorsAt l ≠ [] ∨ ∃ p ∈ ps, ∃ i, p v = .ok (v, i) ∧ i.errorsAt l ≠ [] := by
  induction ps generalizing s with
  | nil => simp only [runProcs] at h; cases h; exact ⟨rfl, fun l hl => .inl hl⟩
  | cons p ps ih =>
    simp only [runProcs] at h
    split at h
    · cases h
    · rename_i v' i hp
      obtain ⟨rfl, hw⟩ := hps p (by simp) _ _ _ hp
      obtain ⟨h1, h2⟩ := ih (fun q hq => hps q (List.mem_cons_of_mem _ hq)) h
      refine ⟨h1, ?_⟩
      intro l hl
      rcases h2 l hl with h | ⟨q, hq, j, hj, he⟩
      · rw [errorsAt_merge hw] at h
        simp only [List.nil_prefix, if_true, List.length_nil, List.drop_zero, ne_eq, List.append_eq_nil_iff,
          Classical.not_and_iff_not_or_not] at h
        rcases h with h | h
        · exact .inl h
        · exact .inr ⟨p, by simp, i, hp, h⟩
      · exact .inr ⟨q, by simp [hq], j, hj, he⟩

/-- The declaration of a complex attribute as its constructor leaves it, without post-processors of the base
class. -/
structure ComplexDecl (m : Mode) (info : AttrInfo) : Prop where
  type : info.type = .complex
  canon : info.validateCanon = false
  procs : info.procs m = []

theorem complex_conv (m : Mode) (v : Val) :
    AttrType.complex.conv m v = if v.isCont then .ok (v, {}) else .ok badType := by
  cases m <;> rfl

theorem complex_one {m : Mode} {info : AttrInfo} (hd : ComplexDecl m info) (v : Val) :
    info.one m v = if v.isCont then .ok (v, {}) else .ok (.invalid, Issues.empty.merge (blocking 2)) := by
  unfold AttrInfo.one AttrInfo.processOne
  rw [hd.type, complex_conv]
  by_cases h : v.isCont = true
  · simp [h, hd.canon, Issues.merge]
  · simp [h, hd.canon, badType]

/-- **C27** single-valued complex attribute: a value that is no container is rejected; for a container the
result holds exactly the declared sub-attributes present in the input, each processed on its own; each
issue stands under the name of the sub-attribute that reported it, or was reported by a (validating)
post-processor of the attribute. -/
theorem C27_single (m : Mode) (info : AttrInfo) (subs : List Attr) (ps ds : List Proc)
    (hd : ComplexDecl m info) (hm : info.multi = false) (hs : PlainSubs subs) (hsane : SaneAll subs)
    (hc : ∀ p ∈ (Attr.complex info subs ps ds).cprocs m, ValidatesOnly p)
    (v : Val) (hn : v.isNone = false) (r : Val) (is : Issues)
    (h : (Attr.complex info subs ps ds).process m v = .ok (r, is)) :
    (v.isCont = false → r = .invalid ∧ is.Blocks) ∧
    (v.isCont = true → SubResult m subs v r ∧
      (∀ s ∈ subs, ∀ x y i, v.getItem s.rep = .ok x → x.isMissing = false → s.process m x = .ok (y, i) →
        ∀ l, i.errorsAt l ≠ [] → is.errorsAt (.name s.rep.attr :: l) = i.errorsAt l) ∧
      (∀ l, is.errorsAt l ≠ [] → (∃ s ∈ subs, ∃ l', l = .name s.rep.attr :: l') ∨
        ∃ p ∈ (Attr.complex info subs ps ds).cprocs m, ∃ i, p r = .ok (r, i) ∧ i.errorsAt l ≠ [])) := by
  rw [complex_process_eq, info_process_eq, hn] at h
  have hone := complex_one hd v
  unfold AttrInfo.one at hone
  simp only [Bool.false_eq_true, if_false, AttrInfo.base, hm, hone, hd.procs] at h
  refine ⟨?_, ?_⟩
  · intro hv
    have hb : Issues.Blocks (Issues.empty.merge (blocking 2)) := by unfold Issues.Blocks; decide
    rw [hv] at h
    simp only [Bool.false_eq_true, if_false, hb.1, if_true, hb.2, Bool.not_false, Bool.true_or] at h
    cases h
    exact ⟨rfl, hb⟩
  · intro hv
    rw [hv] at h
    have hcan : Issues.canProceed {} = true := by decide
    simp only [if_true, (hasIssues_false_iff {}).mpr rfl, Bool.false_eq_true, if_false, runProcs, hcan,
      Bool.not_true, hn, Bool.false_or, complexBody, hm] at h
    have hv' : v.toCont = v := by
      cases v <;> simp [Val.isCont] at hv
      rw [Val.toCont]
    rw [hv'] at h
    split at h
    · cases h
    · rename_i parsed is1 hps
      have hres := subResult_of_processSubs hs hps
      obtain ⟨e1, e2, e3⟩ := processSubs_errors hs hsane hps
      split at h
      · cases h
        refine ⟨hres, ?_, ?_⟩
        · intro s hsm x y i hx hmiss hpr l _
          simpa using e1 s hsm x y i hx hmiss hpr l
        · intro l hl
          left
          apply Classical.byContradiction
          intro hcon
          apply hl
          rw [e2 l]
          · rfl
          · intro s hsm l' e
            exact hcon ⟨s, hsm, l', by simpa using e⟩
      · rename_i hni
        obtain ⟨rfl, hl⟩ := runProcs_validates hc h
        have hno : is1.hasIssues = false := by simpa using hni
        refine ⟨hres, ?_, ?_⟩
        · intro s hsm x y i hx hmiss hpr l hl
          exfalso
          apply hni
          rw [e3]
          refine .inr ⟨s, hsm, x, y, i, hx, hmiss, hpr, ?_⟩
          rw [hasIssues_iff_errors (process_wf s (saneAll_iff.mp hsane s hsm) hpr)]
          exact ⟨l, hl⟩
        · intro l hle
          rcases hl l hle with h | h
          · exfalso
            apply h
            unfold errorsAt
            rw [(hasIssues_false_iff is1).mp hno]
            rfl
          · exact .inr h

/-- The items of a multi-valued complex attribute, one by one. -/
theorem complexItems_spec {m : Mode} {subs : List Attr} (hs : PlainSubs subs) (hsane : SaneAll subs)
    {k : Nat} {xs ys : List Val} {acc is : Issues}
    (h : complexItems (fun loc item is => processSubs m subs loc item .emptyCont is) k xs acc = .ok (ys, is)) :
    ys.length = xs.length ∧
    (∀ i x, xs[i]? = some x → ∃ y, ys[i]? = some y ∧ SubResult m subs x.toCont y ∧
      ∀ s ∈ subs, ∀ z w j, x.toCont.getItem s.rep = .ok z → z.isMissing = false → s.process m z = .ok (w, j) →
        (∀ l, is.errorsAt (.idx (k + i) :: .name s.rep.attr :: l) =
          acc.errorsAt (.idx (k + i) :: .name s.rep.attr :: l) ++ j.errorsAt l) ∧
        (j.hasIssues = true → is.hasIssues = true)) ∧
    (∀ l, (∀ i, i < xs.length → ∀ s ∈ subs, ∀ l', l ≠ .idx (k + i) :: .name s.rep.attr :: l') →
      is.errorsAt l = acc.errorsAt l) ∧
    (acc.hasIssues = true → is.hasIssues = true) := by
  induction xs generalizing k acc ys with
  | nil => simp only [complexItems] at h; cases h; simp
  | cons x xs ih =>
    simp only [complexItems] at h
    split at h
    · cases h
    · rename_i item s1 hx
      split at h
      · cases h
      · rename_i items s2 hr
        cases h
        have hres := subResult_of_processSubs hs hx
        obtain ⟨e1, e2, e3⟩ := processSubs_errors hs hsane hx
        obtain ⟨g0, g1, g2, g3⟩ := ih hr
        refine ⟨by simp [g0], ?_, ?_, ?_⟩
        · intro i z hz
          cases i with
          | zero =>
            simp only [List.getElem?_cons_zero, Option.some.injEq] at hz
            subst hz
            refine ⟨item, by simp, hres, ?_⟩
            intro s hsm z w j hz hmiss hpr
            refine ⟨?_, ?_⟩
            · intro l
              rw [Nat.add_zero, g2]
              · exact e1 s hsm z w j hz hmiss hpr l
              · intro i _ s' _ l' e
                simp only [List.cons.injEq, LKey.idx.injEq] at e
                omega
            · intro hj
              exact g3 (e3.mpr (.inr ⟨s, hsm, z, w, j, hz, hmiss, hpr, hj⟩))
          | succ i =>
            simp only [List.getElem?_cons_succ] at hz
            obtain ⟨y, hy, hyr, he⟩ := g1 i z hz
            refine ⟨y, by simpa using hy, hyr, ?_⟩
            intro s hsm z' w j hz' hmiss hpr
            obtain ⟨he1, he2⟩ := he s hsm z' w j hz' hmiss hpr
            refine ⟨?_, he2⟩
            intro l
            have := he1 l
            rw [show k + 1 + i = k + (i + 1) by omega] at this
            rw [this, e2]
            intro s' _ l' e
            simp only [List.cons_append, List.nil_append, List.cons.injEq, LKey.idx.injEq] at e
            omega
        · intro l hl
          rw [g2, e2]
          · intro s hsm l' e
            exact hl 0 (by simp) s hsm l' (by simpa using e)
          · intro i hi s hsm l' e
            exact hl (i + 1) (by simpa using hi) s hsm l' (by rw [e]; congr 2; omega)
        · intro ha
          exact g3 (e3.mpr (.inl ha))

/-- **C27** multi-valued complex attribute: a list gives a list of the same length; the item at each place is
the complex value made from the input at that place (an input that is no container is reported at its index and
gives an empty item); issues of sub-attributes stand under index and name. -/
theorem C27_multi (m : Mode) (info : AttrInfo) (subs : List Attr) (ps ds : List Proc)
    (hd : ComplexDecl m info) (hm : info.multi = true) (hs : PlainSubs subs) (hsane : SaneAll subs)
    (hc : ∀ p ∈ (Attr.complex info subs ps ds).cprocs m, ValidatesOnly p)
    (xs : List Val) (r : Val) (is : Issues)
    (h : (Attr.complex info subs ps ds).process m (.list xs) = .ok (r, is)) :
    ∃ ys, r = .list ys ∧ ys.length = xs.length ∧
      (∀ i x, xs[i]? = some x → x.isCont = false →
        (∃ y, ys[i]? = some y ∧ y.isCont = true ∧ y.keys = []) ∧ is.errorsAt [.idx i] ≠ []) ∧
      (∀ i x, xs[i]? = some x → x.isCont = true → ∃ y, ys[i]? = some y ∧ SubResult m subs x y ∧
        ∀ s ∈ subs, ∀ z w j, x.getItem s.rep = .ok z → z.isMissing = false → s.process m z = .ok (w, j) →
          ∀ l, j.errorsAt l ≠ [] → is.errorsAt (.idx i :: .name s.rep.attr :: l) = j.errorsAt l) ∧
      (∀ l, is.errorsAt l ≠ [] →
        (∃ i x, xs[i]? = some x ∧ x.isCont = false ∧ l = [.idx i]) ∨
        (∃ i, i < xs.length ∧ ∃ s ∈ subs, ∃ l', l = .idx i :: .name s.rep.attr :: l') ∨
        ∃ p ∈ (Attr.complex info subs ps ds).cprocs m, ∃ i, p r = .ok (r, i) ∧ i.errorsAt l ≠ []) := by
  rw [complex_process_eq, info_process_eq] at h
  simp only [Val.isNone, Bool.false_eq_true, if_false, AttrInfo.base, hm, if_true, hd.procs, runProcs] at h
  cases hpi : info.processItems m 0 xs {} with
  | error e => rw [hpi] at h; simp at h
  | ok q =>
    obtain ⟨zs, is0⟩ := q
    rw [hpi] at h
    simp only [ite_self] at h
    obtain ⟨p1, p2, p3⟩ := processItems_spec hpi
    have hw0 : is0.WF := processItems_wf WF.empty hpi
    have hlen := processItems_length hpi
    -- nothing blocks at the empty location
    have hnil : is0.errorsAt [] = [] := by
      rw [p2 []]
      · rfl
      · intro i l' _ e; cases e
    have hcan : is0.canProceed = true := by
      rw [canProceed_nil_iff]
      cases hg : aget [] is0.stop with
      | none => rfl
      | some c => exact absurd hnil (hw0.stop_errors (by simp [hg]))
    simp only [hcan, Bool.not_true, Bool.false_or, Val.isNone, Bool.false_eq_true, if_false, complexBody, hm,
      if_true] at h
    cases hci : complexItems (fun loc item is => processSubs m subs loc item .emptyCont is) 0 zs is0 with
    | error e => rw [hci] at h; simp at h
    | ok q =>
      obtain ⟨ys, is1⟩ := q
      rw [hci] at h
      simp only at h
      obtain ⟨c0, c1, c2, c3⟩ := complexItems_spec hs hsane hci
      -- the items after the type check
      have hzs : ∀ i x, xs[i]? = some x → ∃ z, zs[i]? = some z ∧
          ((x.isCont = true ∧ z = x ∧ ∀ l, is0.errorsAt (.idx i :: l) = []) ∨
           (x.isCont = false ∧ z = .invalid ∧ ∀ l, is0.errorsAt (.idx i :: l) ≠ [] ↔ l = [])) := by
        intro i x hx
        obtain ⟨z, i1, hz, ho, he⟩ := p1 i x hx
        rw [complex_one hd] at ho
        refine ⟨z, hz, ?_⟩
        cases hxc : x.isCont with
        | true =>
          rw [hxc, if_pos rfl] at ho
          cases ho
          refine .inl ⟨rfl, rfl, ?_⟩
          intro l
          have := he l
          rw [Nat.zero_add] at this
          rw [this]; rfl
        | false =>
          rw [hxc] at ho
          simp only [Bool.false_eq_true, if_false] at ho
          cases ho
          refine .inr ⟨rfl, rfl, ?_⟩
          intro l
          have := he l
          rw [Nat.zero_add] at this
          rw [this, errorsAt_merge (wf_blocking 2), errorsAt_blocking]
          cases l <;> simp
      have hfin : r = .list ys ∧ (∀ l, is1.errorsAt l ≠ [] → is.errorsAt l = is1.errorsAt l) ∧
          (∀ l, is.errorsAt l ≠ [] → is1.errorsAt l ≠ [] ∨
            ∃ p ∈ (Attr.complex info subs ps ds).cprocs m, ∃ i, p r = .ok (r, i) ∧ i.errorsAt l ≠ []) := by
        split at h
        · cases h; exact ⟨rfl, fun _ _ => rfl, fun l hl => .inl hl⟩
        · rename_i hni
          obtain ⟨rfl, hl⟩ := runProcs_validates hc h
          refine ⟨rfl, ?_, hl⟩
          intro l hl
          exfalso
          apply hl
          unfold errorsAt
          rw [(hasIssues_false_iff is1).mp (by simpa using hni)]
          rfl
      obtain ⟨hr, hkeep, horig⟩ := hfin
      refine ⟨ys, hr, by rw [c0, hlen], ?_, ?_, ?_⟩
      · intro i x hx hxc
        obtain ⟨z, hz, ⟨h', _⟩ | ⟨_, rfl, he⟩⟩ := hzs i x hx
        · rw [hxc] at h'; cases h'
        · obtain ⟨y, hy, hres, _⟩ := c1 i _ hz
          have hye : y.keys = [] := by
            cases hk : y.keys with
            | nil => rfl
            | cons k ks =>
              obtain ⟨s, _, _, x', hx', hmiss⟩ := hres.declared k (by rw [hk]; simp)
              simp only [Val.toCont, Val.getItem, Val.getX, aget_nil] at hx'
              simp at hx'
              rw [← hx'] at hmiss
              simp [Val.isMissing] at hmiss
          refine ⟨⟨y, hy, hres.cont, hye⟩, ?_⟩
          have h1 : is1.errorsAt [.idx i] ≠ [] := by
            rw [c2]
            · exact (he []).mpr rfl
            · intro _ _ _ _ _ e; cases e
          rw [hkeep _ h1]; exact h1
      · intro i x hx hxc
        obtain ⟨z, hz, ⟨_, rfl, he⟩ | ⟨h', _⟩⟩ := hzs i x hx
        · obtain ⟨y, hy, hres, hj⟩ := c1 i _ hz
          have hx' : z.toCont = z := by
            cases z <;> simp [Val.isCont] at hxc
            rw [Val.toCont]
          rw [hx'] at hres hj
          refine ⟨y, hy, hres, ?_⟩
          intro s hsm z' w j hz' hmiss hpr l hl
          have h1 := (hj s hsm z' w j hz' hmiss hpr).1 l
          rw [Nat.zero_add, he, List.nil_append] at h1
          rw [hkeep, h1]
          rw [h1]; exact hl
        · rw [hxc] at h'; cases h'
      · intro l hl
        rcases horig l hl with h1 | h1
        · by_cases hcase : ∃ i, i < xs.length ∧ ∃ s ∈ subs, ∃ l', l = .idx i :: .name s.rep.attr :: l'
          · exact .inr (.inl hcase)
          · left
            rw [c2] at h1
            · have : ∃ i l', i < xs.length ∧ l = .idx i :: l' := by
                apply Classical.byContradiction
                intro hcon
                apply h1
                rw [p2]
                · rfl
                · intro i l' hi e
                  rw [Nat.zero_add] at e
                  exact hcon ⟨i, l', hi, e⟩
              obtain ⟨i, l', hi, rfl⟩ := this
              have hx : xs[i]? = some xs[i] := by simp [hi]
              obtain ⟨z, hz, ⟨_, _, he⟩ | ⟨hf, _, he⟩⟩ := hzs i _ hx
              · exact absurd (he l') h1
              · have := (he l').mp h1
                subst this
                exact ⟨i, _, hx, hf, rfl⟩
            · intro i hi s hsm l' e
              rw [Nat.zero_add] at e
              exact hcase ⟨i, hlen ▸ hi, s, hsm, l', e⟩
        · exact .inr (.inr h1)

/-- The built-in check for a single primary item only validates. -/
theorem validateSinglePrimary_validates : ValidatesOnly validateSinglePrimary := by
  intro v r is h
  unfold validateSinglePrimary at h
  split at h
  · split at h
    · cases h
    · cases h
      refine ⟨rfl, ?_⟩
      split
      · exact Issues.WF.empty.add _ _ _
      · exact Issues.WF.empty
  · cases h

omit [PyEnv] in
theorem insertAttr_new (a : Attr) (l : List Attr) (h : ∀ b ∈ l, b.key ≠ a.key) : insertAttr a l = l ++ [a] := by
  induction l with
  | nil => rfl
  | cons b r ih =>
    rw [insertAttr, if_neg (h b (by simp)), ih (fun c hc => h c (List.mem_cons_of_mem _ hc))]; rfl

omit [PyEnv] in
theorem ofList_all {subs : List Attr} (h : (subs.map Attr.key).Nodup) : (Attributes.ofList subs).all = subs := by
  suffices ∀ acc : List Attr, ((acc ++ subs).map Attr.key).Nodup →
      subs.foldl (fun acc a => insertAttr a acc) acc = acc ++ subs by
    simpa [Attributes.ofList] using this [] (by simpa using h)
  induction subs with
  | nil => intro acc _; simp
  | cons s ss ih =>
    intro acc hacc
    simp only [List.map_cons, List.nodup_cons] at h
    rw [List.foldl_cons, insertAttr_new, ih h.2]
    · simp
    · simpa using hacc
    · intro b hb e
      rw [List.map_append, List.nodup_append] at hacc
      exact hacc.2.2 _ (List.mem_map.mpr ⟨b, hb, rfl⟩) s.key (by simp) e

theorem PlainSubs.keys {subs : List Attr} (h : PlainSubs subs) : (subs.map Attr.key).Nodup := by
  have h1 := lower_nodup_attr h.distinct
  have : subs.map (fun s => s.rep.attr) = (subs.map Attr.key).map (fun k => k.2.1) := by
    simp [Attr.key]
  rw [this] at h1
  exact List.Pairwise.of_map _ (fun _ _ hne e => hne (e ▸ rfl)) h1

/-- **C27** as declared with the constructor: `ComplexAttribute(subs, name, multi_valued=…)` without
post-processors meets the hypotheses of `C27_single` and `C27_multi`. -/
theorem C27_declared (m : Mode) (i : AttrInfo) (subs : List Attr) (hs : PlainSubs subs)
    (hp : i.parsers = [] ∧ i.dumpers = []) :
    ∃ info ps ds, mkComplex i subs = .complex info subs ps ds ∧ ComplexDecl m info ∧ info.multi = i.multi ∧
      info.rep = i.rep ∧ ∀ p ∈ (Attr.complex info subs ps ds).cprocs m, ValidatesOnly p := by
  have hproc : ∀ p ∈ (if i.multi then ([] : List Proc) ++ [validateSinglePrimary] else []), ValidatesOnly p := by
    intro p hp
    split at hp
    · simp only [List.nil_append, List.mem_singleton] at hp; subst hp; exact validateSinglePrimary_validates
    · cases hp
  have he := ofList_all hs.keys
  refine ⟨{ i with type := .complex, caseExact := false, canonical := none, validateCanon := false, refTypes := [] },
    if i.multi then [] ++ [validateSinglePrimary] else [], if i.multi then [] ++ [validateSinglePrimary] else [],
    by rw [mkComplex, he], ⟨rfl, rfl, ?_⟩, rfl, rfl, ?_⟩
  · cases m
    · exact hp.1
    · exact hp.2
  · cases m <;> exact hproc

end

/-! ### Concrete cases -/

section
local instance : PyEnv := asciiEnv

/-- A multi-valued string attribute. -/
def exTags : AttrInfo := { rep := { attr := "tags".toList }, type := .string, multi := true }

/-- C23: the second item is reported at index 1, the others are kept. -/
example : (Attr.simple exTags).process .parse (.list [.str "a".toList, .int 1, .str "b".toList]) =
    .ok (.list [.str "a".toList, .invalid, .str "b".toList], Issues.empty.merge (blocking 2) [.idx 1]) := by
  decide +kernel

example : (Attr.simple exTags).process .parse (.str "a".toList) = .ok (.invalid, blocking 2) := by
  decide +kernel

/-- An attribute with enforced canonical values. -/
def exKind : AttrInfo :=
  { rep := { attr := "kind".toList }, type := .string, validateCanon := true
    canonical := some [.str "Work".toList, .str "home".toList] }

/-- C24: `WORK` is accepted, `other` is not. -/
example : (mkAttr exKind).process .parse (.str "WORK".toList) = .ok (.str "WORK".toList, {}) := by
  decide +kernel
example : (mkAttr exKind).process .parse (.str "other".toList) = .ok (.invalid, blocking 14) := by
  decide +kernel
example : (mkAttr { exKind with caseExact := true }).process .parse (.str "WORK".toList) =
    .ok (.invalid, blocking 14) := by
  decide +kernel

/-- A complex multi-valued attribute. -/
def exEmailSubs : List Attr :=
  [mkAttr { rep := { attr := "value".toList }, type := .string },
   mkAttr { rep := { attr := "primary".toList }, type := .boolean }]

theorem exEmailSubs_plain : PlainSubs exEmailSubs := by
  refine ⟨?_, ?_, by decide +kernel⟩ <;> simp [exEmailSubs, AttrRep.Plain, mkAttr, Attr.rep, Attr.info]

def exEmails : Attr := mkComplex { rep := { attr := "emails".toList }, type := .complex, multi := true } exEmailSubs

def exItem (v : Str) (p : Val) : Val := Val.toCont (.dict [("VALUE".toList, .str v), ("primary".toList, p), ("x".toList, .int 1)])

/-- C26/C27: undeclared keys are dropped, keys get the declared spelling, two primary items are reported. -/
example : exEmails.process .parse (.list [exItem "a".toList (.bool true), exItem "b".toList (.bool true)]) =
    .ok (.list [mkCont [("value".toList, .str "a".toList), ("primary".toList, .bool true)],
        mkCont [("value".toList, .str "b".toList), ("primary".toList, .bool true)]],
      Issues.empty.merge (Issues.empty.add ⟨9, []⟩ true)) := by
  decide +kernel

/-- C27: the issue of a sub-attribute stands under index and name. -/
example : exEmails.process .parse (.list [exItem "a".toList (.int 3)]) =
    .ok (.list [mkCont [("value".toList, .str "a".toList), ("primary".toList, .invalid)]],
      Issues.empty.merge (blocking 2) [.idx 0, .name "primary".toList]) := by
  decide +kernel

example : SaneAll exEmailSubs := by
  simp [exEmailSubs, SaneAll, mkAttr, Attr.Sane]

end
end Scim
