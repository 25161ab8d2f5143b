import Verif.Spec.SchemaDoc
import Verif.Lemmas.PatchInput
import Verif.Lemmas.Assets

/-! Documents about schemas: the post-processor of `attributes`. -/

namespace Scim
variable [PyEnv]
open Issues SchemaA

/-- A container with a sound index and without empty name. -/
def Val.Tidy (v : Val) : Prop := ∃ d lc, v = .cont d lc ∧ CInv d lc ∧ aget (lower []) lc = none

theorem Val.Tidy.isCont {v : Val} (h : v.Tidy) : v.isCont = true := by
  obtain ⟨d, lc, rfl, _⟩ := h
  rfl

theorem Val.Tidy.get {v : Val} (h : v.Tidy) (n : Str) : ∃ x, v.getItem { attr := n } = .ok x := by
  obtain ⟨d, lc, rfl, hi, h0⟩ := h
  rw [getItem_noKey h0]
  cases hl : aget (lower n) lc with
  | none => exact ⟨_, rfl⟩
  | some k =>
    have hk : (aget k d).isSome := aget_isSome_iff.2 (hi.sound _ _ hl).2
    cases hg : aget k d with
    | none => rw [hg] at hk; cases hk
    | some v => exact ⟨v, by simp [hg]⟩

theorem lower_ne_nil {n : Str} (h : n ≠ []) : lower n ≠ lower [] := by
  intro e
  exact h ((PyEnv.lower_eq_nil n).1 (by rw [e, (PyEnv.lower_eq_nil []).2 rfl]))

/-- Writing. -/
theorem Val.Tidy.set {v : Val} (h : v.Tidy) {n : Str} (hn : n ≠ []) (x : Val) :
    ∃ w, v.setItem { attr := n } x = .ok w ∧ w.Tidy ∧
      ∀ m, w.getItem { attr := m } = if lower m = lower n then .ok x else v.getItem { attr := m } := by
  obtain ⟨d, lc, rfl, hi, h0⟩ := h
  have h0' : aget (lower []) (aset (lower n) n lc) = none := by
    rw [aget_aset, if_neg (lower_ne_nil hn), h0]
  refine ⟨.cont (aset n x d) (aset (lower n) n lc), rfl, ⟨_, _, rfl, hi.setPlain n x, h0'⟩, ?_⟩
  intro m
  rw [getItem_noKey h0', getItem_noKey h0]
  simp only
  rw [aget_aset]
  by_cases e : lower m = lower n
  · rw [if_pos e.symm, if_pos e]
    simp
  · rw [if_neg (Ne.symm e), if_neg e]
    cases hl : aget (lower m) lc with
    | none => rfl
    | some k =>
      have hk := (hi.sound _ _ hl).1
      simp only
      rw [aget_aset, if_neg]
      rintro rfl
      exact e hk

/-- Deleting. -/
theorem Val.Tidy.del {v : Val} (h : v.Tidy) (n : Str) :
    ∃ w, v.delItem { attr := n } = .ok w ∧ w.Tidy ∧
      ∀ m, w.getItem { attr := m } = if lower m = lower n then .ok .missing else v.getItem { attr := m } := by
  obtain ⟨d, lc, rfl, hi, h0⟩ := h
  simp only [Val.delItem, Val.delX, Bool.false_and, Bool.false_eq_true, ↓reduceIte, h0, List.isEmpty_nil]
  cases hl : aget (lower n) lc with
  | none =>
    refine ⟨_, rfl, ⟨_, _, rfl, hi, h0⟩, ?_⟩
    intro m
    by_cases e : lower m = lower n
    · rw [if_pos e, getItem_noKey h0, e, hl]
    · rw [if_neg e]
  | some k =>
    have hk : (aget k d).isSome := aget_isSome_iff.2 (hi.sound _ _ hl).2
    cases hg : aget k d with
    | none => rw [hg] at hk; cases hk
    | some x =>
      have h0' : aget (lower []) (adel (lower n) lc) = none := by
        by_cases e : lower n = lower []
        · rw [e, aget_adel_self hi.lcKeys]
        · rw [aget_adel_ne e, h0]
      refine ⟨_, by simp only [hg], ⟨_, _, rfl, hi.adel _ _ hl, h0'⟩, ?_⟩
      intro m
      rw [getItem_noKey h0', getItem_noKey h0]
      simp only
      by_cases e : lower m = lower n
      · rw [if_pos e, e, aget_adel_self hi.lcKeys]
      · rw [if_neg e, aget_adel_ne (Ne.symm e)]
        cases hm : aget (lower m) lc with
        | none => rfl
        | some k' =>
          simp only
          rw [aget_adel_ne]
          rintro rfl
          exact e (by rw [(hi.sound _ _ hm).1, (hi.sound _ _ hl).1])

/-- Distinct ASCII words stay distinct in lower case. -/
theorem lower_ne_ascii {a b : Str} (ha : asciiStr a = true) (hb : asciiStr b = true) (h : lowAscii a ≠ lowAscii b) :
    lower a ≠ lower b := by
  rw [lower_asciiStr ha, lower_asciiStr hb]; exact h

/-- What the post-processor makes of one item; `is` are the issues of the nested sub-attributes. -/
structure ItemDone (nested : Val → PyM (Val × Issues)) (x y : Val) (is : Issues) : Prop where
  tidy : y.Tidy
  same : ∀ n, lower n ≠ lower "subAttributes".toList → lower n ≠ lower "caseExact".toList →
    y.getItem { attr := n } = x.getItem { attr := n }
  string : x.Has "type".toList (.str "string".toList) →
    ∃ ce, x.Has "caseExact".toList ce ∧ ce.isNoneOrMissing = false ∧ y.Has "caseExact".toList ce
  other : ¬ x.Has "type".toList (.str "string".toList) → y.Has "caseExact".toList .missing
  unset : ∀ subs, x.Has "subAttributes".toList subs → subs.isNoneOrMissing = true →
    y.Has "subAttributes".toList subs ∧ is = {}
  dropped : ∀ subs, x.Has "subAttributes".toList subs → subs.isNoneOrMissing = false →
    ¬ x.Has "type".toList (.str "complex".toList) → y.Has "subAttributes".toList .missing ∧ is = {}
  nested : ∀ subs, x.Has "subAttributes".toList subs → subs.isNoneOrMissing = false →
    x.Has "type".toList (.str "complex".toList) → ∃ dumped, nested subs = .ok (dumped, is) ∧
      y.Has "subAttributes".toList dumped

theorem dumpItems_cons {nested : Val → PyM (Val × Issues)} {k : Nat} {x : Val} {xs zs : List Val} {acc is : Issues}
    (hx : x.Tidy) (h : dumpItems nested k (x :: xs) acc = .ok (zs, is)) :
    ∃ y ys i, zs = y :: ys ∧ ItemDone nested x y i ∧
      dumpItems nested (k + 1) xs (acc.merge i [.idx k, .name "subAttributes".toList]) = .ok (ys, is) := by
  have hsc : lower "caseExact".toList ≠ lower "subAttributes".toList :=
    lower_ne_ascii (by decide) (by decide) (by decide)
  have hts : lower "type".toList ≠ lower "subAttributes".toList :=
    lower_ne_ascii (by decide) (by decide) (by decide)
  simp only [dumpItems] at h
  obtain ⟨ty, hty⟩ := hx.get "type".toList
  rw [show attributesTypeA.rep = { attr := "type".toList } from rfl, hty] at h
  simp only at h
  -- the sub-attributes
  obtain ⟨subs, hsubs⟩ := hx.get "subAttributes".toList
  have hstep : ∀ z acc', dumpSubAttributes nested k ty x acc = .ok (z, acc') → ∃ i, z.Tidy ∧
      (∀ n, lower n ≠ lower "subAttributes".toList → z.getItem { attr := n } = x.getItem { attr := n }) ∧
      acc' = acc.merge i [.idx k, .name "subAttributes".toList] ∧
      (subs.isNoneOrMissing = true → z.Has "subAttributes".toList subs ∧ i = {}) ∧
      (subs.isNoneOrMissing = false → ty ≠ .str "complex".toList → z.Has "subAttributes".toList .missing ∧ i = {}) ∧
      (subs.isNoneOrMissing = false → ty = .str "complex".toList → ∃ dumped, nested subs = .ok (dumped, i) ∧
        z.Has "subAttributes".toList dumped) := by
    intro z acc' hz
    unfold dumpSubAttributes at hz
    rw [show attributesSubAttributesA.rep = { attr := "subAttributes".toList } from rfl, hsubs] at hz
    simp only at hz
    split at hz
    · rename_i hu
      cases hz
      refine ⟨{}, hx, fun _ _ => rfl, (merge_noIssues _ _ rfl).symm, fun _ => ⟨hsubs, rfl⟩, ?_, ?_⟩ <;>
        (intro h'; rw [hu] at h'; cases h')
    · rename_i hu
      split at hz
      · rename_i hc
        obtain ⟨w, hw, hwt, hwr⟩ := hx.del "subAttributes".toList
        rw [hw] at hz
        cases hz
        refine ⟨{}, hwt, fun n hn => by rw [hwr, if_neg hn], (merge_noIssues _ _ rfl).symm, ?_, ?_, ?_⟩
        · intro h'; exact absurd h' hu
        · intro _ _; exact ⟨by unfold Val.Has; rw [hwr, if_pos rfl], rfl⟩
        · intro _ e
          rw [isText_iff.mpr e] at hc; cases hc
      · rename_i hc
        split at hz
        · cases hz
        · rename_i dumped i hnd
          obtain ⟨w, hw, hwt, hwr⟩ := hx.set (n := "subAttributes".toList) (by decide) dumped
          rw [hw] at hz
          cases hz
          refine ⟨i, hwt, fun n hn => by rw [hwr, if_neg hn], rfl, ?_, ?_, ?_⟩
          · intro h'; exact absurd h' hu
          · intro _ e
            exfalso
            apply hc
            cases ht : ty.isText "complex".toList with
            | true => exact absurd (isText_iff.mp ht) e
            | false => rfl
          · intro _ _; exact ⟨dumped, hnd, by unfold Val.Has; rw [hwr, if_pos rfl]⟩
  split at h
  · cases h
  · rename_i z acc' hz
    obtain ⟨i, hzt, hsame, rfl, h1, h2, h3⟩ := hstep z acc' hz
    have hce : z.getItem { attr := "caseExact".toList } = x.getItem { attr := "caseExact".toList } := hsame _ hsc
    unfold dumpCaseExact at h
    rw [show attributesCaseExactA.rep = { attr := "caseExact".toList } from rfl] at h
    have hone : ∀ s, x.Has "type".toList (.str s) ↔ ty = .str s := by
      intro s
      unfold Val.Has
      rw [hty]
      constructor
      · intro e; exact Except.ok.inj e
      · rintro rfl; rfl
    have hsub1 : ∀ s', x.Has "subAttributes".toList s' → s' = subs := by
      intro s' hs'
      unfold Val.Has at hs'
      rw [hsubs] at hs'
      exact (Except.ok.inj hs').symm
    split at h
    · cases h
    · rename_i y hy
      split at h
      · cases h
      · rename_i ys is' hrest
        cases h
        split at hy
        · rename_i hstr
          have hstr' := isText_iff.mp hstr
          rw [hce] at hy
          split at hy
          · cases hy
          · rename_i ce hce'
            split at hy
            · cases hy
            · rename_i hset
              cases hy
              refine ⟨_, _, i, rfl, ⟨hzt, fun n hn _ => hsame n hn, ?_, ?_, ?_, ?_, ?_⟩, hrest⟩
              · intro _; exact ⟨ce, hce', by simpa using hset, by unfold Val.Has; rw [hce]; exact hce'⟩
              · intro hne; exact absurd ((hone _).mpr hstr') hne
              · intro s' hs' hu; rw [hsub1 s' hs'] at hu ⊢; exact h1 hu
              · intro s' hs' hu hc
                rw [hsub1 s' hs'] at hu
                exact h2 hu (fun e => hc ((hone _).mpr e))
              · intro s' hs' hu hc
                rw [hsub1 s' hs'] at hu ⊢
                exact h3 hu ((hone _).mp hc)
        · rename_i hstr
          obtain ⟨w, hw, hwt, hwr⟩ := hzt.del "caseExact".toList
          rw [hw] at hy
          cases hy
          have hsr : ∀ v, z.Has "subAttributes".toList v → y.Has "subAttributes".toList v := by
            intro v hv
            unfold Val.Has
            rw [hwr, if_neg (Ne.symm hsc)]
            exact hv
          refine ⟨_, _, i, rfl, ⟨hwt, fun n hn hn2 => by rw [hwr, if_neg hn2]; exact hsame n hn, ?_, ?_, ?_, ?_, ?_⟩, hrest⟩
          · intro hs; exact absurd (isText_iff.mpr ((hone _).mp hs)) hstr
          · intro _; unfold Val.Has; rw [hwr, if_pos rfl]
          · intro s' hs' hu; rw [hsub1 s' hs'] at hu ⊢; exact ⟨hsr _ (h1 hu).1, (h1 hu).2⟩
          · intro s' hs' hu hc
            rw [hsub1 s' hs'] at hu
            obtain ⟨a, b⟩ := h2 hu (fun e => hc ((hone _).mpr e))
            exact ⟨hsr _ a, b⟩
          · intro s' hs' hu hc
            rw [hsub1 s' hs'] at hu ⊢
            obtain ⟨dd, a, b⟩ := h3 hu ((hone _).mp hc)
            exact ⟨dd, a, hsr _ b⟩

/-- The items, one by one, when no issue remains. -/
theorem dumpItems_clean {nested : Val → PyM (Val × Issues)} {xs : List Val} (hx : ∀ x ∈ xs, x.Tidy) :
    ∀ {k : Nat} {ys : List Val} {acc is : Issues}, dumpItems nested k xs acc = .ok (ys, is) → is.hasIssues = false →
    acc.hasIssues = false ∧ ys.length = xs.length ∧
    ∀ (j : Nat) x, xs[j]? = some x → ∃ y i, ys[j]? = some y ∧ ItemDone nested x y i ∧ i.hasIssues = false := by
  induction xs with
  | nil =>
    intro k ys acc is h hn
    simp only [dumpItems] at h
    cases h
    exact ⟨hn, rfl, by intro j x hj; simp at hj⟩
  | cons x xs ih =>
    intro k zs acc is h hn
    obtain ⟨y, ys, i, rfl, hd, hr⟩ := dumpItems_cons (hx x (by simp)) h
    obtain ⟨ha, hl, hall⟩ := ih (fun z hz => hx z (List.mem_cons_of_mem _ hz)) hr hn
    rw [hasIssues_merge_false] at ha
    refine ⟨ha.1, by simp [hl], ?_⟩
    intro j z hz
    cases j with
    | zero =>
      simp only [List.getElem?_cons_zero, Option.some.injEq] at hz
      subst hz
      exact ⟨y, i, by simp, hd, ha.2⟩
    | succ j =>
      simp only [List.getElem?_cons_succ] at hz ⊢
      exact hall j z hz

/-- The items are handled when nested sub-attributes are, and strings say whether they are case exact. -/
theorem dumpItems_total {nested : Val → PyM (Val × Issues)} {xs : List Val} (hx : ∀ x ∈ xs, x.Tidy ∧
      (x.Has "type".toList (.str "string".toList) → ∃ b, x.Has "caseExact".toList (.bool b)) ∧
      (∀ subs, x.Has "subAttributes".toList subs → subs.isNoneOrMissing = false →
        x.Has "type".toList (.str "complex".toList) → ∃ dumped, nested subs = .ok (dumped, {}))) (k : Nat) :
    ∃ ys, dumpItems nested k xs {} = .ok (ys, {}) := by
  have hsc : lower "caseExact".toList ≠ lower "subAttributes".toList :=
    lower_ne_ascii (by decide) (by decide) (by decide)
  induction xs generalizing k with
  | nil => exact ⟨[], rfl⟩
  | cons x xs ih =>
    obtain ⟨ht, hstr, hnest⟩ := hx x (by simp)
    obtain ⟨ys, hys⟩ := ih (fun z hz => hx z (List.mem_cons_of_mem _ hz)) (k + 1)
    obtain ⟨ty, hty⟩ := ht.get "type".toList
    obtain ⟨subs, hsubs⟩ := ht.get "subAttributes".toList
    have h1 : ∃ z, dumpSubAttributes nested k ty x {} = .ok (z, {}) ∧ z.Tidy ∧
        z.getItem { attr := "caseExact".toList } = x.getItem { attr := "caseExact".toList } := by
      unfold dumpSubAttributes
      rw [show attributesSubAttributesA.rep = { attr := "subAttributes".toList } from rfl, hsubs]
      simp only
      split
      · exact ⟨x, rfl, ht, rfl⟩
      · rename_i hu
        split
        · obtain ⟨w, hw, hwt, hwr⟩ := ht.del "subAttributes".toList
          rw [hw]
          exact ⟨w, rfl, hwt, by rw [hwr, if_neg hsc]⟩
        · rename_i hc
          have hc' : ty = .str "complex".toList := by
            apply isText_iff.mp
            cases h : ty.isText "complex".toList with
            | true => rfl
            | false => rw [h] at hc; exact absurd rfl hc
          obtain ⟨dumped, hd⟩ := hnest subs hsubs (by simpa using hu) (by unfold Val.Has; rw [hty, hc'])
          obtain ⟨w, hw, hwt, hwr⟩ := ht.set (n := "subAttributes".toList) (by decide) dumped
          rw [hd]
          simp only
          rw [hw]
          exact ⟨w, rfl, hwt, by rw [hwr, if_neg hsc]⟩
    obtain ⟨z, hz, hzt, hzc⟩ := h1
    have h2 : ∃ y, dumpCaseExact ty z = .ok y := by
      unfold dumpCaseExact
      rw [show attributesCaseExactA.rep = { attr := "caseExact".toList } from rfl]
      split
      · rename_i hs
        obtain ⟨b, hb⟩ := hstr (by unfold Val.Has; rw [hty, isText_iff.mp hs])
        unfold Val.Has at hb
        rw [hzc, hb]
        exact ⟨z, rfl⟩
      · obtain ⟨w, hw, -⟩ := hzt.del "caseExact".toList
        exact ⟨w, hw⟩
    obtain ⟨y, hy⟩ := h2
    refine ⟨y :: ys, ?_⟩
    simp only [dumpItems]
    rw [show attributesTypeA.rep = { attr := "type".toList } from rfl, hty]
    simp only
    rw [hz]
    simp only
    rw [hy]
    simp only
    rw [hys]
/-! ## Multi-valued complex attributes whose post-processors change the value -/

theorem processItems_conts {m : Mode} {info : AttrInfo} (hd : ComplexDecl m info) {xs : List Val}
    (hx : ∀ x ∈ xs, x.isCont = true) (k : Nat) (acc : Issues) : info.processItems m k xs acc = .ok (xs, acc) := by
  induction xs generalizing k with
  | nil => rfl
  | cons x xs ih =>
    have h1 : info.processOne m [.idx k] x acc = .ok (x, acc) := by
      unfold AttrInfo.processOne
      rw [hd.type, complex_conv, hx x (by simp)]
      simp [hd.canon, Issues.merge]
    simp only [AttrInfo.processItems, h1, ih (fun z hz => hx z (List.mem_cons_of_mem _ hz))]

theorem processItems_clean {m : Mode} {info : AttrInfo} (hd : ComplexDecl m info) {k : Nat} {xs ys : List Val}
    {acc is : Issues} (h : info.processItems m k xs acc = .ok (ys, is)) (hn : is.hasIssues = false) :
    ∀ x ∈ xs, x.isCont = true := by
  intro x hx
  obtain ⟨-, -, h3⟩ := processItems_spec h
  cases hc : x.isCont with
  | true => rfl
  | false =>
    have : is.hasIssues = true := h3.mpr (.inr ⟨x, hx, _, _, by rw [complex_one hd, hc]; rfl, rfl⟩)
    rw [hn] at this; cases this

/-- A list that passes the type check goes to the loop over the items. -/
theorem multi_step {m : Mode} {info : AttrInfo} {subs : List Attr} {ps ds : List Proc} (hd : ComplexDecl m info)
    (hm : info.multi = true) {xs : List Val} (hx : ∀ x ∈ xs, x.isCont = true) :
    (Attr.complex info subs ps ds).process m (.list xs) =
      match complexItems (fun loc item is => processSubs m subs loc item .emptyCont is) 0 xs {} with
      | .error e => .error e
      | .ok (ys, is) => if is.hasIssues then .ok (.list ys, is)
        else runProcs ((Attr.complex info subs ps ds).cprocs m) (.list ys) is := by
  rw [complex_process_eq, info_process_eq]
  simp only [Val.isNone, Bool.false_eq_true, if_false, AttrInfo.base, hm, if_true, hd.procs, runProcs,
    processItems_conts hd hx, has_empty, complexBody]
  rw [show Issues.canProceed {} = true from rfl]
  simp only [Bool.not_true, Bool.or_self, Bool.false_eq_true, if_false]
  generalize complexItems _ 0 xs {} = e
  cases e with
  | error e => rfl
  | ok q => rfl

theorem processSubs_keeps {m : Mode} {subs : List Attr} {loc : Loc} {item parsed r : Val} {acc is : Issues}
    (h : processSubs m subs loc item parsed acc = .ok (r, is)) (ha : acc.hasIssues = true) : is.hasIssues = true := by
  induction subs generalizing parsed acc with
  | nil => rw [processSubs] at h; cases h; exact ha
  | cons s ss ih =>
    rw [processSubs] at h
    split at h
    · cases h
    · exact ih h ha
    · split at h
      · cases h
      · split at h
        · cases h
        · exact ih h ((hasIssues_merge _ _ _).mpr (.inl ha))

/-- What comes out without issues. -/
theorem multi_clean {m : Mode} {info : AttrInfo} {subs : List Attr} {ps ds : List Proc} (hd : ComplexDecl m info)
    (hm : info.multi = true) {v r : Val} {is : Issues}
    (h : (Attr.complex info subs ps ds).process m v = .ok (r, is)) (hn : is.hasIssues = false) :
    (v = .null ∧ r = .null) ∨ ∃ xs ys is1, v = .list xs ∧ (∀ x ∈ xs, x.isCont = true) ∧
      complexItems (fun loc item is => processSubs m subs loc item .emptyCont is) 0 xs {} = .ok (ys, is1) ∧
      is1.hasIssues = false ∧ runProcs ((Attr.complex info subs ps ds).cprocs m) (.list ys) is1 = .ok (r, is) := by
  by_cases hv : v.isNone = true
  · rw [isNone_iff.mp hv, C25_null] at h
    cases h
    exact .inl ⟨isNone_iff.mp hv, rfl⟩
  have hv' : v.isNone = false := by simpa using hv
  right
  by_cases hl : ∃ xs, v = .list xs
  · obtain ⟨xs, rfl⟩ := hl
    have hx : ∀ x ∈ xs, x.isCont = true := by
      have h0 := h
      rw [complex_process_eq, info_process_eq] at h
      simp only [Val.isNone, Bool.false_eq_true, if_false, AttrInfo.base, hm, if_true, hd.procs, runProcs] at h
      cases hp : info.processItems m 0 xs {} with
      | error e => rw [hp] at h; cases h
      | ok q =>
        obtain ⟨zs, i0⟩ := q
        rw [hp] at h
        simp only [ite_self] at h
        apply processItems_clean hd hp
        cases hi : i0.hasIssues with
        | false => rfl
        | true =>
          exfalso
          by_cases hcp : i0.canProceed = false
          · simp only [hcp, Bool.not_false, Bool.true_or, if_true] at h
            cases h; rw [hi] at hn; cases hn
          · have hcp' : i0.canProceed = true := by simpa using hcp
            simp only [hcp', Bool.not_true, Bool.false_or, Bool.or_self, Bool.false_eq_true, if_false] at h
            split at h
            · cases h
            · rename_i p i1 hb
              have : i1.hasIssues = true := by
                simp only [complexBody, hm, if_true] at hb
                cases hc : complexItems (fun loc item is => processSubs m subs loc item .emptyCont is) 0 zs i0 with
                | error e => rw [hc] at hb; cases hb
                | ok q2 =>
                  obtain ⟨ws, i2⟩ := q2
                  rw [hc] at hb
                  cases hb
                  clear h0 h hp
                  have : ∀ (ws zs : List Val) (k : Nat) (a b : Issues), a.hasIssues = true →
                      complexItems (fun loc item is => processSubs m subs loc item .emptyCont is) k zs a = .ok (ws, b) →
                      b.hasIssues = true := by
                    intro ws zs
                    induction zs generalizing ws with
                    | nil => intro k a b ha h; simp only [complexItems] at h; cases h; exact ha
                    | cons z zs ih =>
                      intro k a b ha h
                      simp only [complexItems] at h
                      split at h
                      · cases h
                      · rename_i it s1 hs1
                        split at h
                        · cases h
                        · rename_i its s2 hs2
                          cases h
                          exact ih _ _ _ _ (processSubs_keeps hs1 ha) hs2
                  exact this _ _ _ _ _ hi hc
              rw [if_pos this] at h
              cases h
              rw [this] at hn; cases hn
    rw [multi_step hd hm hx] at h
    split at h
    · cases h
    · rename_i ys is1 hc
      split at h
      · rename_i hi
        cases h
        rw [hi] at hn; cases hn
      · rename_i hi
        exact ⟨xs, ys, is1, rfl, hx, hc, by simpa using hi, h⟩
  · exfalso
    rw [complex_process_eq, info_process_eq, hv'] at h
    simp only [Bool.false_eq_true, if_false, AttrInfo.base, hm, if_true] at h
    have hb : (blocking 2).canProceed = false := rfl
    cases v with
    | list xs => exact absurd ⟨xs, rfl⟩ hl
    | _ =>
      simp only [hb, Bool.not_false, Bool.true_or, if_true] at h
      cases h
      cases hn

/-- Sub-attributes that are read and processed without issues give a container without issues. -/
theorem processSubs_quiet {m : Mode} (ss : List Attr) (loc : Loc) (item : Val) (entries : List (Str × Val))
    (acc : Issues) (hp : ∀ s ∈ ss, s.rep.Plain) (hn : (ss.map (fun s => s.rep.attr)).Nodup)
    (hf : ∀ s ∈ ss, s.rep.attr ∉ entries.map (·.1))
    (hok : ∀ s ∈ ss, ∃ x, item.getItem s.rep = .ok x ∧ (x.isMissing = false → ∃ y, s.process m x = .ok (y, {}))) :
    ∃ r, processSubs m ss loc item (mkCont entries) acc = .ok (r, acc) := by
  induction ss generalizing entries with
  | nil => exact ⟨_, rfl⟩
  | cons s ss ih =>
    simp only [List.map_cons, List.nodup_cons] at hn
    have ihp : ∀ s ∈ ss, s.rep.Plain := fun t ht => hp t (List.mem_cons_of_mem _ ht)
    have iho := fun t ht => hok t (List.mem_cons_of_mem _ ht)
    obtain ⟨x, hx, hpr⟩ := hok s (by simp)
    rw [processSubs, hx]
    by_cases hm : x.isMissing = true
    · have : x = .missing := by cases x <;> simp [Val.isMissing] at hm; rfl
      subst this
      exact ih entries ihp hn.2 (fun t ht => hf t (List.mem_cons_of_mem _ ht)) iho
    · obtain ⟨y, hy⟩ := hpr (by simpa using hm)
      obtain ⟨r, hr⟩ := ih (entries ++ [(s.rep.attr, y)]) ihp hn.2 (by
          intro t ht
          simp only [List.map_append, List.map_cons, List.map_nil, List.mem_append, List.mem_singleton, not_or]
          refine ⟨hf t (List.mem_cons_of_mem _ ht), ?_⟩
          intro e
          exact hn.1 (e ▸ List.mem_map.mpr ⟨t, ht, rfl⟩)) iho
      refine ⟨r, ?_⟩
      split
      · rename_i h; cases h
      · rename_i h; cases h; exact absurd rfl hm
      · rename_i z h1 h2
        cases h2
        rw [hy]
        simp only
        rw [mkCont_set entries s.rep (hp s (by simp)).2.2 (hp s (by simp)).2.1 y (hf s (by simp))]
        simp only
        rw [merge_noIssues _ _ rfl]
        exact hr

theorem complexItems_quiet {m : Mode} {subs : List Attr} (hs : PlainSubs subs) {xs : List Val}
    (hok : ∀ x ∈ xs, x.isCont = true ∧ ∀ s ∈ subs, ∃ z, x.getItem s.rep = .ok z ∧
      (z.isMissing = false → ∃ y, s.process m z = .ok (y, {}))) (k : Nat) (acc : Issues) :
    ∃ ys, complexItems (fun loc item is => processSubs m subs loc item .emptyCont is) k xs acc = .ok (ys, acc) := by
  induction xs generalizing k with
  | nil => exact ⟨[], rfl⟩
  | cons x xs ih =>
    obtain ⟨hc, hx⟩ := hok x (by simp)
    have hx' : x.toCont = x := by
      cases x <;> simp [Val.isCont] at hc
      rw [Val.toCont]
    obtain ⟨ys, hys⟩ := ih (fun z hz => hok z (List.mem_cons_of_mem _ hz)) (k + 1)
    obtain ⟨y, hy⟩ := processSubs_quiet subs [.idx k] x [] acc hs.plain (lower_nodup_attr hs.distinct) (by simp) hx
    rw [mkCont_nil] at hy
    refine ⟨y :: ys, ?_⟩
    simp only [complexItems, hx', hy, hys]
/-! ## Single attributes of the item -/

/-- A single-valued attribute without post-processors. -/
theorem single_plain {m : Mode} {i : AttrInfo} (hm : i.multi = false) (hp : i.procs m = []) {z : Val}
    (hz : z.isNone = false) : (Attr.simple i).process m z = i.processOne m [] z {} := by
  rw [single_process hm hz, hp]
  cases i.processOne m [] z {} with
  | error e => rfl
  | ok q => simp only [runProcs, ite_self]

theorem text_clean {i : AttrInfo} (ht : i.type = .string) (hm : i.multi = false) (hp : i.procs .dump = [])
    {x y : Val} {is : Issues} (h : (Attr.simple i).process .dump x = .ok (y, is)) (hn : is.hasIssues = false) :
    y = x ∧ (x = .null ∨ ∃ s, x = .str s ∧ (i.validateCanon = true → i.isCanonical (.str s) = true)) := by
  by_cases hz : x.isNone = true
  · rw [isNone_iff.mp hz, C25_null] at h
    cases h
    exact ⟨(isNone_iff.mp hz).symm, .inl (isNone_iff.mp hz)⟩
  · rw [single_plain hm hp (by simpa using hz)] at h
    unfold AttrInfo.processOne at h
    rw [ht] at h
    by_cases hs : ∃ s, x = .str s
    · obtain ⟨s, rfl⟩ := hs
      have e : AttrType.string.conv .dump (.str s) = .ok (.str s, {}) := rfl
      rw [e] at h
      simp only at h
      split at h
      · cases h
        rw [hasIssues_add] at hn; cases hn
      · rename_i hc
        cases h
        refine ⟨rfl, .inr ⟨s, rfl, fun hv => ?_⟩⟩
        rw [hv] at hc
        cases hi : i.isCanonical (.str s) with
        | true => rfl
        | false => rw [hi] at hc; simp at hc
    · have e : AttrType.string.conv .dump x = .ok badType := by
        cases x with
        | prim p => cases p <;> first | rfl | exact absurd ⟨_, rfl⟩ hs
        | _ => rfl
      rw [e] at h
      simp only [badType, AttrInfo.isCanonical, Bool.not_true, Bool.false_and, Bool.false_eq_true, if_false] at h
      cases h
      cases hn

theorem bool_clean {i : AttrInfo} (ht : i.type = .boolean) (hc : i.validateCanon = false) (hm : i.multi = false)
    (hp : i.procs .dump = [])
    {x y : Val} {is : Issues} (h : (Attr.simple i).process .dump x = .ok (y, is)) (hn : is.hasIssues = false) :
    y = x ∧ (x = .null ∨ ∃ b, x = .bool b) := by
  by_cases hz : x.isNone = true
  · rw [isNone_iff.mp hz, C25_null] at h
    cases h
    exact ⟨(isNone_iff.mp hz).symm, .inl (isNone_iff.mp hz)⟩
  · rw [single_plain hm hp (by simpa using hz)] at h
    unfold AttrInfo.processOne at h
    rw [ht] at h
    by_cases hs : ∃ s, x = .bool s
    · obtain ⟨s, rfl⟩ := hs
      have e : AttrType.boolean.conv .dump (.bool s) = .ok (.bool s, {}) := rfl
      rw [e] at h
      simp only [hc, Bool.and_false, Bool.false_eq_true, if_false] at h
      cases h
      exact ⟨rfl, .inr ⟨s, rfl⟩⟩
    · have e : AttrType.boolean.conv .dump x = .ok badType := by
        cases x with
        | prim p => cases p <;> first | rfl | exact absurd ⟨_, rfl⟩ hs
        | _ => rfl
      rw [e] at h
      simp only [badType, hc, Bool.and_false, Bool.false_eq_true, if_false] at h
      cases h
      cases hn

theorem string_quiet {i : AttrInfo} (ht : i.type = .string) (hm : i.multi = false) (hp : i.procs .dump = []) {s : Str}
    (hc : i.validateCanon = true → i.isCanonical (.str s) = true) :
    (Attr.simple i).process .dump (.str s) = .ok (.str s, {}) := by
  rw [single_plain hm hp rfl]
  unfold AttrInfo.processOne
  rw [ht]
  have e : AttrType.string.conv .dump (.str s) = .ok (.str s, {}) := rfl
  rw [e]
  simp only
  rw [if_neg, merge_noIssues _ _ rfl]
  intro h
  simp only [Bool.and_eq_true, Bool.not_eq_true'] at h
  rw [hc h.2] at h
  cases h.1

theorem bool_quiet {i : AttrInfo} (ht : i.type = .boolean) (hc : i.validateCanon = false) (hm : i.multi = false)
    (hp : i.procs .dump = []) (b : Bool) :
    (Attr.simple i).process .dump (.bool b) = .ok (.bool b, {}) := by
  rw [single_plain hm hp rfl]
  unfold AttrInfo.processOne
  rw [ht]
  have e : AttrType.boolean.conv .dump (.bool b) = .ok (.bool b, {}) := rfl
  rw [e]
  simp only [hc, Bool.and_false, Bool.false_eq_true, if_false]
  rw [merge_noIssues _ _ rfl]

theorem unknown_quiet {i : AttrInfo} (ht : i.type = .unknown) (hc : i.validateCanon = false) (hm : i.multi = false)
    (hp : i.procs .dump = []) (x : Val) : (Attr.simple i).process .dump x = .ok (x, {}) := by
  by_cases hz : x.isNone = true
  · rw [isNone_iff.mp hz, C25_null]
  · rw [single_plain hm hp (by simpa using hz), one_unknown ht hc]

theorem multi_quiet {i : AttrInfo} (hc : i.validateCanon = false) (hm : i.multi = true) (hp : i.procs .dump = [])
    {xs : List Val} (hx : ∀ x ∈ xs, i.type.conv .dump x = .ok (x, {})) :
    (Attr.simple i).process .dump (.list xs) = .ok (.list xs, {}) := by
  have h1 : ∀ k, i.processItems .dump k xs {} = .ok (xs, {}) := by
    induction xs with
    | nil => intro k; rfl
    | cons x xs ih =>
      intro k
      have h2 : i.processOne .dump [.idx k] x {} = .ok (x, {}) := by
        unfold AttrInfo.processOne
        rw [hx x (by simp)]
        simp only [hc, Bool.and_false, Bool.false_eq_true, if_false]
        rw [merge_noIssues _ _ rfl]
      simp only [AttrInfo.processItems, h2, ih (fun z hz => hx z (List.mem_cons_of_mem _ hz))]
  rw [Attr.process, info_process_eq]
  simp only [Val.isNone, Bool.false_eq_true, if_false, AttrInfo.base, hm, if_true, h1, has_empty, hp, runProcs]

/-- Canonical words, in any letter case. -/
theorem words_canonical {i : AttrInfo} {ws : List Str} (hce : i.caseExact = false)
    (hc : i.canonical = normCanonical false (some (ws.map .str))) (s : Str) :
    i.isCanonical (.str s) = true ↔ ∃ w ∈ ws, lower s = lower w := by
  have := canonical_iff false (ws.map Prim.str) (.str s)
  unfold AttrInfo.isCanonical
  rw [hc]
  simp only [normCanonical, Option.map_some, hce]
  refine this.trans ?_
  constructor
  · rintro ⟨c, hm, h⟩
    obtain ⟨w, hw, rfl⟩ := List.mem_map.mp hm
    exact ⟨w, hw, h⟩
  · rintro ⟨w, hw, h⟩
    exact ⟨.str w, List.mem_map.mpr ⟨w, hw, rfl⟩, h⟩

/-! ## The declaration -/

theorem attributesSubs_plain : PlainSubs attributesSubs := by
  have : checkReps (attributesSubs.map (·.rep)) = true := by
    show checkReps [{ attr := "name".toList }, { attr := "type".toList }, { attr := "subAttributes".toList },
      { attr := "multiValued".toList }, { attr := "description".toList }, { attr := "required".toList },
      { attr := "canonicalValues".toList }, { attr := "caseExact".toList }, { attr := "mutability".toList },
      { attr := "returned".toList }, { attr := "uniqueness".toList }, { attr := "referenceTypes".toList }] = true
    decide +kernel
  obtain ⟨h1, h2⟩ := checkReps_sound this
  exact ⟨fun s hs => (h1 s hs).1, fun s hs => (h1 s hs).2.1, h2⟩

theorem attributesSubs_sane : SaneAll attributesSubs := by
  rw [saneAll_iff]
  intro s hs
  simp only [attributesSubs, List.mem_cons, List.not_mem_nil, or_false] at hs
  rcases hs with rfl | rfl | rfl | rfl | rfl | rfl | rfl | rfl | rfl | rfl | rfl | rfl <;>
    (intro p hp; rcases hp with hp | hp <;> exact absurd hp List.not_mem_nil)

/-- `attributes` as declared. -/
theorem attributesWith_eq (nested : Val → PyM (Val × Issues)) : ∃ info,
    attributesWith nested = .complex info attributesSubs [validateSinglePrimary]
      [dumpAttributes nested, validateSinglePrimary] ∧ (∀ m, ComplexDecl m info) ∧ info.multi = true ∧
      info.rep = { attr := "attributes".toList } := by
  refine ⟨{ rep := { attr := "attributes".toList }, type := .complex, multi := true, mutability := .readOnly }, ?_,
    fun m => ⟨rfl, rfl, by cases m <;> rfl⟩, rfl, rfl⟩
  unfold attributesWith mkComplex
  rw [ofList_all attributesSubs_plain.keys]
  rfl

theorem processSubs_tidy {m : Mode} {subs : List Attr} (hs : PlainSubs subs) {loc : Loc} {item r : Val} {acc is : Issues}
    (h : processSubs m subs loc item .emptyCont acc = .ok (r, is)) : r.Tidy := by
  rw [← mkCont_nil] at h
  obtain ⟨h1, -, -⟩ := processSubs_spec subs loc item [] acc r is hs.plain (lower_nodup_attr hs.distinct) (by simp) h
  rw [List.nil_append] at h1
  obtain ⟨hn, hmem⟩ := outs_names (m := m) (item := item) id (by simpa using lower_nodup_attr hs.distinct)
  refine ⟨_, _, h1, mkCont_inv _ ?_, aget_lcOf_none ?_⟩
  · simpa [List.map_map, Function.comp_def] using hn
  · intro k hk
    simp only [List.map_map, List.mem_map, Function.comp] at hk
    obtain ⟨o, ho, rfl⟩ := hk
    obtain ⟨s, hs', e⟩ := hmem o ho
    show lower o.1 ≠ lower []
    rw [subOut_name e]
    exact lower_ne_nil (hs.named s hs')

theorem complexItems_tidy {m : Mode} {subs : List Attr} (hs : PlainSubs subs) {k : Nat} {xs ys : List Val}
    {acc is : Issues}
    (h : complexItems (fun loc item is => processSubs m subs loc item .emptyCont is) k xs acc = .ok (ys, is)) :
    ∀ y ∈ ys, y.Tidy := by
  induction xs generalizing k acc ys with
  | nil => simp only [complexItems] at h; cases h; simp
  | cons x xs ih =>
    simp only [complexItems] at h
    split at h
    · cases h
    · rename_i it s1 hs1
      split at h
      · cases h
      · rename_i its s2 hs2
        cases h
        intro y hy
        rcases List.mem_cons.mp hy with rfl | hy
        · exact processSubs_tidy hs hs1
        · exact ih hs2 y hy

/-- What an accepted value of `attributes` looks like. -/
theorem attributes_clean {nested : Val → PyM (Val × Issues)} {info : AttrInfo} {ps : List Proc} (hd : ComplexDecl .dump info)
    (hm : info.multi = true) {v r : Val} {is : Issues}
    (h : (Attr.complex info attributesSubs ps [dumpAttributes nested, validateSinglePrimary]).process .dump v = .ok (r, is))
    (hn : is.hasIssues = false) :
    (v = .null ∧ r = .null) ∨ ∃ xs ys, v = .list xs ∧ r = .list ys ∧ ys.length = xs.length ∧
      ∀ (j : Nat) x, xs[j]? = some x → ∃ mid y i, ys[j]? = some y ∧ x.isCont = true ∧ SubResult .dump attributesSubs x mid ∧
        mid.Tidy ∧ (∀ s ∈ attributesSubs, ∀ z w k, x.getItem s.rep = .ok z → z.isMissing = false →
          s.process .dump z = .ok (w, k) → k.hasIssues = false) ∧
        ItemDone nested mid y i ∧ i.hasIssues = false := by
  rcases multi_clean hd hm h hn with h | ⟨xs, mids, is1, rfl, hx, hc, h1, hr⟩
  · exact .inl h
  right
  have hr' : runProcs [dumpAttributes nested, validateSinglePrimary] (.list mids) is1 = .ok (r, is) := hr
  simp only [runProcs, dumpAttributes] at hr'
  have ht := complexItems_tidy attributesSubs_plain hc
  obtain ⟨hl, hall, -, -⟩ := complexItems_spec attributesSubs_plain attributesSubs_sane hc
  cases hdi : dumpItems nested 0 mids {} with
  | error e => rw [hdi] at hr'; cases hr'
  | ok q =>
    obtain ⟨ys, i1⟩ := q
    rw [hdi] at hr'
    simp only at hr'
    split at hr'
    · cases hr'
    · rename_i r' i2 hv
      cases hr'
      obtain ⟨rfl, -⟩ := validateSinglePrimary_validates _ _ _ hv
      rw [hasIssues_merge_false, hasIssues_merge_false] at hn
      obtain ⟨-, hl2, hdone⟩ := dumpItems_clean ht hdi hn.1.2
      refine ⟨xs, ys, rfl, rfl, by rw [hl2, hl], ?_⟩
      intro j x hj
      obtain ⟨mid, hmid, hsub, herr⟩ := hall j x hj
      obtain ⟨y, i, hy, hdn, hi⟩ := hdone j mid hmid
      have hxc := hx x (List.mem_of_getElem? hj)
      have hxt : x.toCont = x := by
        cases x <;> simp [Val.isCont] at hxc
        rw [Val.toCont]
      rw [hxt] at hsub herr
      refine ⟨mid, y, i, hy, hxc, hsub, ht mid (List.mem_of_getElem? hmid), ?_, hdn, hi⟩
      intro s hs z w k hz hzm hp
      obtain ⟨-, he⟩ := herr s hs z w k hz hzm hp
      cases hk : k.hasIssues with
      | false => rfl
      | true => rw [he hk] at h1; cases h1
/-! ## Accepted documents are consistent -/

/-- What the first stage leaves at a sub-attribute: nothing, or the clean result of the sub-attribute. -/
theorem mid_read {x mid : Val} (hsub : SubResult .dump attributesSubs x mid)
    (hcl : ∀ s ∈ attributesSubs, ∀ z w k, x.getItem s.rep = .ok z → z.isMissing = false →
      s.process .dump z = .ok (w, k) → k.hasIssues = false) {s : Attr} (hs : s ∈ attributesSubs) :
    mid.getItem s.rep = .ok .missing ∨
      ∃ z w k, mid.getItem s.rep = .ok w ∧ s.process .dump z = .ok (w, k) ∧ k.hasIssues = false := by
  obtain ⟨z, hz⟩ := hsub.read s hs
  by_cases hm : z.isMissing = true
  · have : z = .missing := by cases z <;> simp [Val.isMissing] at hm; rfl
    subst this
    exact .inl (hsub.absent s hs hz)
  · obtain ⟨w, k, hp, hg⟩ := hsub.present s hs z hz (by simpa using hm)
    exact .inr ⟨z, w, k, hg, hp, hcl s hs z w k hz (by simpa using hm) hp⟩

theorem mid_string {x mid : Val} (hsub : SubResult .dump attributesSubs x mid)
    (hcl : ∀ s ∈ attributesSubs, ∀ z w k, x.getItem s.rep = .ok z → z.isMissing = false →
      s.process .dump z = .ok (w, k) → k.hasIssues = false) {i : AttrInfo} {n : Str} (hs : Attr.simple i ∈ attributesSubs)
    (hr : i.rep = { attr := n }) (ht : i.type = .string) (hm : i.multi = false) (hp : i.procs .dump = []) :
    ∃ w, mid.Has n w ∧ (w.Unset ∨ ∃ t, w = .str t ∧ (i.validateCanon = true → i.isCanonical (.str t) = true)) := by
  rcases mid_read hsub hcl hs with h | ⟨z, w, k, hg, hpr, hk⟩
  · exact ⟨.missing, by unfold Val.Has; rw [← hr]; exact h, .inl (.inl rfl)⟩
  · refine ⟨w, by unfold Val.Has; rw [← hr]; exact hg, ?_⟩
    obtain ⟨rfl, h⟩ := text_clean ht hm hp hpr hk
    rcases h with h | h
    · exact .inl (.inr h)
    · exact .inr h

theorem mid_bool {x mid : Val} (hsub : SubResult .dump attributesSubs x mid)
    (hcl : ∀ s ∈ attributesSubs, ∀ z w k, x.getItem s.rep = .ok z → z.isMissing = false →
      s.process .dump z = .ok (w, k) → k.hasIssues = false) {i : AttrInfo} {n : Str} (hs : Attr.simple i ∈ attributesSubs)
    (hr : i.rep = { attr := n }) (ht : i.type = .boolean) (hc : i.validateCanon = false) (hm : i.multi = false)
    (hp : i.procs .dump = []) : ∃ w, mid.Has n w ∧ (w.Unset ∨ ∃ b, w = .bool b) := by
  rcases mid_read hsub hcl hs with h | ⟨z, w, k, hg, hpr, hk⟩
  · exact ⟨.missing, by unfold Val.Has; rw [← hr]; exact h, .inl (.inl rfl)⟩
  · refine ⟨w, by unfold Val.Has; rw [← hr]; exact hg, ?_⟩
    obtain ⟨rfl, h⟩ := bool_clean ht hc hm hp hpr hk
    rcases h with h | h
    · exact .inl (.inr h)
    · exact .inr h

/-- The words an enumerated sub-attribute accepts. -/
theorem mid_word {x mid : Val} (hsub : SubResult .dump attributesSubs x mid)
    (hcl : ∀ s ∈ attributesSubs, ∀ z w k, x.getItem s.rep = .ok z → z.isMissing = false →
      s.process .dump z = .ok (w, k) → k.hasIssues = false) {i : AttrInfo} {n : Str} (hs : Attr.simple i ∈ attributesSubs)
    (hr : i.rep = { attr := n }) (ht : i.type = .string) (hm : i.multi = false) (hp : i.procs .dump = []) {ws : List Str}
    (hce : i.caseExact = false) (hv : i.validateCanon = true)
    (hc : i.canonical = normCanonical false (some (ws.map .str))) :
    ∃ w, mid.Has n w ∧ (w.Unset ∨ w.OneOf ws) := by
  obtain ⟨w, hw, h⟩ := mid_string hsub hcl hs hr ht hm hp
  refine ⟨w, hw, ?_⟩
  rcases h with h | ⟨t, rfl, h⟩
  · exact .inl h
  · exact .inr ⟨t, rfl, (words_canonical hce hc t).mp (h hv)⟩

theorem unset_of_noneOrMissing {v : Val} (h : v.isNoneOrMissing = true) : v.Unset := by
  cases v with
  | prim p => cases p <;> first | exact .inr rfl | exact absurd h (by simp [Val.isNoneOrMissing, Val.isNone, Val.isMissing])
  | missing => exact .inl rfl
  | _ => exact absurd h (by simp [Val.isNoneOrMissing, Val.isNone, Val.isMissing])

theorem noneOrMissing_of_unset {v : Val} (h : v.Unset) : v.isNoneOrMissing = true := by
  rcases h with rfl | rfl <;> rfl

theorem has_same {x y : Val} {n : Str} (h : y.getItem { attr := n } = x.getItem { attr := n }) {w : Val}
    (hw : x.Has n w) : y.Has n w := by
  unfold Val.Has at *
  rw [h]; exact hw

/-- One item. -/
theorem item_consistent {nested : Val → PyM (Val × Issues)}
    (hnest : ∀ v r is, nested v = .ok (r, is) → is.hasIssues = false →
      (v = .null ∧ r = .null) ∨ ∃ ys, r = .list ys ∧ ∀ y ∈ ys, ConsistentDoc y)
    {x mid y : Val} {i : Issues} (hsub : SubResult .dump attributesSubs x mid)
    (hcl : ∀ s ∈ attributesSubs, ∀ z w k, x.getItem s.rep = .ok z → z.isMissing = false →
      s.process .dump z = .ok (w, k) → k.hasIssues = false) (hdn : ItemDone nested mid y i) (hi : i.hasIssues = false) :
    ConsistentDoc y := by
  have hm : ∀ (k : Nat) s, attributesSubs[k]? = some s → s ∈ attributesSubs := fun k s h => List.mem_of_getElem? h
  obtain ⟨ty, hty, htk⟩ := mid_word hsub hcl (n := "type".toList) (ws := documentTypes) (hm 1 _ rfl) rfl rfl rfl rfl rfl rfl rfl
  obtain ⟨ce, hce, hceb⟩ := mid_bool hsub hcl (n := "caseExact".toList) (hm 7 _ rfl) rfl rfl rfl rfl rfl
  have hone : ∀ s, mid.Has "type".toList (.str s) ↔ ty = .str s := by
    intro s
    unfold Val.Has at hty ⊢
    rw [hty]
    constructor
    · intro e; exact Except.ok.inj e
    · rintro rfl; rfl
  have hne : ∀ n, asciiStr n = true → lowAscii n ≠ lowAscii "subAttributes".toList → lowAscii n ≠ lowAscii "caseExact".toList →
      y.getItem { attr := n } = mid.getItem { attr := n } := fun n h1 h2 h3 =>
    hdn.same n (lower_ne_ascii h1 (by decide) h2) (lower_ne_ascii h1 (by decide) h3)
  have hf : ConsistentFields y ty := by
    refine ⟨hdn.tidy.isCont, ?_, ?_, htk, ?_, ?_, ?_, ?_, ?_, ?_, ?_⟩
    · obtain ⟨w, hw, h⟩ := mid_string hsub hcl (n := "name".toList) (hm 0 _ rfl) rfl rfl rfl rfl
      exact ⟨w, has_same (hne _ (by decide) (by decide) (by decide)) hw, h.imp id (fun ⟨t, e, _⟩ => ⟨t, e⟩)⟩
    · exact has_same (hne _ (by decide) (by decide) (by decide)) hty
    · obtain ⟨w, hw, h⟩ := mid_bool hsub hcl (n := "multiValued".toList) (hm 3 _ rfl) rfl rfl rfl rfl rfl
      exact ⟨w, has_same (hne _ (by decide) (by decide) (by decide)) hw, h⟩
    · obtain ⟨w, hw, h⟩ := mid_string hsub hcl (n := "description".toList) (hm 4 _ rfl) rfl rfl rfl rfl
      exact ⟨w, has_same (hne _ (by decide) (by decide) (by decide)) hw, h.imp id (fun ⟨t, e, _⟩ => ⟨t, e⟩)⟩
    · obtain ⟨w, hw, h⟩ := mid_bool hsub hcl (n := "required".toList) (hm 5 _ rfl) rfl rfl rfl rfl rfl
      exact ⟨w, has_same (hne _ (by decide) (by decide) (by decide)) hw, h⟩
    · by_cases e : ty = .str "string".toList
      · obtain ⟨ce', h1, h2, h3⟩ := hdn.string ((hone _).mpr e)
        have : ce' = ce := by
          unfold Val.Has at h1 hce
          rw [hce] at h1
          exact (Except.ok.inj h1).symm
        subst this
        refine ⟨ce', h3, ?_⟩
        rw [if_pos e]
        rcases hceb with h | h
        · rw [noneOrMissing_of_unset h] at h2; cases h2
        · exact h
      · exact ⟨.missing, hdn.other (fun h => e ((hone _).mp h)), by rw [if_neg e]⟩
    · obtain ⟨w, hw, h⟩ := mid_word hsub hcl (n := "mutability".toList)
        (ws := ["readOnly".toList, "readWrite".toList, "immutable".toList, "writeOnly".toList]) (hm 8 _ rfl) rfl rfl rfl rfl rfl rfl rfl
      exact ⟨w, has_same (hne _ (by decide) (by decide) (by decide)) hw, h⟩
    · obtain ⟨w, hw, h⟩ := mid_word hsub hcl (n := "returned".toList)
        (ws := ["always".toList, "never".toList, "default".toList, "request".toList]) (hm 9 _ rfl) rfl rfl rfl rfl rfl rfl rfl
      exact ⟨w, has_same (hne _ (by decide) (by decide) (by decide)) hw, h⟩
    · obtain ⟨w, hw, h⟩ := mid_word hsub hcl (n := "uniqueness".toList)
        (ws := ["none".toList, "server".toList, "global".toList]) (hm 10 _ rfl) rfl rfl rfl rfl rfl rfl rfl
      exact ⟨w, has_same (hne _ (by decide) (by decide) (by decide)) hw, h⟩
  have hms : ∃ subs, mid.Has "subAttributes".toList subs := by
    rcases mid_read hsub hcl (hm 2 _ rfl) with h | ⟨z, w, k, hg, -, -⟩
    · exact ⟨_, h⟩
    · exact ⟨_, hg⟩
  obtain ⟨subs, hsubs⟩ := hms
  cases hu : subs.isNoneOrMissing with
  | true => exact .leaf y ty subs hf (hdn.unset subs hsubs hu).1 (unset_of_noneOrMissing hu)
  | false =>
    by_cases e : ty = .str "complex".toList
    · obtain ⟨dumped, hd1, hd2⟩ := hdn.nested subs hsubs hu ((hone _).mpr e)
      rcases hnest _ _ _ hd1 hi with ⟨rfl, -⟩ | ⟨ys, rfl, hys⟩
      · cases hu
      · subst e
        exact .nested y ys hf hd2 hys
    · exact .leaf y ty .missing hf (hdn.dropped subs hsubs hu (fun h => e ((hone _).mp h))).1 (.inl rfl)

/-- All items of an accepted value of an attribute declared like `attributes`. -/
theorem attributes_consistent {nested : Val → PyM (Val × Issues)}
    (hnest : ∀ v r is, nested v = .ok (r, is) → is.hasIssues = false →
      (v = .null ∧ r = .null) ∨ ∃ ys, r = .list ys ∧ ∀ y ∈ ys, ConsistentDoc y)
    {info : AttrInfo} {ps : List Proc} (hd : ComplexDecl .dump info)
    (hm : info.multi = true) {v r : Val} {is : Issues}
    (h : (Attr.complex info attributesSubs ps [dumpAttributes nested, validateSinglePrimary]).process .dump v = .ok (r, is))
    (hn : is.hasIssues = false) : (v = .null ∧ r = .null) ∨ ∃ ys, r = .list ys ∧ ∀ y ∈ ys, ConsistentDoc y := by
  rcases attributes_clean hd hm h hn with h | ⟨xs, ys, rfl, rfl, hl, hall⟩
  · exact .inl h
  · refine .inr ⟨ys, rfl, ?_⟩
    intro y hy
    obtain ⟨j, hj, e⟩ := List.getElem_of_mem hy
    have hxj : xs[j]? = some xs[j] := List.getElem?_eq_getElem (by omega)
    obtain ⟨mid, y', i, hy', -, hsub, -, hcl, hdn, hi⟩ := hall j _ hxj
    have : y' = y := by
      rw [List.getElem?_eq_getElem hj, e] at hy'
      exact (Option.some.inj hy').symm
    subst this
    exact item_consistent hnest hsub hcl hdn hi

theorem nestedDump_consistent (d : Nat) : ∀ v r is, nestedDump d v = .ok (r, is) → is.hasIssues = false →
    (v = .null ∧ r = .null) ∨ ∃ ys, r = .list ys ∧ ∀ y ∈ ys, ConsistentDoc y := by
  induction d with
  | zero => intro v r is h; cases h
  | succ d ih =>
    intro v r is h hn
    obtain ⟨info, e, hd, hm, -⟩ := attributesWith_eq (nestedDump d)
    rw [nestedDump, e] at h
    exact attributes_consistent ih (hd _) hm h hn

end Scim
