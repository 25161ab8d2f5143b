import Verif.Lemmas.PatchInput
import Verif.Lemmas.Assets

/-! From the body of a patch request to its operations. -/

namespace Scim
variable [PyEnv]
open Issues PatchA

theorem complexItems_reach {m : Mode} {subs : List Attr} {k : Nat} {xs ys : List Val} {acc is : Issues}
    (h : complexItems (fun loc item is => processSubs m subs loc item .emptyCont is) k xs acc = .ok (ys, is)) :
    ∀ y ∈ ys, y.Reach := by
  induction xs generalizing k acc ys with
  | nil => simp only [complexItems] at h; cases h; simp
  | cons x xs ih =>
    simp only [complexItems] at h
    split at h
    · cases h
    · rename_i y is1 hy
      split at h
      · cases h
      · rename_i ys' is2 hys
        cases h
        intro z hz
        rcases List.mem_cons.mp hz with rfl | hz
        · exact processSubs_reach emptyCont_reach hy
        · exact ih hys z hz

/-- Processing of a complex attribute is processing without post-processors, followed by these. -/
theorem complex_split {m : Mode} {info : AttrInfo} {subs : List Attr} {ps ds : List Proc} {v r : Val} {is : Issues}
    (h : (Attr.complex info subs ps ds).process m v = .ok (r, is)) :
    ∃ r1 is1, (Attr.complex info subs [] []).process m v = .ok (r1, is1) ∧
      ((r = r1 ∧ is = is1 ∧ (is1.hasIssues = true ∨ is1.canProceed = false ∨ r1.isNone = true)) ∨
       (is1.hasIssues = false ∧ runProcs ((Attr.complex info subs ps ds).cprocs m) r1 is1 = .ok (r, is))) := by
  rw [complex_process_eq] at h ⊢
  split at h
  · cases h
  · rename_i value issues hv
    split at h
    · rename_i hc
      cases h
      refine ⟨r, is, by rw [if_pos hc], .inl ⟨rfl, rfl, ?_⟩⟩
      simp only [Bool.or_eq_true, Bool.not_eq_true'] at hc
      rcases hc with hc | hc
      · exact .inr (.inl hc)
      · exact .inr (.inr hc)
    · rename_i hc
      rw [if_neg hc]
      split at h
      · cases h
      · rename_i parsed is1 hb
        split at h
        · rename_i hi
          cases h
          exact ⟨_, _, by rw [if_pos hi], .inl ⟨rfl, rfl, .inl hi⟩⟩
        · rename_i hi
          refine ⟨parsed, is1, ?_, .inr ⟨by simpa using hi, h⟩⟩
          rw [if_neg hi]
          cases m <;> rfl

/-- The items of a multi-valued complex attribute are containers built by assignment. -/
theorem multi_reach {m : Mode} {info : AttrInfo} {subs : List Attr} (hm : info.multi = true) {xs : List Val} {ys : List Val}
    {is : Issues} (hd : ComplexDecl m info)
    (h : (Attr.complex info subs [] []).process m (.list xs) = .ok (.list ys, is)) : ∀ y ∈ ys, y.Reach := by
  rw [complex_process_eq, info_process_eq] at h
  simp only [Val.isNone, Bool.false_eq_true, if_false, AttrInfo.base, hm, if_true, hd.procs, runProcs] at h
  cases hpi : info.processItems m 0 xs {} with
  | error e => rw [hpi] at h; simp at h
  | ok q =>
    obtain ⟨zs, is0⟩ := q
    rw [hpi] at h
    simp only [ite_self] at h
    obtain ⟨p1, p2, p3⟩ := processItems_spec hpi
    have hw0 : is0.WF := processItems_wf WF.empty hpi
    have hnil : is0.errorsAt [] = [] := by
      rw [p2 []]
      · rfl
      · intro i l' _ e; cases e
    have hcan : is0.canProceed = true := by
      rw [canProceed_nil_iff]
      cases hg : aget [] is0.stop with
      | none => rfl
      | some c => exact absurd hnil (hw0.stop_errors (by simp [hg]))
    simp only [hcan, Bool.not_true, Bool.false_or, Bool.false_eq_true, if_false, complexBody, hm,
      if_true] at h
    cases hci : complexItems (fun loc item is => processSubs m subs loc item .emptyCont is) 0 zs is0 with
    | error e => rw [hci] at h; simp at h
    | ok q =>
      obtain ⟨ys', is1⟩ := q
      rw [hci] at h
      have hr := complexItems_reach hci
      simp only at h
      split at h
      · cases h; exact hr
      · cases m <;> (cases h; exact hr)

/-- A multi-valued attribute rejects what is not a list. -/
theorem multi_non_list {m : Mode} {info : AttrInfo} {subs : List Attr} {ps ds : List Proc} (hm : info.multi = true)
    {v r : Val} {is : Issues} (hn : v.isNone = false) (hl : v.isList = false)
    (h : (Attr.complex info subs ps ds).process m v = .ok (r, is)) : r = .invalid := by
  rw [complex_process_eq, info_process_eq, hn] at h
  simp only [Bool.false_eq_true, if_false, AttrInfo.base, hm, if_true] at h
  have hb : (blocking 2).canProceed = false := rfl
  cases v <;> first | (simp [Val.isList] at hl; done) | (simp only [hb, Bool.not_false, Bool.true_or, if_true] at h; cases h; rfl)

/-! ## The `Operations` attribute -/

theorem ops_subs_plain : PlainSubs [opAttr, pathAttr, valueAttr] := by
  refine ⟨?_, ?_, ?_⟩
  · simp [AttrRep.Plain, opAttr, pathAttr, valueAttr, mkAttr, Attr.rep, Attr.info]
  · simp [opAttr, pathAttr, valueAttr, mkAttr, Attr.rep, Attr.info, opWord, pathWord, valWord]
  · have hl : [opAttr, pathAttr, valueAttr].map (fun s => lower s.rep.attr) = [opWord, pathWord, valWord] := by
      simp only [List.map_cons, List.map_nil, opAttr, pathAttr, valueAttr, mkAttr, Attr.rep, Attr.info]
      rw [PyEnv.lower_ascii _ (by decide), PyEnv.lower_ascii _ (by decide), PyEnv.lower_ascii _ (by decide)]
      rfl
    rw [hl]; decide

theorem ops_subs_sane : SaneAll [opAttr, pathAttr, valueAttr] := by
  refine ⟨?_, ?_, ?_, trivial⟩
  · intro p hp
    rcases hp with hp | hp <;> simp [] at hp
  · intro p hp
    rcases hp with hp | hp
    · simp only [List.mem_singleton] at hp; subst hp; exact procSane_path
    · simp at hp
  · intro p hp
    rcases hp with hp | hp <;> simp at hp

/-- The attribute `Operations` as part of the schema. -/
def opsA : Attr := bindAttr operations { schema := urn, attr := opsWord }

/-- Its description. -/
def opsInfo : AttrInfo :=
  { rep := { schema := urn, attr := opsWord }, type := .complex, required := true, multi := true, caseExact := false,
    canonical := none, validateCanon := false }

theorem opsA_eq : opsA = .complex opsInfo [opAttr, pathAttr, valueAttr] [validateOperations, validateSinglePrimary]
    [validateSinglePrimary] := by
  unfold opsA operations mkComplex
  rw [ofList_all ops_subs_plain.keys]
  rfl

theorem opsInfo_decl (m : Mode) : ComplexDecl m opsInfo := ⟨rfl, rfl, by cases m <;> rfl⟩

theorem validateSinglePrimary_wf {v r : Val} {is : Issues} (h : validateSinglePrimary v = .ok (r, is)) : r = v ∧ is.WF :=
  validateSinglePrimary_validates v r is h

/-- An operation of the input about which nothing is reported. -/
theorem item_clean {x y : Val} (hs : SubResult .parse [opAttr, pathAttr, valueAttr] x y)
    (hc : ∀ s ∈ [opAttr, pathAttr, valueAttr], ∀ z w j, x.getItem s.rep = .ok z → z.isMissing = false →
      s.process .parse z = .ok (w, j) → j.hasIssues = false) :
    ∃ t p v, y.getItem { attr := opWord } = .ok t ∧ y.getItem { attr := pathWord } = .ok p ∧
      y.getItem { attr := valWord } = .ok v ∧ OpInput x t p v := by
  have hmiss : ∀ {z : Val}, z.isMissing = true → z = .missing := by
    intro z hz; cases z <;> simp [Val.isMissing] at hz; rfl
  -- the operation
  obtain ⟨t, ht, ht', htw⟩ : ∃ t, x.getItem { attr := opWord } = .ok t ∧ y.getItem { attr := opWord } = .ok t ∧
      (t.isNoneOrMissing = true ∨ ∃ s, t = .str s ∧ (lower s = addWord ∨ lower s = removeWord ∨ lower s = replaceWord)) := by
    obtain ⟨z, hz⟩ := hs.read opAttr (by simp)
    cases hm : z.isMissing with
    | true =>
      rw [hmiss hm] at hz
      exact ⟨.missing, hz, hs.absent opAttr (by simp) hz, .inl rfl⟩
    | false =>
      obtain ⟨w, j, hp, hw⟩ := hs.present opAttr (by simp) z hz hm
      obtain ⟨rfl, h2⟩ := opAttr_clean hp (hc opAttr (by simp) z w j hz hm hp)
      refine ⟨w, hz, hw, ?_⟩
      rcases h2 with rfl | h2
      · exact .inl rfl
      · exact .inr h2
  obtain ⟨p, hp, hpw⟩ : ∃ p, y.getItem { attr := pathWord } = .ok p ∧
      ((x.getItem { attr := pathWord } = .ok p ∧ p.isNoneOrMissing = true) ∨
       ∃ s q, x.getItem { attr := pathWord } = .ok (.str s) ∧ PatchPath.parse s = .ok (some q, {}) ∧ p = .obj (.path q)) := by
    obtain ⟨z, hz⟩ := hs.read pathAttr (by simp)
    cases hm : z.isMissing with
    | true =>
      rw [hmiss hm] at hz
      exact ⟨.missing, hs.absent pathAttr (by simp) hz, .inl ⟨hz, rfl⟩⟩
    | false =>
      obtain ⟨w, j, hp, hw⟩ := hs.present pathAttr (by simp) z hz hm
      refine ⟨w, hw, ?_⟩
      rcases pathAttr_clean hp (hc pathAttr (by simp) z w j hz hm hp) with ⟨rfl, rfl⟩ | ⟨s, q, rfl, h2, h3⟩
      · exact .inl ⟨hz, rfl⟩
      · exact .inr ⟨s, q, hz, h2, h3⟩
  obtain ⟨v, hv, hv'⟩ : ∃ v, x.getItem { attr := valWord } = .ok v ∧ y.getItem { attr := valWord } = .ok v := by
    obtain ⟨z, hz⟩ := hs.read valueAttr (by simp)
    cases hm : z.isMissing with
    | true =>
      rw [hmiss hm] at hz
      exact ⟨.missing, hz, hs.absent valueAttr (by simp) hz⟩
    | false =>
      obtain ⟨w, j, hp, hw⟩ := hs.present valueAttr (by simp) z hz hm
      rw [valueAttr_process] at hp
      cases hp
      exact ⟨z, hz, hw⟩
  exact ⟨t, p, v, ht', hp, hv', ht, hv, hpw, htw⟩

/-- What processing the items of the list of operations does, before the check of the operations. -/
theorem ops_items {xs : List Val} {r1 : Val} {is1 : Issues}
    (h1 : (Attr.complex opsInfo [opAttr, pathAttr, valueAttr] [] []).process .parse (.list xs) = .ok (r1, is1)) :
    ∃ ys : List Val, r1 = .list ys ∧ ys.length = xs.length ∧ is1.WF ∧ (∀ y ∈ ys, y.Reach) ∧
      ∀ i x, xs[i]? = some x → (∀ l, is1.errorsAt (.idx i :: l) = []) → ∃ o t p v, ys[i]? = some o ∧ o.isCont = true ∧
        o.getItem { attr := opWord } = .ok t ∧ o.getItem { attr := pathWord } = .ok p ∧
        o.getItem { attr := valWord } = .ok v ∧ OpInput x t p v ∧ o.NoKeyFor [] := by
  have hw1 : is1.WF := process_wf _ (by
    rw [Attr.Sane]
    refine ⟨?_, ops_subs_sane⟩
    intro p hp
    simp [opsInfo] at hp) h1
  obtain ⟨ys, rfl, hlen, hbad, hgood, hlocs⟩ := C27_multi .parse opsInfo _ [] [] (opsInfo_decl _) rfl ops_subs_plain ops_subs_sane
    (by simp [Attr.cprocs]) xs r1 is1 h1
  have hreach := multi_reach (m := .parse) (info := opsInfo) rfl (opsInfo_decl _) h1
  refine ⟨ys, rfl, hlen, hw1, hreach, ?_⟩
  intro i x hx hcl
  cases hxc : x.isCont with
  | false => exact absurd (hcl []) (hbad i x hx hxc).2
  | true =>
    obtain ⟨y, hy, hsr, hiss⟩ := hgood i x hx hxc
    obtain ⟨t, p, v, a1, a2, a3, a4⟩ := item_clean hsr (by
      intro s hs z w' j' hz hm hp
      rw [← Bool.not_eq_true]
      intro hj
      have hwj : j'.WF := process_wf s (saneAll_iff.mp ops_subs_sane s hs) hp
      obtain ⟨l, hl⟩ := (hasIssues_iff_errors hwj).mp hj
      have := hiss s hs z w' j' hz hm hp l hl
      rw [hcl] at this
      exact hl this.symm)
    refine ⟨y, t, p, v, hy, hsr.cont, a1, a2, a3, a4, ?_⟩
    intro k hk
    obtain ⟨s, hs, rfl, -⟩ := hsr.declared k hk
    have : lower s.rep.attr ≠ [] := by
      have hh := ops_subs_plain.named s hs
      simp only [List.mem_cons, List.not_mem_nil, or_false] at hs
      rcases hs with rfl | rfl | rfl
      · rw [show lower opAttr.rep.attr = opWord from PyEnv.lower_ascii opWord (by decide)]; decide
      · rw [show lower pathAttr.rep.attr = pathWord from PyEnv.lower_ascii pathWord (by decide)]; decide
      · rw [show lower valueAttr.rep.attr = valWord from PyEnv.lower_ascii valWord (by decide)]; decide
    rw [show lower ([] : Str) = [] from PyEnv.lower_ascii [] (by simp)]
    exact this

/-- What processing the list of operations does. -/
theorem operations_process {xs : List Val} {w : Val} {j : Issues} (h : opsA.process .parse (.list xs) = .ok (w, j)) :
    ∃ os : List Val, w = .list os ∧ os.length = xs.length ∧ j.WF ∧
      (∀ i x, xs[i]? = some x → (∀ l, j.errorsAt (.idx i :: l) = []) → ∃ o t p v, os[i]? = some o ∧ o.isCont = true ∧
        o.getItem { attr := opWord } = .ok t ∧ o.getItem { attr := pathWord } = .ok p ∧
        o.getItem { attr := valWord } = .ok v ∧ OpInput x t p v) ∧
      (j.hasIssues = false → ∀ (i : Nat) (o t p v : Val), os[i]? = some o → o.getItem { attr := opWord } = .ok t →
        o.getItem { attr := pathWord } = .ok p → o.getItem { attr := valWord } = .ok v →
        opPathErrs t p = [] ∧ opValueErrs t v = []) := by
  rw [opsA_eq] at h
  obtain ⟨r1, is1, h1, hcase⟩ := complex_split h
  obtain ⟨ys, rfl, hlen, hw1, hreach, hitem⟩ := ops_items h1
  rcases hcase with ⟨rfl, rfl, hc⟩ | ⟨hni, hrun⟩
  · refine ⟨ys, rfl, hlen, hw1, ?_, ?_⟩
    · intro i x hx hcl
      obtain ⟨o, t, p, v, b1, b2, b3, b4, b5, b6, -⟩ := hitem i x hx hcl
      exact ⟨o, t, p, v, b1, b2, b3, b4, b5, b6⟩
    · intro hno
      rcases hc with hc | hc | hc
      · rw [hno] at hc; cases hc
      · rw [eq_empty_of_noIssues hw1 hno] at hc; cases hc
      · cases hc
  · have he := eq_empty_of_noIssues hw1 hni
    subst he
    simp only [Attr.cprocs, runProcs, validateOperations] at hrun
    cases hv : validateOpsLoop 0 ys {} with
    | error e => rw [hv] at hrun; cases hrun
    | ok q =>
      obtain ⟨os, iv⟩ := q
      rw [hv] at hrun
      simp only at hrun
      cases hsp : validateSinglePrimary (.list os) with
      | error e => rw [hsp] at hrun; cases hrun
      | ok q =>
        obtain ⟨w', ip⟩ := q
        rw [hsp] at hrun
        obtain ⟨rfl, hwp⟩ := validateSinglePrimary_wf hsp
        cases hrun
        have hys : ∀ y ∈ ys, y.Reach ∧ y.NoKeyFor [] := by
          intro y hy
          refine ⟨hreach y hy, ?_⟩
          obtain ⟨i, hi⟩ := List.getElem?_of_mem hy
          have hix : i < xs.length := by
            rw [← hlen]; exact (List.getElem?_eq_some_iff.mp hi).1
          obtain ⟨o, t, p, v, b1, -, -, -, -, -, b7⟩ := hitem i xs[i] (List.getElem?_eq_getElem hix) (fun _ => rfl)
          rw [hi] at b1; cases b1; exact b7
        obtain ⟨g1, g2, g3, g4⟩ := validateOpsLoop_spec WF.empty hys hv
        have hj : ∀ l, (((Issues.merge {} iv).merge ip)).errorsAt l = iv.errorsAt l ++ ip.errorsAt l := by
          intro l
          rw [errorsAt_merge hwp, errorsAt_merge g1]
          simp
        refine ⟨os, rfl, by rw [g2, hlen], (WF.empty.merge g1 _).merge hwp _, ?_, ?_⟩
        · intro i x hx hcl
          obtain ⟨y, t, p, v, b1, b2, b3, b4, b5, b6, -⟩ := hitem i x hx (fun _ => rfl)
          obtain ⟨o, t', p', v', c1, c2, c3, c4, c5, c6, c7, c8, c9, c10, c11⟩ := g3 i y b1
          rw [b3] at c2; cases c2
          rw [b4] at c3; cases c3
          rw [b5] at c4; cases c4
          rcases c9 with rfl | c9
          · exact ⟨o, t, p, v, c1, b2, b3, b4, b5, b6⟩
          · exfalso
            have := hcl [.name pathWord]
            rw [hj, show ([.idx i, .name pathWord] : Loc) = [.idx (0 + i), .name pathWord] by rw [Nat.zero_add], c10] at this
            simp only [List.append_eq_nil_iff] at this
            exact c9 this.1.2
        · intro hno i o t p v ho ht hp hv'
          have hix : i < ys.length := by
            rw [← g2]; exact (List.getElem?_eq_some_iff.mp ho).1
          obtain ⟨o', t', p', v', c1, c2, c3, c4, c5, c6, c7, c8, c9, c10, c11⟩ := g3 i _ (List.getElem?_eq_getElem hix)
          rw [ho] at c1; cases c1
          rw [ht] at c5; cases c5
          rw [hp] at c6; cases c6
          have hcl : ∀ l, iv.errorsAt l = [] := by
            intro l
            have : ((Issues.merge {} iv).merge ip).errorsAt l = [] := by
              rw [eq_empty_of_noIssues ((WF.empty.merge g1 _).merge hwp _) hno]; rfl
            rw [hj] at this
            exact (List.append_eq_nil_iff.mp this).1
          rw [hcl] at c10 c11
          have e1 : opPathErrs t p = [] := (List.append_eq_nil_iff.mp c10.symm).2
          have e2 := (List.append_eq_nil_iff.mp c11.symm).2
          refine ⟨e1, ?_⟩
          rcases c9 with rfl | c9
          · rw [hv'] at c4; cases c4; exact e2
          · exact absurd e1 c9

/-! ## The schema of patch requests -/

theorem processTop_reach {m : Mode} {as : List Attr} {item parsed r : Val} {acc is : Issues}
    (hp : parsed.Reach) (h : processTop m as item parsed acc = .ok (r, is)) : r.Reach := by
  induction as generalizing parsed acc with
  | nil => rw [processTop] at h; cases h; exact hp
  | cons s ss ih =>
    rw [processTop] at h
    split at h
    · cases h
    · exact ih hp h
    · split at h
      · cases h
      · split at h
        · cases h
        · rename_i hs
          exact ih (.set _ _ hp hs) h

/-- What `parse` and `dump` return for an object was built by assignment. -/
theorem schema_process_reach {m : Mode} {s : Schema} {data r : Val} {is : Issues}
    (hobj : (data.isCont || data.isDict) = true) (h : s.process m data = .ok (r, is)) : r.Reach := by
  have hnone : data.isNone = false := by
    cases data <;> simp [Val.isCont, Val.isDict] at hobj <;> rfl
  unfold Schema.process at h
  rw [hnone, hobj] at h
  simp only [Bool.false_eq_true, if_false, Bool.not_true] at h
  split at h
  · cases h
  · rename_i r0 is0 hpt
    have hr := processTop_reach emptyCont_reach hpt
    split at h
    · cases h
    · split at h
      · cases h
      · split at h
        · split at h
          · split at h
            · cases h
            · cases h; exact hr
          · cases h
        · cases h; exact hr

theorem getMap_spec {xs ys : List Val} {r : AttrRep} (h : getMap xs r = .ok ys) :
    ys.length = xs.length ∧ ∀ (i : Nat) (x : Val), xs[i]? = some x → ∃ y, ys[i]? = some y ∧ x.getItem r = .ok y := by
  induction xs generalizing ys with
  | nil => rw [getMap] at h; cases h; simp
  | cons x xs ih =>
    rw [getMap] at h
    split at h
    · cases h
    · rename_i y hy
      split at h
      · cases h
      · rename_i ys' hys
        cases h
        obtain ⟨h1, h2⟩ := ih hys
        refine ⟨by simp [h1], ?_⟩
        intro i z hz
        cases i with
        | zero => simp only [List.getElem?_cons_zero, Option.some.injEq] at hz; subst hz; exact ⟨y, rfl, hy⟩
        | succ i => simpa using h2 i z (by simpa using hz)

theorem getX_list {xs : List Val} {w : Str} {v : Val} (hw : isAttrName w = true)
    (h : Val.getX true (.list xs) { attr := w } = .ok v) : ∃ ys, v = .list ys ∧ getMap xs { attr := w } = .ok ys := by
  rw [Val.getX] at h
  simp only [hw, Bool.not_true, Bool.and_false, Bool.false_eq_true, if_false] at h
  split at h
  · rename_i ys hy; cases h; exact ⟨ys, rfl, hy⟩
  · cases h

/-- The names of the schema. -/
def patchNames : List (AttrRep × List AttrRep) := @declNames (@schemasAttr asciiEnv :: [@operations asciiEnv])

theorem patchNames_eq : declNames (schemasAttr :: [operations]) = patchNames := rfl

theorem patch_wf : PatchA.schema.WF :=
  mkSchema_wf (declarations_of patchNames_eq (by decide +kernel)) (by decide +kernel)
    (fun d hd => noClash_of patchNames_eq (by decide +kernel) (urns := [PatchA.urn]) (by decide +kernel) d hd _ (by simp))

theorem opsA_mem : opsA ∈ PatchA.schema.attrs.top := by
  have h : ∀ u : Str, (mkSchema u [operations]).attrs.top = (((schemasAttr :: [operations]).flatMap (bindWithSubs u false)).filter
      (fun a => a.rep.sub.isEmpty)) := fun _ => rfl
  rw [PatchA.schema, h, List.mem_filter]
  refine ⟨?_, rfl⟩
  rw [List.mem_flatMap]
  exact ⟨operations, by simp, List.mem_cons_self⟩

theorem patch_top : ∀ a ∈ PatchA.schema.attrs.top, a = bindAttr schemasAttr { schema := urn, attr := "schemas".toList } ∨ a = opsA := by
  intro a ha
  have hm : a ∈ (schemasAttr :: [operations]).flatMap (bindWithSubs urn false) ∧ a.rep.sub.isEmpty = true := List.mem_filter.mp ha
  obtain ⟨hm, hsub⟩ := hm
  rw [List.mem_flatMap] at hm
  obtain ⟨d, hd, hm⟩ := hm
  simp only [List.mem_cons, List.not_mem_nil, or_false] at hd
  rcases hd with rfl | rfl
  · rcases mem_bindWithSubs.mp hm with rfl | ⟨s, hs, rfl⟩
    · exact .inl rfl
    · cases hs
  · rcases mem_bindWithSubs.mp hm with rfl | ⟨s, hs, rfl⟩
    · exact .inr rfl
    · exfalso
      rw [bindAttr_rep] at hsub
      have : s ∈ [opAttr, pathAttr, valueAttr] := by
        have e : operations.subs = [opAttr, pathAttr, valueAttr] := by
          unfold operations mkComplex
          rw [ofList_all ops_subs_plain.keys]
          rfl
        rwa [e] at hs
      exact ops_subs_plain.named s this (by simpa using hsub)

theorem procSane_validateOperations {v r : Val} {is : Issues} (h : validateOperations v = .ok (r, is)) : is.WF := by
  have hop : ∀ {i o acc o' is}, validateOperation i o acc = .ok (o', is) → acc.WF → is.WF := by
    intro i o acc o' is h ha
    unfold validateOperation at h
    split at h
    · cases h
    split at h
    · cases h
    split at h
    · cases h
    split at h
    · split at h
      · cases h
      · cases h; exact ha.add _ _ _
    · split at h
      · dsimp only at h
        split at h
        · cases h
        · cases h
          split <;> split <;> first | exact (ha.add _ _ _).add _ _ _ | exact ha.add _ _ _ | exact ha
      · cases h; exact ha
  have hl : ∀ {os : List Val} {k acc os' is}, validateOpsLoop k os acc = .ok (os', is) → acc.WF → is.WF := by
    intro os
    induction os with
    | nil => intro k acc os' is h ha; rw [validateOpsLoop] at h; cases h; exact ha
    | cons o os ih =>
      intro k acc os' is h ha
      rw [validateOpsLoop] at h
      split at h
      · cases h
      · rename_i ho
        split at h
        · cases h
        · rename_i hos
          cases h
          exact ih hos (hop ho ha)
  unfold validateOperations at h
  split at h
  · split at h
    · cases h
    · rename_i hh
      cases h
      exact hl hh WF.empty
  · cases h

theorem patch_sane : SaneAll PatchA.schema.attrs.top := by
  rw [saneAll_iff]
  intro a ha
  rcases patch_top a ha with rfl | rfl
  · intro p hp
    rcases hp with hp | hp <;> exact absurd hp (by simp)
  · rw [opsA_eq]
    refine ⟨?_, ops_subs_sane⟩
    intro p hp
    simp only [opsInfo, List.not_mem_nil, List.mem_cons, or_false, false_or] at hp
    rcases hp with (rfl | rfl) | rfl
    · exact fun _ _ _ h => procSane_validateOperations h
    · exact fun _ _ _ h => (validateSinglePrimary_wf h).2
    · exact fun _ _ _ h => (validateSinglePrimary_wf h).2

/-- The sub-attribute of an attribute of the schema. -/
theorem getItem_subRep {d : List (Str × Val)} {lc : List (Str × Str)} (hn : aget (lower urn) lc = none) {w : Str} (hw : w ≠ []) :
    (Val.cont d lc).getItem (subRep w) = match (Val.cont d lc).getItem { schema := urn, attr := opsWord } with
      | .error e => .error e
      | .ok y => Val.getX true y { attr := w } := by
  rw [getItem_noKey (r := subRep w) hn, getItem_noKey (r := { schema := urn, attr := opsWord }) hn]
  have : w.isEmpty = false := by cases w <;> simp at hw ⊢
  cases h1 : aget (lower opsWord) lc with
  | none => simp [subRep, h1, Val.getX]
  | some k =>
    cases h2 : aget k d with
    | none => simp [subRep, h1, h2]
    | some v => simp [subRep, h1, h2, this]

theorem word_name {w : Str} (h : w ∈ [opWord, pathWord, valWord]) : isAttrName w = true := by
  apply isAttrName_ascii
  · revert w; decide
  · revert w; decide

/-- `parse` in terms of the operations of the request. -/
theorem parse_bridge {r : Schema} (hr : r.WF) (hsane : SaneAll r.attrs.all) {data v : Val} {is : Issues}
    (h : PatchA.parse r data = .ok (v, is)) :
    ∃ d is0, PatchA.schema.parse data = .ok (d, is0) ∧ is0.WF ∧ is.WF ∧
      ((is0.canProceed [[.name opsWord]] = false ∧ v = d ∧ is = is0) ∨
       (is0.canProceed [[.name opsWord]] = true ∧ (data.isCont = true ∨ data.isDict = true) ∧ ∃ xs out : List Val,
        data.toCont.getItem { schema := urn, attr := opsWord } = .ok (.list xs) ∧ out.length = xs.length ∧
        v.getItem { schema := urn, attr := opsWord } = .ok (.list out) ∧
        (∀ i x, xs[i]? = some x → is0.hasIssues [opLoc i] = false → ∃ o t p value io, out[i]? = some o ∧
          OpInput x t p value ∧ parseOne r t p value = .ok (o, io) ∧ io.WF ∧ (io.hasIssues = true → is.hasIssues = true) ∧
          (∀ l, is.errorsAt (opLoc i ++ l) = io.errorsAt l) ∧
          (is0.hasIssues = false → opPathErrs t p = [] ∧ opValueErrs t value = [])) ∧
        (∀ i x, xs[i]? = some x → is0.hasIssues [opLoc i] = true → ∀ l, is.errorsAt (opLoc i ++ l) = is0.errorsAt (opLoc i ++ l)) ∧
        (∀ l, (∀ i, i < xs.length → ¬ opLoc i <+: l) → is.errorsAt l = is0.errorsAt l) ∧
        (is0.hasIssues = true → is.hasIssues = true))) := by
  unfold PatchA.parse at h
  split at h
  · cases h
  rename_i d is0 hd
  have hw0 : is0.WF := schema_process_wf patch_wf patch_sane hd
  refine ⟨d, is0, hd, hw0, ?_⟩
  split at h
  · rename_i hc
    cases h
    exact ⟨hw0, .inl ⟨by simpa using hc, rfl, rfl⟩⟩
  rename_i hc
  simp only [Bool.not_eq_true, Bool.not_eq_false'] at hc
  -- the input is an object
  have hobj : (data.isCont || data.isDict) = true := by
    rw [← Bool.not_eq_false]
    intro hno
    have hd' := hd
    unfold Schema.parse Schema.process at hd'
    split at hd'
    · cases hd'; exact absurd hc (by decide)
    · rw [hno] at hd'
      simp only [Bool.not_false, if_true] at hd'
      cases hd'; exact absurd hc (by decide)
  have hobj' : data.isCont = true ∨ data.isDict = true := by simpa using hobj
  obtain ⟨htr, ⟨dd, lc, rfl, hnk⟩, -⟩ := process_spec patch_wf hobj hd
  have hnk' : aget (lower urn) lc = none := hnk
  have hreach := schema_process_reach hobj hd
  have hrep : opsA.rep = { schema := urn, attr := opsWord } := by unfold opsA; exact bindAttr_rep _ _
  rw [getItem_subRep hnk' (by decide), getItem_subRep hnk' (by decide), getItem_subRep hnk' (by decide)] at h
  obtain ⟨x, hx⟩ := htr.read opsA opsA_mem
  rw [hrep] at hx
  cases hm : x.isMissing with
  | true =>
    have : x = .missing := by cases x <;> simp [Val.isMissing] at hm; rfl
    subst this
    have ha := htr.absent opsA opsA_mem (by rw [hrep]) (by rw [hrep]; exact hx)
    rw [hrep] at ha
    rw [ha] at h
    simp [Val.getX] at h
  | false =>
  obtain ⟨y, i, hp, hy⟩ := htr.present opsA opsA_mem x (by rw [hrep]; exact hx) hm
  rw [hrep] at hy
  rw [hy] at h
  simp only at h
  -- the operations are a list
  cases hnone : x.isNone with
  | true =>
    rw [isNone_iff.mp hnone, C25_null] at hp
    cases hp
    simp [Val.getX] at h
  | false =>
  cases hlist : x.isList with
  | false =>
    rw [opsA_eq] at hp
    have := multi_non_list (info := opsInfo) rfl hnone hlist hp
    subst this
    simp [Val.getX] at h
  | true =>
  obtain ⟨xs, rfl⟩ : ∃ xs, x = .list xs := by cases x <;> simp [Val.isList] at hlist; exact ⟨_, rfl⟩
  obtain ⟨os, rfl, hlen, hwi, hitems, hall⟩ := operations_process hp
  split at h
  · cases h
  rename_i ops hops
  split at h
  · cases h
  rename_i paths hpaths
  split at h
  · cases h
  rename_i values hvalues
  obtain ⟨ops', rfl, hops'⟩ := getX_list (word_name (by simp)) hops
  obtain ⟨paths', rfl, hpaths'⟩ := getX_list (word_name (by simp)) hpaths
  obtain ⟨values', rfl, hvalues'⟩ := getX_list (word_name (by simp)) hvalues
  simp only at h
  obtain ⟨l1, g1⟩ := getMap_spec hops'
  obtain ⟨l2, g2⟩ := getMap_spec hpaths'
  obtain ⟨l3, g3⟩ := getMap_spec hvalues'
  split at h
  · cases h
  rename_i out is1 hloop
  obtain ⟨s1, s2, s3, s4, s5⟩ := opsLoop_spec hr hsane hw0 (by rw [l1, l2]) (by rw [l1, l3]) hloop
  split at h
  · cases h
  rename_i v' hset
  cases h
  -- where the issues of the base schema stand
  have hloc : ∀ l, is0.errorsAt (.name opsWord :: l) = i.errorsAt l := by
    intro l
    obtain ⟨c1, -⟩ := C82_locations .parse PatchA.schema patch_wf patch_sane data _ is0 hobj' hd
    obtain ⟨y', i', hp', c2⟩ := c1 opsA opsA_mem _ (by rw [hrep]; exact hx) hm
    rw [hp] at hp'
    cases hp'
    have hrl : opsA.reportLoc = [.name opsWord] := by unfold Attr.reportLoc; rw [hrep]; rfl
    rw [hrl] at c2
    apply c2
    intro e
    simp only [List.singleton_append, List.cons.injEq, LKey.name.injEq] at e
    exact absurd e.1 (by decide)
  refine ⟨s1, .inr ⟨hc, hobj', xs, out, hx, by rw [s2, l1, hlen], ?_, ?_, ?_, ?_, s5⟩⟩
  · obtain ⟨c', hc', hget⟩ := C03_read_after_write hreach { attr := opsWord } rfl rfl (.list out)
    rw [hset] at hc'
    cases hc'
    apply hget { schema := urn, attr := opsWord } rfl rfl
    intro k hk
    have hk' : k = opsWord ∨ k ∈ (Val.cont dd lc).keys := by
      simp only [Val.setItem, Bool.false_eq_true, if_false, Val.setLocal, List.isEmpty_nil, if_true, Val.setPlain,
        Except.ok.injEq] at hset
      rw [← hset] at hk
      simp only [Val.keys] at hk ⊢
      rw [keys_aset] at hk
      split at hk
      · exact .inr hk
      · rcases List.mem_append.mp hk with h | h
        · exact .inr h
        · exact .inl (by simpa using h)
    have hcl := patch_wf.noClash
    rcases hk' with rfl | hk'
    · have := hcl opsA (patch_wf.top_all _ opsA_mem) urn (by simp [Schema.schemas, PatchA.schema, mkSchema])
      rwa [hrep] at this
    · rcases htr.declared k hk' with ⟨a, ha, -, rfl⟩ | ⟨a, ha, he, -⟩
      · exact hcl a (patch_wf.top_all _ ha) urn (by simp [Schema.schemas, PatchA.schema, mkSchema])
      · exfalso
        rcases patch_top a ha with rfl | rfl
        · rw [bindAttr_rep] at he; cases he
        · rw [hrep] at he; cases he
  · intro k x hk hno
    have hcl : ∀ l, i.errorsAt (.idx k :: l) = [] := by
      intro l
      rw [← hloc]
      exact (hasIssues_one_false hw0 _).mp hno l
    obtain ⟨o, t, p, value, a1, a2, a3, a4, a5, a6⟩ := hitems k x hk hcl
    obtain ⟨t', b1, b2⟩ := g1 k o a1
    rw [a3] at b2; cases b2
    obtain ⟨p', b3, b4⟩ := g2 k o a1
    rw [a4] at b4; cases b4
    obtain ⟨v', b5, b6⟩ := g3 k o a1
    rw [a5] at b6; cases b6
    obtain ⟨o', c1, c2⟩ := s3 k t p value b1 b3 b5
    rw [Nat.zero_add] at c2
    rcases c2 with ⟨c2, -⟩ | ⟨-, io, c3, c4, c5, c6⟩
    · rw [hno] at c2; cases c2
    · refine ⟨o', t, p, value, io, c1, a6, c3, c4, c5, c6, ?_⟩
      intro hno0
      refine hall ?_ k o t p value a1 a3 a4 a5
      rw [← Bool.not_eq_true]
      intro hi
      obtain ⟨l, hl⟩ := (hasIssues_iff_errors hwi).mp hi
      rw [← hloc, eq_empty_of_noIssues hw0 hno0] at hl
      exact hl rfl
  · intro k x hk hyes l
    have hk1 : k < os.length := by rw [hlen]; exact (List.getElem?_eq_some_iff.mp hk).1
    obtain ⟨t, b1, -⟩ := g1 k _ (List.getElem?_eq_getElem hk1)
    obtain ⟨p, b2, -⟩ := g2 k _ (List.getElem?_eq_getElem hk1)
    obtain ⟨value, b3, -⟩ := g3 k _ (List.getElem?_eq_getElem hk1)
    obtain ⟨o', c1, c2⟩ := s3 k t p value b1 b2 b3
    rw [Nat.zero_add] at c2
    rcases c2 with ⟨-, -, c2⟩ | ⟨c2, -⟩
    · exact c2 l
    · rw [hyes] at c2; cases c2
  · intro l hl
    apply s4
    intro k hk
    rw [Nat.zero_add]
    exact hl k (by rw [← hlen, ← l1]; exact hk)

end Scim
