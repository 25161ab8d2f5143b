import Verif.Lemmas.ValidAssets
import Verif.Props.ResponseTotality
import Verif.Lemmas.FilterTypes

/-! Which responses with a resource are accepted. -/

namespace Scim.Valid
variable [PyEnv]
open Declared Issues V

/-- A text stays as it is. -/
theorem text_process {m : Mode} {i : AttrInfo} (ht : i.type = .string ∨ i.type = .uriRef) (hm : i.multi = false)
    (hp : i.procs m = []) (hc : i.validateCanon = false) {w y : Val} {is : Issues} (hw : ValidFor m (.simple i) w)
    (h : (Attr.simple i).process m (convVal w) = .ok (y, is)) : y = w ∧ (w = .null ∨ ∃ t, w = .str t) := by
  unfold ValidFor at hw
  rcases hw with rfl | hw
  · rw [show convVal Val.null = .null from rfl, C25_null] at h
    cases h
    exact ⟨rfl, .inl rfl⟩
  · simp only [hm, Bool.false_eq_true, if_false] at hw
    obtain ⟨⟨hty, -⟩, -⟩ := hw
    obtain ⟨t, rfl⟩ : ∃ t, w = .str t := by
      rcases ht with ht | ht <;> rw [ht] at hty <;> exact hty
    refine ⟨?_, .inr ⟨t, rfl⟩⟩
    rw [show convVal (Val.str t) = .str t from rfl] at h
    unfold Attr.process at h
    rw [info_process_eq] at h
    have hcv : i.type.conv m (.str t) = .ok (.str t, {}) := by
      rcases ht with ht | ht <;> rw [ht] <;> cases m <;> rfl
    simp only [AttrInfo.base, hm, AttrInfo.processOne, hcv, hc, Bool.and_false, Bool.false_eq_true, if_false, hp, runProcs,
      ite_self, show (Val.str t).isNone = false from rfl] at h
    cases h
    rfl

/-- What is kept under `meta`. -/
theorem meta_kept {m : Mode} {s : Schema} (hp : Proper s) (hmeta : ∀ a ∈ bindWithSubs s.urn false metaAttr, a ∈ s.attrs.all)
    {D : List (Str × Val)} (hD : Ordinary s D) (hv : ValidIn m s.attrs.top D) {r : Val} {is : Issues}
    (h : s.process m (.dict D) = .ok (r, is)) {b : AttrInfo} (hb : mkAttr b ∈ metaSubs)
    (hn : isAttrName b.rep.attr = true)
    (ht : b.type = .string ∨ b.type = .uriRef) (hm : b.multi = false) (hpr : b.procs m = []) (hc : b.validateCanon = false) :
    r.getItem { schema := s.urn, attr := "meta".toList, sub := b.rep.attr } =
      .ok ((inMeta s b.rep.attr D).getD .missing) ∧
    ∀ x, inMeta s b.rep.attr D = some x → x = .null ∨ ∃ t, x = .str t := by
  have hmem := boundMeta_mem hp.wf hmeta
  have hrep : (boundMeta s.urn).rep = { schema := s.urn, attr := "meta".toList } := boundMeta_rep _
  obtain ⟨j, hj, -, hmu, -⟩ := metaAttr_eq
  have hbm : boundMeta s.urn = .complex { j with rep := { schema := s.urn, attr := "meta".toList }, description := [] }
      metaSubs [] [] := by
    unfold boundMeta; rw [hj]; rfl
  have hsub : b.rep.attr ≠ [] := fun e => by rw [e] at hn; cases hn
  have hread := getX_split r { schema := s.urn, attr := "meta".toList, sub := b.rep.attr } hsub
  have e : Val.getX false r { schema := s.urn, attr := "meta".toList } = r.getItem (boundMeta s.urn).rep := by
    rw [hrep]; cases r <;> simp only [Val.getItem, Val.getX]
  rw [show ({ { schema := s.urn, attr := "meta".toList, sub := b.rep.attr : AttrRep } with sub := [] } : AttrRep) =
    { schema := s.urn, attr := "meta".toList } from rfl, e] at hread
  have hgl : r.getItem { schema := s.urn, attr := "meta".toList, sub := b.rep.attr } = _ := hread
  rw [hgl]
  unfold inMeta
  have hut := usualAll_iff.mp (hp.usual m) _ hmem
  have hst := saneAll_iff.mp hp.sane _ hmem
  rcases top_given hp.wf hp.noShadow hp.sane (hp.usual m) hD hv h hmem with ⟨hl, hg⟩ | ⟨w, y, is', hl, htw, hvf, hy, hi, hg⟩
  · rw [hrep] at hl
    rw [hg, hl]
    exact ⟨rfl, fun x hx => by cases hx⟩
  · rw [hrep] at hl
    rw [hg, hl]
    rw [hbm] at hvf hy hut hst
    unfold ValidFor at hvf
    simp only [hmu, Bool.false_eq_true, if_false] at hvf
    rcases hvf with rfl | ⟨E, rfl, hvE⟩
    · rw [show convVal Val.null = .null from rfl, C25_null] at hy
      cases hy
      exact ⟨rfl, fun x hx => by cases hx⟩
    · unfold Attr.Sane at hst
      have hr := complex_single hut hst.2 hmu hy
      dsimp only
      rw [getX_true_getItem hr.cont hn]
      have hpl := metaSubs_plain.plain _ hb
      have hbr : (mkAttr b).rep = b.rep := rfl
      rw [hbr] at hpl
      have hrepb : b.rep = { attr := b.rep.attr } := by
        obtain ⟨h1, h2, h3⟩ := hpl
        cases hb' : b.rep
        rw [hb'] at h1 h2 h3
        simp only at h1 h2 h3
        subst h1; subst h2; subst h3; rfl
      have hread := getItem_look (clear_of_tame htw hpl.1) hpl.2.1
      rw [look_plain htw hpl.1] at hread
      have hval := validIn_iff.mp hvE _ hb
      rw [hbr, look_plain htw hpl.1] at hval
      rw [← hrepb]
      simp only [under]
      cases hf : found b.rep.attr E with
      | none =>
        rw [hf] at hread
        exact ⟨hr.absent _ hb hread, fun x hx => by cases hx⟩
      | some x =>
        rw [hf] at hread
        dsimp only at hread
        have htx := found_tame htw hf
        have hnm := conv_not_missing htx
        obtain ⟨z, k, hz, hg⟩ := hr.present _ hb _ hread (by
          generalize convVal x = z at hnm
          cases z <;> first | rfl | exact absurd rfl hnm)
        obtain ⟨e1, e2⟩ := text_process (i := { b with canonical := normCanonical b.caseExact b.canonical, refTypes := normRefTypes b.type b.refTypes }) ht hm
          (by cases m <;> exact hpr) hc (hval x hf) hz
        refine ⟨by rw [← e1]; exact hg, ?_⟩
        intro x' hx'
        cases hx'
        exact e2

theorem pyEq_text {x v : Val} (hx : x = .missing ∨ x = .null ∨ ∃ t, x = .str t) (hv : ∃ p, v = .prim p) (hn : v ≠ .null) {b : Bool}
    (h : x.pyEq v = .ok b) : b = true ↔ x = v := by
  obtain ⟨p, rfl⟩ := hv
  rcases hx with rfl | rfl | ⟨t, rfl⟩
  · cases h
    simp
  · rw [show Val.null = .prim .none from rfl, pyEq_prim] at h
    cases h
    cases p <;> simp [Prim.pyEq, Prim.num?, Val.null] at hn ⊢
  · constructor
    · rintro rfl
      exact (pyEq_str_left h).symm
    · intro e
      rw [← e, show Val.str t = .prim (.str t) from rfl, pyEq_prim] at h
      cases h
      simp [Prim.pyEq, Prim.num?]

/-- The resource is dumped without issues exactly when it holds acceptable values and the right type. -/
theorem dump_ok {s : Schema} (hp : Proper s) (hres : s.isResource = true)
    (hmeta : ∀ a ∈ bindWithSubs s.urn false metaAttr, a ∈ s.attrs.all)
    {D : List (Str × Val)} (hD : Ordinary s D) {r : Val} {is : Issues} (h : s.dump (.dict D) = .ok (r, is)) :
    is.hasIssues = false ↔
      ValidDoc .dump s D ∧ ∀ x, inMeta s "resourceType".toList D = some x → x = .str s.name := by
  obtain ⟨is0, is1, h0, he, -, -⟩ := dump_split h
  have hpv := process_valid (m := .dump) hp.wf hp.sane (hp.usual _) hD h0
  cases hn : is0.hasIssues with
  | true =>
    rw [he, hasIssues_merge_false, hn]
    rw [hn] at hpv
    exact ⟨fun e => (by cases e.1), fun e => (by cases hpv.mpr e.1)⟩
  | false =>
    have hv := hpv.mp hn
    have hz := eq_empty_of_noIssues (schema_process_wf hp.wf hp.sane h0) hn
    subst hz
    obtain ⟨b, hb, hbr⟩ := getSub_resourceType hp.wf hmeta
    obtain ⟨hk, hkt⟩ := meta_kept hp hmeta hD hv.1 h0 resourceTypeAttr_mem isAttrName_resourceType (.inl rfl) rfl rfl rfl
    unfold Schema.dump at h
    rw [h0] at h
    simp only [hres, canProceed_empty, Bool.not_true, Bool.false_eq_true, if_false, if_true, hb, hbr] at h
    change r.getItem { schema := s.urn, attr := "meta".toList, sub := "resourceType".toList } =
      .ok ((inMeta s "resourceType".toList D).getD .missing) at hk
    change ∀ x, inMeta s "resourceType".toList D = some x → x = .null ∨ ∃ t, x = .str t at hkt
    rw [hk] at h
    cases hm : inMeta s "resourceType".toList D with
    | none =>
      rw [hm] at h
      cases h
      exact ⟨fun _ => ⟨hv, fun x hx => (by cases hx)⟩, fun _ => rfl⟩
    | some x =>
      have hx := hkt x hm
      rw [hm] at h
      have h' : (match validateResourceType x s.name with
          | .error e => .error e
          | .ok is2 => .ok (r, Issues.merge {} is2)) = (.ok (r, is) : PyM (Val × Issues)) := by
        rw [← h]
        rcases hx with rfl | ⟨t, rfl⟩ <;> rfl
      unfold validateResourceType at h'
      obtain ⟨bb, hbb⟩ := pyEq_prim_total x (.str s.name)
      have key := pyEq_text (.inr hx) ⟨_, rfl⟩ (by simp [Val.null]) hbb
      rw [show Val.str s.name = .prim (.str s.name) from rfl, hbb] at h'
      cases bb with
      | true =>
        have := key.mp rfl
        cases h'
        exact ⟨fun _ => ⟨hv, fun y hy => (by cases hy; exact this)⟩, fun _ => rfl⟩
      | false =>
        cases h'
        refine ⟨fun e => (nomatch (show (true : Bool) = false from e)), fun e => ?_⟩
        have := key.mpr (e.2 x rfl)
        cases this

end Scim.Valid
