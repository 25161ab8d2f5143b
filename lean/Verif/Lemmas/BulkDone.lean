import Verif.Lemmas.BulkResponse
import Verif.Lemmas.Codes
import Verif.Props.Schemas
import Verif.Props.BulkRequests

/-! The responses of single operations inside a bulk response. -/

namespace Scim
open Issues

/-- `pop` removes nothing but issues with the code. -/
theorem popLoop_keep {code : Nat} {e : VErr} (hc : e.code ≠ code) : ∀ (f i : Nat) (l : List VErr), e ∈ l → e ∈ popLoop code f i l
  | 0, _, l, h => by rw [popLoop]; exact h
  | f + 1, i, l, h => by
    rw [popLoop]
    split
    · exact h
    · rename_i x hx
      split
      · rename_i hxc
        apply popLoop_keep hc f
        exact (List.mem_erase_of_ne (by rintro rfl; exact hc hxc)).mpr h
      · exact popLoop_keep hc f _ _ h

theorem popResult_has {s : Issues} {l : Loc} {code : Nat} : (s.popResult l code).hasIssues = true ↔ (aget l s.issues).isSome = true := by
  unfold popResult
  cases h : aget l s.issues with
  | none => simp [show Issues.hasIssues {} = false from rfl]
  | some errs =>
    simp only [Option.isSome_some, iff_true]
    rw [← Bool.not_eq_false, hasIssues_false_iff]
    intro he
    have := aget_aset_self [] (popLoop code errs.length 0 errs) (s.get l).issues
    simp only at he
    rw [he] at this
    cases this

theorem aget_of_errors {s : Issues} {l : Loc} (h : s.errorsAt l ≠ []) : (aget l s.issues).isSome = true := by
  unfold errorsAt at h
  cases hg : aget l s.issues with
  | none => rw [hg] at h; exact absurd rfl h
  | some _ => rfl

/-- No issues below a location. -/
theorem get_clean {s : Issues} {p : Loc} (h : (s.get p).hasIssues = false) (l : Loc) : s.errorsAt (p ++ l) = [] := by
  rw [← errorsAt_get]
  unfold errorsAt
  rw [(hasIssues_false_iff _).mp h]; rfl

variable [PyEnv]

namespace BulkA

theorem location_clean {z w : Val} {j : Issues} (h : locationA.process .dump z = .ok (w, j)) (hj : j.hasIssues = false) :
    w = z ∧ (z = .null ∨ ∃ s, z = .str s ∧ s ≠ []) := by
  by_cases hz : z.isNone = true
  · rw [isNone_iff.mp hz, C25_null] at h
    cases h
    exact ⟨(isNone_iff.mp hz).symm, .inl (isNone_iff.mp hz)⟩
  · have e : locationA = .simple locationA.info := rfl
    rw [e, single_process rfl (by simpa using hz)] at h
    have hc : locationA.info.validateCanon = false := rfl
    have ht : locationA.info.type = .extRef := rfl
    have hp : locationA.info.procs .dump = [] := rfl
    unfold AttrInfo.processOne at h
    rw [ht, hp] at h
    simp only [AttrType.conv, AttrType.dump, AttrType.parse, hc, Bool.and_false, Bool.false_eq_true, if_false, runProcs] at h
    have hx : (∃ s, z = .str s ∧ urlOk s = true ∧ extRefConv z = .ok (.str s, {})) ∨
        ∃ k, extRefConv z = .ok (.invalid, k) ∧ (Issues.merge {} k).hasIssues = true := by
      unfold extRefConv
      split
      · rename_i s
        by_cases hu : urlOk s = true
        · exact .inl ⟨s, rfl, hu, by rw [if_pos hu]⟩
        · exact .inr ⟨_, by rw [if_neg hu], rfl⟩
      · exact .inr ⟨_, rfl, rfl⟩
    rcases hx with ⟨s, rfl, hu, hx⟩ | ⟨k, hx, hk⟩
    · rw [hx] at h
      have e0 : Issues.merge {} {} = {} := rfl
      simp only [e0, has_empty, Bool.false_eq_true, if_false] at h
      cases h
      refine ⟨rfl, .inr ⟨s, rfl, ?_⟩⟩
      rintro rfl
      rw [PyEnv.urlOk_nil] at hu; cases hu
    · rw [hx] at h
      simp only [hk, if_true] at h
      cases h
      rw [hk] at hj; cases hj

theorem string_dump {i : AttrInfo} (ht : i.type = .string) (hm : i.multi = false) (hp : i.dumpers = []) {z w : Val}
    {j : Issues} (h : (Attr.simple i).process .dump z = .ok (w, j)) (hj : j.hasIssues = false) :
    w = z ∧ (z = .null ∨ ∃ s, z = .str s) := by
  by_cases hz : z.isNone = true
  · rw [isNone_iff.mp hz, C25_null] at h
    cases h
    exact ⟨(isNone_iff.mp hz).symm, .inl (isNone_iff.mp hz)⟩
  · rw [single_process hm (by simpa using hz), one_mode (by rw [ht]; decide)] at h
    rcases one_string ht z with ⟨s, rfl, ⟨hc, e⟩ | ⟨hc, hv, e⟩⟩ | ⟨hne, e⟩
    · rw [e] at h
      simp only [has_empty, AttrInfo.procs, hp, runProcs] at h
      cases h
      exact ⟨rfl, .inr ⟨s, rfl⟩⟩
    · rw [e] at h
      simp only [hasIssues_add] at h
      cases h
      rw [hasIssues_add] at hj; cases hj
    · rw [e] at h
      have : (Issues.merge {} (blocking 2)).hasIssues = true := rfl
      simp only [this] at h
      cases h
      rw [this] at hj; cases hj

theorem response_item {x y : Val} (hs : SubResult .dump responseSubs x y)
    (hc : ∀ s ∈ responseSubs, ∀ z w j, x.getItem s.rep = .ok z → z.isMissing = false →
      s.process .dump z = .ok (w, j) → j.hasIssues = false) :
    (∀ s ∈ responseSubs, y.getItem s.rep = x.getItem s.rep) ∧
    (∀ w ∈ [idWord, versionWord], ∀ z, x.getItem { attr := w } = .ok z → z.isNoneOrMissing = true ∨ ∃ s, z = .str s) ∧
    (∀ z, x.getItem { attr := methodWord } = .ok z → z.isNoneOrMissing = true ∨ ∃ s, z = .str s ∧ s ≠ []) ∧
    (∀ z, x.getItem { attr := locationWord } = .ok z → z.isNoneOrMissing = true ∨ ∃ s, z = .str s ∧ s ≠ []) ∧
    (∀ z, x.getItem { attr := statusWord } = .ok z → z.isNoneOrMissing = true ∨ ∃ s n, z = .str s ∧ s ≠ [] ∧ parseInt s = some n) := by
  have key : ∀ s ∈ responseSubs, ∀ z, x.getItem s.rep = .ok z → z = .missing ∧ y.getItem s.rep = .ok .missing ∨
      ∃ w j, s.process .dump z = .ok (w, j) ∧ j.hasIssues = false ∧ y.getItem s.rep = .ok w := by
    intro s hsm z hz
    cases hm : z.isMissing with
    | true =>
      rw [missing_eq hm] at hz ⊢
      exact .inl ⟨rfl, hs.absent s hsm hz⟩
    | false =>
      obtain ⟨w, j, hp, hw⟩ := hs.present s hsm z hz hm
      exact .inr ⟨w, j, hp, hc s hsm z w j hz hm hp, hw⟩
  have hstr : ∀ s ∈ responseSubs, (∃ i : AttrInfo, s = .simple i ∧ i.type = .string ∧ i.multi = false ∧ i.dumpers = []) →
      ∀ z, x.getItem s.rep = .ok z → y.getItem s.rep = .ok z ∧ (z.isNoneOrMissing = true ∨ ∃ t, z = .str t) := by
    rintro s hsm ⟨i, rfl, e1, e2, e3⟩ z hz
    rcases key _ hsm z hz with ⟨rfl, h⟩ | ⟨w, j, hp, hj, hy⟩
    · exact ⟨h, .inl rfl⟩
    · obtain ⟨rfl, h2⟩ := string_dump e1 e2 e3 hp hj
      refine ⟨hy, ?_⟩
      rcases h2 with rfl | h2
      · exact .inl rfl
      · exact .inr h2
  have kId := hstr idA (by simp [responseSubs]) ⟨_, rfl, rfl, rfl, rfl⟩
  have kVersion := hstr versionA (by simp [responseSubs]) ⟨_, rfl, rfl, rfl, rfl⟩
  have kMethod : ∀ z, x.getItem methodA.rep = .ok z → y.getItem methodA.rep = .ok z ∧
      (z.isNoneOrMissing = true ∨ ∃ s, z = .str s ∧ s ≠ []) := by
    intro z hz
    rcases key _ (by simp [responseSubs]) z hz with ⟨rfl, h⟩ | ⟨w, j, hp, hj, hy⟩
    · exact ⟨h, .inl rfl⟩
    · rcases method_dump hp with ⟨rfl, h2, -⟩ | ⟨-, h2, -⟩
      · refine ⟨hy, ?_⟩
        rcases h2 with rfl | ⟨s, rfl, hc⟩
        · exact .inl rfl
        · refine .inr ⟨s, rfl, ?_⟩
          rintro rfl
          rw [show lower ([] : Str) = [] from PyEnv.lower_ascii [] (by simp)] at hc
          revert hc; decide
      · rw [hj] at h2; cases h2
  have kStatus : ∀ z, x.getItem statusA.rep = .ok z → y.getItem statusA.rep = .ok z ∧
      (z.isNoneOrMissing = true ∨ ∃ s n, z = .str s ∧ s ≠ [] ∧ parseInt s = some n) := by
    intro z hz
    rcases key _ (by simp [responseSubs]) z hz with ⟨rfl, h⟩ | ⟨w, j, hp, hj, hy⟩
    · exact ⟨h, .inl rfl⟩
    · rcases status_dump hp with ⟨rfl, h2, -⟩ | ⟨-, h2, -⟩
      · refine ⟨hy, ?_⟩
        rcases h2 with rfl | ⟨s, n, rfl, hc⟩
        · exact .inl rfl
        · refine .inr ⟨s, n, rfl, ?_, hc⟩
          rintro rfl
          rw [PyEnv.parseInt_nil] at hc
          cases hc
      · rw [hj] at h2; cases h2
  have kLocation : ∀ z, x.getItem locationA.rep = .ok z → y.getItem locationA.rep = .ok z ∧
      (z.isNoneOrMissing = true ∨ ∃ s, z = .str s ∧ s ≠ []) := by
    intro z hz
    rcases key _ (by simp [responseSubs]) z hz with ⟨rfl, h⟩ | ⟨w, j, hp, hj, hy⟩
    · exact ⟨h, .inl rfl⟩
    · obtain ⟨rfl, h2⟩ := location_clean hp hj
      refine ⟨hy, ?_⟩
      rcases h2 with rfl | h2
      · exact .inl rfl
      · exact .inr h2
  have kResponse : ∀ z, x.getItem responseA.rep = .ok z → y.getItem responseA.rep = .ok z := by
    intro z hz
    rcases key _ (by simp [responseSubs]) z hz with ⟨rfl, h⟩ | ⟨w, j, hp, hj, hy⟩
    · exact h
    · rw [response_dump] at hp; cases hp; exact hy
  refine ⟨?_, ?_, fun z hz => (kMethod z hz).2, fun z hz => (kLocation z hz).2, fun z hz => (kStatus z hz).2⟩
  · intro s hsm
    obtain ⟨z, hz⟩ := hs.read s hsm
    rw [hz]
    simp only [responseSubs, List.mem_cons, List.not_mem_nil, or_false] at hsm
    rcases hsm with rfl | rfl | rfl | rfl | rfl | rfl
    · exact (kMethod z hz).1
    · exact (kId z hz).1
    · exact (kVersion z hz).1
    · exact (kLocation z hz).1
    · exact (kStatus z hz).1
    · exact kResponse z hz
  · intro w hw z hz
    simp only [List.mem_cons, List.not_mem_nil, or_false] at hw
    rcases hw with rfl | rfl
    · exact (kId z hz).2
    · exact (kVersion z hz).2

/-- The operations of a response about which nothing is reported. -/
theorem response_clean {xs os : List Val} (h : responseOpsB.process .dump (.list xs) = .ok (.list os, {})) :
    os.length = xs.length ∧ ∀ (i : Nat) (x : Val), xs[i]? = some x → ∃ o, os[i]? = some o ∧ o.Reach ∧ o.NoKeyFor [] ∧
      (∀ s ∈ responseSubs, o.getItem s.rep = x.getItem s.rep) ∧
      (∀ w ∈ [idWord, versionWord], ∀ z, x.getItem { attr := w } = .ok z → z.isNoneOrMissing = true ∨ ∃ s, z = .str s) ∧
      (∀ z, x.getItem { attr := methodWord } = .ok z → z.isNoneOrMissing = true ∨ ∃ s, z = .str s ∧ s ≠ []) ∧
      (∀ z, x.getItem { attr := locationWord } = .ok z → z.isNoneOrMissing = true ∨ ∃ s, z = .str s ∧ s ≠ []) ∧
      (∀ z, x.getItem { attr := statusWord } = .ok z → z.isNoneOrMissing = true ∨ ∃ s n, z = .str s ∧ s ≠ [] ∧ parseInt s = some n) ∧
      ResponseOk o := by
  obtain ⟨os', is1, e, hlen, -, -, h1, hall⟩ := response_process h
  cases e
  obtain ⟨rfl, hok⟩ := hall rfl
  obtain ⟨ys', e, hlen', hbad, hgood, -⟩ := C27_multi .dump (opsInfo responseUrn) _ [] [] (opsInfo_decl _ _) rfl
    responseSubs_plain responseSubs_sane (by simp [Attr.cprocs]) xs _ _ h1
  cases e
  have hkeys := response_keys h1
  refine ⟨hlen, ?_⟩
  intro i x hx
  cases hxc : x.isCont with
  | false => exact absurd rfl (hbad i x hx hxc).2
  | true =>
    obtain ⟨y, hy, hsr, hiss⟩ := hgood i x hx hxc
    have hcl := response_item hsr (by
      intro s hs z w' j' hz hm hp
      rw [← Bool.not_eq_true]
      intro hj
      have hwj : j'.WF := process_wf s (saneAll_iff.mp responseSubs_sane s hs) hp
      obtain ⟨l, hl⟩ := (hasIssues_iff_errors hwj).mp hj
      have := hiss s hs z w' j' hz hm hp l hl
      exact hl this.symm)
    have hm := List.mem_of_getElem? hy
    exact ⟨y, hy, (hkeys y hm).1, (hkeys y hm).2.1, hcl.1, hcl.2.1, hcl.2.2.1, hcl.2.2.2.1, hcl.2.2.2.2, hok y hm⟩

end BulkA

namespace V

omit [PyEnv] in
theorem errorStatusRange_errors {st : Int} {l : Loc} (hl : ¬ statusLoc <+: l) : (errorStatusRange st).errorsAt l = [] := by
  unfold errorStatusRange
  split
  · rfl
  · rw [errorsAt_add, if_neg]
    · rfl
    · rintro rfl; exact hl (List.prefix_refl _)

theorem errorStatusMatches_errors {n : Str} {v : Val} {st : Int} {is : Issues} (h : errorStatusMatches n v st = .ok is) :
    is.WF ∧ ∀ l, ¬ statusLoc <+: l → ¬ bodyLoc <+: l → is.errorsAt l = [] := by
  unfold errorStatusMatches at h
  split at h
  · cases h
  · cases h
    split
    · exact ⟨WF.empty, fun _ _ _ => rfl⟩
    · refine ⟨(WF.empty.add _ _ _).add _ _ _, fun l h1 h2 => ?_⟩
      rw [errorsAt_add, errorsAt_add, if_neg, if_neg]
      · rfl
      · rintro rfl; exact h1 (List.prefix_refl _)
      · rintro rfl; exact h2 (List.prefix_append _ _)

/-- Everything reported about an error response stands under `body` and `status`. -/
theorem dumpError_clean {st : Int} {body headers : Val} {resp : Response} {is : Issues}
    (h : dumpError st body headers = .ok (resp, is)) (h1 : (is.get bodyLoc).hasIssues = false)
    (h2 : (is.get statusLoc).hasIssues = false) : is.hasIssues = false := by
  unfold dumpError at h
  split at h
  · cases h
  rename_i b is1 hd
  split at h
  · cases h
  rename_i is2 hc
  split at h
  · cases h
  rename_i is3 hs
  have e1 : is3.merge (errorStatusRange st) = is := congrArg Prod.snd (Except.ok.inj h)
  have hw1 := schema_dump_wf ErrorA.wf ErrorA.sane hd
  obtain ⟨i, hi, hwi, -⟩ := checkBody_mono hc
  have hwr : (errorStatusRange st).WF := by
    unfold errorStatusRange
    split
    · exact WF.empty
    · exact WF.empty.add _ _ _
  have hs3 : is3.WF ∧ ∀ l, ¬ statusLoc <+: l → ¬ bodyLoc <+: l → is3.errorsAt l = is2.errorsAt l := by
    have hw2 : is2.WF := by rw [hi]; exact (WF.empty.merge hw1 _).merge hwi _
    unfold errorStatus at hs
    split at hs
    · cases hs
    · split at hs
      · split at hs
        · cases hs
        · split at hs
          · cases hs
          · rename_i j hj
            cases hs
            obtain ⟨a1, a2⟩ := errorStatusMatches_errors hj
            refine ⟨hw2.merge a1 _, fun l hl1 hl2 => ?_⟩
            rw [errorsAt_merge a1]
            simp [a2 l hl1 hl2]
      · cases hs
        exact ⟨hw2, fun _ _ _ => rfl⟩
  have hw : is.WF := by rw [← e1]; exact hs3.1.merge hwr _
  have he : is = {} := by
    apply noIssues_of_errors hw
    intro l
    by_cases hb : bodyLoc <+: l
    · obtain ⟨t, rfl⟩ := hb
      exact get_clean h1 t
    by_cases hst : statusLoc <+: l
    · obtain ⟨t, rfl⟩ := hst
      exact get_clean h2 t
    rw [← e1, errorsAt_merge hwr, hs3.2 l hst hb, hi, errorsAt_merge hwi, errorsAt_merge hw1]
    simp [hb, errorStatusRange_errors hst]
  rw [he]; rfl

end V

/-- Without processors nothing but the codes of the values is reported. -/
theorem meta_procs (P : Nat → Prop) (rep : AttrRep) : (bindAttr metaAttr rep).ProcsOnly P .dump := by
  refine ⟨?_, ?_, ?_⟩
  · intro p hp; cases hp
  · intro p hp; cases hp
  · refine ⟨?_, ?_, ?_, ?_, ?_, trivial⟩ <;> (intro p hp; cases hp)

/-- What the schema itself reports about the location in `meta` is about the value. -/
theorem meta_location_values {s : Schema} (hs : s.WF) (hsane : SaneAll s.attrs.top)
    (hmeta : ∀ a ∈ bindWithSubs s.urn false metaAttr, a ∈ s.attrs.all) {body b : Val} {is : Issues}
    (h : s.dump body = .ok (b, is)) :
    ∀ e ∈ is.errorsAt [.name "meta".toList, .name "location".toList], e.code ∈ valueCodes := by
  intro e he
  obtain ⟨is1, is2, hp, rfl, hw2, h2⟩ := dump_split h
  rw [errorsAt_merge hw2] at he
  simp only [List.nil_prefix, if_true, List.length_nil, List.drop_zero] at he
  rw [h2 _ (by unfold resourceTypeLoc; decide), List.append_nil] at he
  by_cases hobj : body.isCont = true ∨ body.isDict = true
  · obtain ⟨c1, c2⟩ := C82_locations .dump s hs hsane body b is1 hobj hp
    have hne : is1.errorsAt [.name "meta".toList, .name "location".toList] ≠ [] := by
      intro e'; rw [e'] at he; cases he
    obtain ⟨a, ha, x, y, i, l', g1, g2, g3, g4, g5⟩ := c2 _ (by decide) hne
    obtain ⟨y', i', g3', g6⟩ := c1 a ha x g1 g2
    rw [g3] at g3'; cases g3'
    have := g6 l' (by rw [← g4]; decide)
    rw [← g4] at this
    rw [this] at he
    have hP : a.ProcsOnly (· ∈ valueCodes) .dump := by
      have hm : bindAttr metaAttr { schema := s.urn, attr := "meta".toList } ∈ s.attrs.all := hmeta _ (mem_bindWithSubs.mpr (.inl rfl))
      have hmt : bindAttr metaAttr { schema := s.urn, attr := "meta".toList } ∈ s.attrs.top := by
        rw [hs.topAll, List.mem_filter]
        exact ⟨hm, by rw [bindAttr_rep]; rfl⟩
      unfold Attr.reportLoc at g4
      cases hext : a.rep.ext with
      | true =>
        rw [hext] at g4
        simp only [if_true, List.cons_append, List.nil_append, List.cons.injEq, LKey.name.injEq] at g4
        have hn := hs.noClash _ hm a.rep.schema (hs.allSchema a (hs.top_all a ha))
        rw [bindAttr_rep, ← g4.1] at hn
        exact absurd rfl hn
      | false =>
        rw [hext] at g4
        simp only [Bool.false_eq_true, if_false, List.cons_append, List.nil_append, List.cons.injEq, LKey.name.injEq] at g4
        have e1 := hs.getTop_of_mem ha hext (name := "meta".toList) (by rw [← g4.1])
        have e2 := hs.getTop_of_mem hmt (by rw [bindAttr_rep]) (name := "meta".toList) (by rw [bindAttr_rep])
        rw [e1] at e2
        rw [Option.some.inj e2]
        exact meta_procs _ _
    exact (process_only (P := (· ∈ valueCodes)) (fun _ h => h) a hP g3).only _ _ he
  · unfold Schema.process at hp
    split at hp
    · cases hp
      simp [blocking, errorsAt_add] at he
    · rw [if_pos (by simpa using hobj)] at hp
      cases hp
      simp [blocking, errorsAt_add] at he

/-- The location in `meta` is never reported as different by the schema itself. -/
theorem meta_location_codes {s : Schema} (hs : s.WF) (hsane : SaneAll s.attrs.top)
    (hmeta : ∀ a ∈ bindWithSubs s.urn false metaAttr, a ∈ s.attrs.all) {body b : Val} {is : Issues}
    (h : s.dump body = .ok (b, is)) :
    ∀ e ∈ is.errorsAt [.name "meta".toList, .name "location".toList], e.code ≠ 11 := by
  intro e he hc
  have := meta_location_values hs hsane hmeta h e he
  rw [hc] at this
  exact absurd this (by decide)

namespace V

/-- A response with a location whose body issues vanish, and which is not reported for different locations, has no
issues but possibly one about its status. -/
theorem dumpResource_done {s : Schema} (hs : s.WF) (hsane : SaneAll s.attrs.top)
    (hmeta : ∀ a ∈ bindWithSubs s.urn false metaAttr, a ∈ s.attrs.all) {lr : Bool} {ex st : Int} {body : Val} {t : Str}
    {c : Option Checker} {resp : Response} {is : Issues}
    (h : dumpResource s lr ex st body (.dict [(V.locationWord, .str t)]) c = .ok (resp, is))
    (hb : (((is.pop metaLocationLoc 11).pop headerLocationLoc 11).get bodyLoc).hasIssues = false)
    (hd : ((is.popResult metaLocationLoc 11).hasIssues && ((is.pop metaLocationLoc 11).popResult headerLocationLoc 11).hasIssues) = false) :
    (∀ l, l ≠ statusLoc → is.errorsAt l = []) ∧ (st = ex → is.hasIssues = false) := by
  obtain ⟨b, is1, is2, i3, is3, hdump, hi3, hi2, hw3, hcase, hl, -, -⟩ := dumpResource_split h
  have hw1 := schema_dump_wf hs hsane hdump
  have hloc : locationInHeader (orDict (.dict [(V.locationWord, .str t)])) lr = {} := by cases lr <;> rfl
  rw [hloc] at hi3
  have hwi3 : i3.WF := by rw [hi3]; exact ((WF.empty.merge hw1 _).merge WF.empty _).merge statusIs_wf _
  have hw2 : is2.WF := by rw [hi2]; exact hwi3.merge hw3 _
  -- what the comparison of the locations adds
  have hadd : ∀ l, is.errorsAt l = is2.errorsAt l := by
    obtain ⟨a, loc, -, -, ⟨-, v, j, -, hj, rfl⟩ | ⟨-, rfl⟩⟩ := checkLocations_split hl
    case inr => intro l; rfl
    unfold locationsMatch at hj
    split at hj
    · cases hj
    rename_i eq heq
    cases hj
    cases eq with
    | true => intro l; rfl
    | false =>
      exfalso
      simp only [Bool.false_eq_true, if_false] at hd
      have hwj : ((Issues.empty.add ⟨11, []⟩ true metaLocationLoc).add ⟨11, []⟩ true headerLocationLoc).WF :=
        (WF.empty.add _ _ _).add _ _ _
      have n1 : (is2.merge ((Issues.empty.add ⟨11, []⟩ true metaLocationLoc).add ⟨11, []⟩ true headerLocationLoc)).errorsAt metaLocationLoc ≠ [] := by
        rw [errorsAt_merge hwj]
        simp [errorsAt_add]
      have n2 : (is2.merge ((Issues.empty.add ⟨11, []⟩ true metaLocationLoc).add ⟨11, []⟩ true headerLocationLoc)).errorsAt headerLocationLoc ≠ [] := by
        rw [errorsAt_merge hwj]
        simp [errorsAt_add]
      have p1 := popResult_has (code := 11) |>.mpr (aget_of_errors n1)
      rw [← errorsAt_pop_ne _ metaLocationLoc headerLocationLoc 11 (by decide)] at n2
      have p2 := popResult_has (code := 11) |>.mpr (aget_of_errors n2)
      rw [p1, p2] at hd
      cases hd
  have hw : is.WF := by
    obtain ⟨a, loc, -, -, ⟨-, v, j, -, hj, rfl⟩ | ⟨-, rfl⟩⟩ := checkLocations_split hl
    · exact hw2.merge (locationsMatch_wf hj) _
    · exact hw2
  have hbody : ∀ l, bodyLoc <+: l → is.errorsAt l = [] := by
    rintro _ ⟨l, rfl⟩
    have hc := get_clean hb l
    rw [errorsAt_pop_ne _ _ _ _ (by
      intro e
      have := (List.cons.inj e).1
      exact absurd this (by decide))] at hc
    by_cases hml : metaLocationLoc = bodyLoc ++ l
    · rw [← hml] at hc ⊢
      rw [errorsAt_pop_self _ hw.keys] at hc
      rw [List.eq_nil_iff_forall_not_mem]
      intro e he
      by_cases h11 : e.code = 11
      · rw [hadd, hi2, errorsAt_merge hw3, hi3, errorsAt_merge statusIs_wf, errorsAt_merge WF.empty, errorsAt_merge hw1] at he
        have hpb : bodyLoc <+: metaLocationLoc := by decide
        have hps : ¬ statusLoc <+: metaLocationLoc := by decide
        simp only [errorsAt_empty, List.nil_append, hpb, hps, if_true, if_false, ite_self, List.append_nil, List.mem_append] at he
        rcases he with he | he
        · exact meta_location_codes hs hsane hmeta hdump e he h11
        · rcases hcase with ⟨-, hcall⟩ | ⟨-, rfl⟩
          · obtain ⟨a, -, v, -, he⟩ := (call_errors _ _ _ _ _ hcall _ _).mp he
            rcases checkPresence_codes he with h' | h' <;> rw [h'] at h11 <;> cases h11
          · simp at he
      · have := popLoop_keep h11 (is.errorsAt metaLocationLoc).length 0 _ he
        rw [hc] at this
        cases this
    · rw [errorsAt_pop_ne _ _ _ _ hml] at hc
      exact hc
  have hrest : ∀ l, ¬ bodyLoc <+: l → is.errorsAt l = if statusLoc <+: l then (statusIs ex st).errorsAt (l.drop statusLoc.length) else [] := by
    intro l hl
    rw [hadd, hi2, errorsAt_merge hw3, hi3, errorsAt_merge statusIs_wf, errorsAt_merge WF.empty, errorsAt_merge hw1]
    simp [hl]
  refine ⟨?_, ?_⟩
  · intro l hl
    by_cases hbl : bodyLoc <+: l
    · exact hbody l hbl
    · rw [hrest l hbl]
      split
      · rename_i hsl
        obtain ⟨r, rfl⟩ := hsl
        rw [List.drop_left]
        unfold statusIs
        split
        · rfl
        · rw [errorsAt_add, if_neg]
          · rfl
          · rintro rfl; exact hl (by simp)
      · rfl
  · rintro rfl
    have : is = {} := by
      apply noIssues_of_errors hw
      intro l
      by_cases hbl : bodyLoc <+: l
      · exact hbody l hbl
      · rw [hrest l hbl]
        simp [statusIs]
    rw [this]; rfl

end V
namespace V

/-- What is left of a response without issues in the bulk response. -/
structure DoneOk (mm : Method) (s : Schema) (n : Int) (r l v o o' : Val) : Prop where
  ex : ∃ e is rb, dumpOp mm s n r l = .ok (e, is) ∧
    (((is.pop metaLocationLoc 11).pop headerLocationLoc 11).get bodyLoc).hasIssues = false ∧
    ((is.popResult metaLocationLoc 11).hasIssues && ((is.pop metaLocationLoc 11).popResult headerLocationLoc 11).hasIssues) = false ∧
    checkVersion 0 v e.body {} = .ok (rb, {}) ∧ o.setPlain BulkA.responseWord rb = .ok o'

theorem checkVersion_index {i : Nat} {v b r : Val} {t : Issues} (h : checkVersion i v b {} = .ok (r, t))
    (hn : t.hasIssues = false) : t = {} ∧ ∀ k, checkVersion k v b {} = .ok (r, {}) := by
  unfold checkVersion at h ⊢
  split at h
  · rename_i hb
    cases h
    exact ⟨rfl, fun k => by rw [if_pos hb]⟩
  · rename_i hb
    split at h
    · cases h
    · rename_i w hw
      split at h
      · rename_i htr
        split at h
        · cases h
        · rename_i eq heq
          cases h
          cases eq with
          | true => exact ⟨rfl, fun k => by rw [if_neg hb, if_pos htr]; rfl⟩
          | false =>
            exfalso
            simp only [disagree, Bool.not_false, if_true, hasIssues_add] at hn
            cases hn
      · rename_i htr
        cases h
        exact ⟨rfl, fun k => by rw [if_neg hb, if_neg htr]⟩

theorem mergeCopy_clean {c r : Issues} {l : Loc} (h : Issues.mergeCopy {} c l = .ok r) (hn : r.hasIssues = false) :
    r = {} ∧ c.hasIssues = false := by
  have e := mergeCopy_ok h
  rw [e, hasIssues_merge_false] at hn
  refine ⟨?_, hn.2⟩
  rw [e]
  unfold Issues.merge
  rw [(hasIssues_false_iff c).mp hn.2]
  rfl

theorem responseOne_clean {vs : List (Str × Schema)} {i : Nat} {o m st r l v o' : Val} {s : Issues} {b : Bool}
    (h : responseOne vs i o m st r l v {} = .ok ((o', s), b)) (hn : s.hasIssues = false) :
    s = {} ∧ (m.truthy = true → l.truthy = true → ∃ mm t p, methodOf m = some mm ∧ l = .str t ∧
      vs.find? (fun p => isInfix ('/' :: p.1 ++ ['/']) t) = some p) ∧
    (m.truthy = true → (st.truthy && r.truthy) = false → o' = o) ∧
    (m.truthy = true → st.truthy = true → r.truthy = true → ∃ n, st.pyInt = .ok n ∧
      (n ≥ 300 → ∃ e is, dumpError n r .null = .ok (e, is) ∧ is.hasIssues = false ∧ o.setPlain BulkA.responseWord e.body = .ok o') ∧
      (n < 300 → l.truthy = true → ∃ mm t p, methodOf m = some mm ∧ l = .str t ∧
        vs.find? (fun p => isInfix ('/' :: p.1 ++ ['/']) t) = some p ∧ DoneOk mm p.2 n r l v o o')) := by
  unfold responseOne at h
  split at h
  · rename_i hm
    cases h
    have hm' : m.truthy = false := by simpa using hm
    refine ⟨rfl, ?_, ?_, ?_⟩ <;> (intro h'; rw [hm'] at h'; cases h')
  rename_i hm
  split at h
  · cases h
  rename_i v1 s1 hv
  have hm' : m.truthy = true := by simpa using hm
  have hs1 : s1.hasIssues = false := by
    rw [← Bool.not_eq_true]
    intro hs
    have hg : Grows s1 s := by
      split at h
      · cases h; exact Grows.refl _
      · unfold outcomeOp at h
        split at h
        · cases h
        · split at h
          · cases hf : failedOp i o _ r s1 with
            | error e => rw [hf] at h; cases h
            | ok q => rw [hf] at h; cases h; exact failedOp_grows hf
          · split at h
            · cases hf : doneOp _ _ i o _ r l v s1 with
              | error e => rw [hf] at h; cases h
              | ok q => rw [hf] at h; cases h; exact doneOp_grows hf
            · cases h; exact Grows.refl _
    rw [hg.mono hs] at hn; cases hn
  have hval : s1 = {} ∧ ((l.truthy = true ∧ ∃ mm t p, methodOf m = some mm ∧ l = .str t ∧
      vs.find? (fun p => isInfix ('/' :: p.1 ++ ['/']) t) = some p ∧ v1 = some (mm, p.2)) ∨ (l.truthy = false ∧ v1 = none)) := by
    unfold validatorFor at hv
    split at hv
    · rename_i hl
      split at hv
      · cases hv
      · rename_i mm hmm
        split at hv
        · rename_i t
          split at hv
          · rename_i p hp
            cases hv
            exact ⟨rfl, .inl ⟨hl, mm, t, p, hmm, rfl, hp, rfl⟩⟩
          · cases hv
            rw [hasIssues_add] at hs1; cases hs1
        · cases hv
    · rename_i hl
      cases hv
      exact ⟨rfl, .inr ⟨by simpa using hl, rfl⟩⟩
  obtain ⟨rfl, hval⟩ := hval
  have hloc : l.truthy = true → ∃ mm t p, methodOf m = some mm ∧ l = .str t ∧
      vs.find? (fun p => isInfix ('/' :: p.1 ++ ['/']) t) = some p ∧ v1 = some (mm, p.2) := by
    intro hl
    rcases hval with ⟨-, h'⟩ | ⟨h', -⟩
    · exact h'
    · rw [hl] at h'; cases h'
  have hloc' : m.truthy = true → l.truthy = true → ∃ mm t p, methodOf m = some mm ∧ l = .str t ∧
      vs.find? (fun p => isInfix ('/' :: p.1 ++ ['/']) t) = some p := by
    intro _ hl
    obtain ⟨mm, t, p, a, b, c, -⟩ := hloc hl
    exact ⟨mm, t, p, a, b, c⟩
  split at h
  · rename_i hsr
    cases h
    have hsr' : (st.truthy && r.truthy) = false := by
      cases hb : (st.truthy && r.truthy)
      · rfl
      · rw [hb] at hsr; cases hsr
    refine ⟨rfl, hloc', fun _ _ => rfl, ?_⟩
    intro _ h1 h2
    rw [h1, h2] at hsr'; cases hsr'
  rename_i hsr
  have hsr' : (st.truthy && r.truthy) = true := by simpa using hsr
  unfold outcomeOp at h
  split at h
  · cases h
  rename_i n hint
  split at h
  · rename_i hge
    cases hf : failedOp i o n r {} with
    | error e => rw [hf] at h; cases h
    | ok q =>
      rw [hf] at h
      cases h
      unfold failedOp at hf
      split at hf
      · cases hf
      rename_i e is he
      split at hf
      · cases hf
      rename_i j1 hm1
      split at hf
      · cases hf
      rename_i j2 hm2
      split at hf
      · cases hf
      rename_i o2 hset
      cases hf
      have hj1 : j1.hasIssues = false := by
        rw [← Bool.not_eq_true]
        intro hs
        rw [(Grows.mergeCopy hm2).mono hs] at hn; cases hn
      obtain ⟨rfl, c1⟩ := mergeCopy_clean hm1 hj1
      obtain ⟨rfl, c2⟩ := mergeCopy_clean hm2 hn
      refine ⟨rfl, hloc', fun _ h' => (by rw [hsr'] at h'; cases h'), fun _ _ _ => ⟨n, hint, fun _ => ⟨e, is, he, dumpError_clean he c1 c2, hset⟩, fun hlt => ?_⟩⟩
      omega
  · rename_i hge
    split at h
    · rename_i mm sch
      cases hf : doneOp mm sch i o n r l v {} with
      | error e => rw [hf] at h; cases h
      | ok q =>
        rw [hf] at h
        cases h
        unfold doneOp at hf
        split at hf
        · cases hf
        rename_i e is he
        dsimp only at hf
        split at hf
        · cases hf
        rename_i j1 hm1
        split at hf
        · cases hf
        rename_i rb j2 hver
        split at hf
        · cases hf
        rename_i o2 hset
        cases hf
        have hd0 : (disagree i BulkA.locationWord ((is.popResult metaLocationLoc 11).hasIssues &&
            ((is.pop metaLocationLoc 11).popResult headerLocationLoc 11).hasIssues) j1).hasIssues = false := by
          rw [← Bool.not_eq_true]
          intro hs
          rw [(checkVersion_grows hver).mono hs] at hn; cases hn
        have hj1 : j1.hasIssues = false := by
          rw [← Bool.not_eq_true]
          intro hs
          rw [disagree_grows.mono hs] at hd0; cases hd0
        obtain ⟨rfl, c1⟩ := mergeCopy_clean hm1 hj1
        have hd1 : ((is.popResult metaLocationLoc 11).hasIssues &&
            ((is.pop metaLocationLoc 11).popResult headerLocationLoc 11).hasIssues) = false := by
          rw [← Bool.not_eq_true]
          intro hs
          rw [hs] at hd0
          simp only [disagree, if_true, hasIssues_add] at hd0
          cases hd0
        rw [hd1] at hver
        obtain ⟨rfl, hver'⟩ := checkVersion_index (show checkVersion i v e.body {} = .ok (rb, s) from hver) hn
        refine ⟨rfl, hloc', fun _ h' => (by rw [hsr'] at h'; cases h'), fun _ _ _ => ⟨n, hint, fun h' => absurd h' hge, fun _ hl => ?_⟩⟩
        obtain ⟨mm', t, p, a1, a2, a3, a4⟩ := hloc hl
        cases a4
        exact ⟨_, t, p, a1, a2, a3, ⟨e, is, rb, he, c1, hd1, hver' 0, hset⟩⟩
    · cases h
      refine ⟨rfl, hloc', fun _ _ => rfl, fun _ _ _ => ⟨n, hint, fun h' => absurd h' hge, fun _ hl => ?_⟩⟩
      obtain ⟨mm', t, p, a1, a2, a3, a4⟩ := hloc hl
      cases a4

end V
namespace V
open BulkA (requestRep responseRep)

theorem responsesLoop_mono {vs : List (Str × Schema)} {k : Nat} {os os' : List Val} {ps : List Parts} {s t : Issues} {n : Nat}
    (h : responsesLoop vs k os ps s = .ok ((os', t), n)) (hs : s.hasIssues = true) : t.hasIssues = true := by
  induction os generalizing k ps os' s n with
  | nil => cases ps <;> (rw [responsesLoop] at h <;> first | (cases h; exact hs) | simp)
  | cons o os ih =>
    cases ps with
    | nil => rw [responsesLoop] at h <;> first | (cases h; exact hs) | simp
    | cons p ps =>
      rw [responsesLoop] at h
      split at h
      · cases h
      rename_i o1 s1 b ho
      split at h
      · cases h
      rename_i os1 s2 n' hos
      cases h
      exact ih hos ((responseOne_spec ho).1.mono hs)

/-- An accepted response is an object with a list of operations. -/
theorem dumpBulk_list {vs : List (Str × Schema)} {status : Int} {body headers : Val} {fail : Option Int} {resp : Response}
    {is : Issues} (h : dumpBulk vs status body headers fail = .ok (resp, is)) (hn : is.hasIssues = false) :
    (body.isCont = true ∨ body.isDict = true) ∧ status = 200 ∧ resp.headers = headers ∧
      ∃ xs, body.toCont.getItem (responseRep []) = .ok (.list xs) := by
  unfold dumpBulk at h
  split at h
  · cases h
  rename_i b is0 hb
  split at h
  · cases h
  rename_i is2 hcall
  unfold dumpBulkBody at h
  split at h
  · rename_i hcp
    exfalso
    cases h
    simp only [hasIssues_merge_false] at hn
    rw [merge_empty_clean _ hn.1.1.2, merge_noIssues _ _ hn.1.2, merge_noIssues _ _ hn.2, canProceed_empty] at hcp
    cases hcp
  split at h
  case h_1 =>
    rename_i ops ss rs ls ms vers hops _ _ _ _ _
    unfold dumpBulkOps at h
    split at h
    · cases h
    rename_i os' is3 n hloop
    split at h
    · cases h
    rename_i b' hset
    cases h
    have h3 : is3.hasIssues = false := by
      rw [← Bool.not_eq_true]
      intro hs
      unfold checkFailures at hn
      split at hn
      · rw [hs] at hn; cases hn
      · split at hn
        · rw [hasIssues_add] at hn; cases hn
        · rw [hs] at hn; cases hn
    have h0 : (((Issues.empty.merge is0 bodyLoc).merge is2 bodyLoc).merge (statusIs 200 status) statusLoc).hasIssues = false := by
      rw [← Bool.not_eq_true]
      intro hs
      rw [responsesLoop_mono hloop hs] at h3; cases h3
    simp only [hasIssues_merge_false] at h0
    obtain ⟨hobj, hreach, hp⟩ := dump_noIssues hb h0.1.1.2
    refine ⟨by simpa using hobj, (statusIs_clean.mp h0.2).symm, rfl, ?_⟩
    obtain ⟨htr, ⟨dd, lc, rfl, hnk⟩, -⟩ := process_spec BulkA.response_wf hobj hp
    have hnk' : aget (lower BulkA.responseUrn) lc = none := hnk
    have hrep : BulkA.responseOpsB.rep = responseRep [] := BulkA.responseOpsB_rep
    have hreq : aget (lower BulkA.requestUrn) lc = none := by
      obtain ⟨d', lc', e, hinv⟩ := hreach.inv
      cases e
      apply hinv.noKey
      intro k hk
      rcases htr.declared k hk with ⟨a, ha, -, rfl⟩ | ⟨a, ha, he, -⟩
      · exact BulkA.response_low (by simp) a ha
      · rcases BulkA.response_top a ha with rfl | rfl
        · rw [bindAttr_rep] at he; cases he
        · rw [hrep] at he; cases he
    have hops' : (Val.cont dd lc).getItem (responseRep []) = .ok (.list ops) := by
      have e1 := getItem_noKey (data := dd) (lc := lc) (r := requestRep []) hreq
      have e2 := getItem_noKey (data := dd) (lc := lc) (r := responseRep []) hnk'
      rw [e2]
      rw [e1] at hops
      exact hops
    obtain ⟨x, hx⟩ := htr.read BulkA.responseOpsB BulkA.responseOpsB_mem
    rw [hrep] at hx
    cases hm : x.isMissing with
    | true =>
      exfalso
      have := BulkA.missing_eq hm
      subst this
      have ha := htr.absent BulkA.responseOpsB BulkA.responseOpsB_mem (by rw [hrep]; rfl) (by rw [hrep]; exact hx)
      rw [hrep, hops'] at ha
      cases ha
    | false =>
    obtain ⟨y, j, hpx, hy⟩ := htr.present BulkA.responseOpsB BulkA.responseOpsB_mem x (by rw [hrep]; exact hx) hm
    rw [hrep, hops'] at hy
    cases hy
    cases hnone : x.isNone with
    | true =>
      rw [isNone_iff.mp hnone, C25_null] at hpx
      cases hpx
    | false =>
    cases hlist : x.isList with
    | false =>
      rw [BulkA.responseOpsB_eq] at hpx
      have := multi_non_list (info := BulkA.opsInfo BulkA.responseUrn) rfl hnone hlist hpx
      cases this
    | true =>
      cases x <;> simp [Val.isList] at hlist
      exact ⟨_, hx⟩
  all_goals cases h

end V

end Scim
