import Verif.Lemmas.Firm
import Verif.Spec.BulkResponseTotality
import Verif.Props.ResponseTotality

/-! Answering one operation of a bulk response: everything but the answer itself is total. -/

namespace Scim
open Issues
variable [PyEnv]

/-- The presence check never objects to the location in `meta` being there. -/
theorem meta_location_presence {s : Schema} (hs : s.WF) (hns : s.NoShadow) (ho : s.Owned)
    (hmeta : ∀ a ∈ bindWithSubs s.urn false metaAttr, a ∈ s.attrs.all) {b : Val} {is : Issues}
    (h : Checker.call {} b s.attrs .response = .ok is) :
    ∀ e ∈ is.errorsAt [.name "meta".toList, .name "location".toList], e.code = 15 := by
  intro e he
  obtain ⟨a, ha, v, hobs, hp⟩ := (call_errors _ _ _ _ _ h _ _).mp he
  have hrep : a.rep.attr = "meta".toList ∧ a.rep.sub = "location".toList := by
    generalize hl : ([.name "meta".toList, .name "location".toList] : Loc) = l at hobs
    cases hobs
    · simp at hl
    · simp only [List.cons.injEq, LKey.name.injEq] at hl
      exact ⟨hl.1.symm, hl.2.1.symm⟩
    · simp only [List.cons.injEq, LKey.name.injEq] at hl
      exact ⟨hl.1.symm, hl.2.1.symm⟩
    · simp at hl
  have hm : bindAttr metaAttr { schema := s.urn, attr := "meta".toList } ∈ s.attrs.top := by
    rw [hs.topAll, List.mem_filter]
    exact ⟨hmeta _ (mem_bindWithSubs.mpr (.inl rfl)), by rw [bindAttr_rep]; rfl⟩
  have hext : a.rep.ext = false := by
    cases hx : a.rep.ext with
    | false => rfl
    | true =>
      exfalso
      obtain ⟨t, ht, -, -, h3, h4, -⟩ := ho.parent hs ha (by rw [hrep.2]; decide)
      refine hns _ hm t ht (by rw [bindAttr_rep]) (by rw [h4, hx]) ?_
      rw [bindAttr_rep, h3, hrep.1]
  have e1 := hs.getSub_of_mem ha hext (name := "meta".toList) (sub := "location".toList) (by rw [hrep.1]) (by rw [hrep.2])
  have e2 := hs.getSub_of_mem (location_bound hmeta) (by rw [bindAttr_rep]) (name := "meta".toList)
    (sub := "location".toList) (by rw [bindAttr_rep]) (by rw [bindAttr_rep])
  rw [e1] at e2
  have ea := Option.some.inj e2
  rcases (checkPresence_errors _ _ _ _ _ _).mp hp with ⟨-, ⟨rfl, -⟩ | ⟨-, -, -, -, h5 | ⟨h5, -⟩ | ⟨h5, -⟩⟩⟩
  · rfl
  · rw [ea] at h5; cases h5
  · cases h5
  · cases h5

namespace V

theorem locationsMatch_shape {v l : Val} {j : Issues} (h : locationsMatch v l = .ok j) :
    j = {} ∨ j = (Issues.empty.add ⟨11, []⟩ true metaLocationLoc).add ⟨11, []⟩ true headerLocationLoc := by
  unfold locationsMatch at h
  split at h
  · cases h
  · cases h
    split
    · exact .inl rfl
    · exact .inr rfl

/-- Once differing locations are taken out of the issues of a response, what is left of them can be merged. -/
theorem dumpResource_rest {s : Schema} (hs : s.WF) (hns : s.NoShadow) (ho : s.Owned) (hsane : SaneAll s.attrs.top)
    (hstd : StandardAll .dump s.attrs.top)
    (hmeta : ∀ a ∈ bindWithSubs s.urn false metaAttr, a ∈ s.attrs.all) {lr : Bool} {ex st : Int} {body : Val} {t : Str}
    {resp : Response} {is : Issues}
    (h : dumpResource s lr ex st body (.dict [(V.locationWord, .str t)]) none = .ok (resp, is)) :
    ((is.pop metaLocationLoc 11).pop headerLocationLoc 11).AllStop := by
  obtain ⟨b, is1, is2, i3, is3, hdump, hi3, hi2, hw3, hcase, hl, -, -⟩ := dumpResource_split h
  have hw1 := schema_dump_wf hs hsane hdump
  have hloc : locationInHeader (orDict (.dict [(V.locationWord, .str t)])) lr = {} := by cases lr <;> rfl
  rw [hloc] at hi3
  have hwi3 : i3.WF := by rw [hi3]; exact ((WF.empty.merge hw1 _).merge WF.empty _).merge statusIs_wf _
  have hw2 : is2.WF := by rw [hi2]; exact hwi3.merge hw3 _
  let S : Nat → Prop := fun c => c ∈ softCodes ∨ c = 19 ∨ c = 16
  have hf1 : is1.Firm S := (schema_dump_firm hstd hdump).mono (fun _ h => .inl h)
  have hf3 : is3.Firm S := by
    rcases hcase with ⟨-, hc⟩ | ⟨-, rfl⟩
    · exact (call_firm hc).mono (fun _ h => .inr (.inl h))
    · exact .empty
  have hfs : (statusIs ex st).Firm S := by
    unfold statusIs
    split
    · exact .empty
    · exact Issues.Firm.add (S := S) .empty (.inr (.inr (.inr rfl))) _
  have hf2 : is2.Firm S := by
    rw [hi2, hi3]
    exact (((Issues.Firm.empty.merge hf1 _).merge .empty _).merge hfs _).merge hf3 _
  have hs2 : is2.AllStop := by
    rw [hi2, hi3]
    exact (((AllStop.empty.merge _ _).merge _ _).merge _ _).merge _ _
  have hpb : bodyLoc <+: metaLocationLoc := by decide
  have hps : ¬ statusLoc <+: metaLocationLoc := by decide
  have hA : ∀ a ∈ is2.errorsAt metaLocationLoc, a.code ≠ 11 ∧ a.code ∈ is2.stopsAt metaLocationLoc := by
    intro a ha
    have hc : a.code ∈ valueCodes ∨ a.code = 15 := by
      rw [hi2, errorsAt_merge hw3, hi3, errorsAt_merge statusIs_wf, errorsAt_merge WF.empty, errorsAt_merge hw1] at ha
      simp only [errorsAt_empty, List.nil_append, hpb, hps, if_true, if_false, ite_self, List.append_nil, List.mem_append] at ha
      rcases ha with ha | ha
      · exact .inl (meta_location_values hs hsane hmeta hdump a ha)
      · rcases hcase with ⟨-, hcall⟩ | ⟨-, rfl⟩
        · exact .inr (meta_location_presence hs hns ho hmeta hcall a ha)
        · simp at ha
    have hn : a.code ≠ 11 ∧ ¬ S a.code := by
      rcases hc with hc | hc
      · revert hc
        generalize a.code = c
        intro hc
        simp only [valueCodes, List.mem_cons, List.not_mem_nil, or_false] at hc
        rcases hc with rfl | rfl | rfl | rfl | rfl <;> exact ⟨by decide, by simp only [S]; decide⟩
      · rw [hc]; exact ⟨by decide, by simp only [S]; decide⟩
    exact ⟨hn.1, (hf2.firm _ _ ha).resolve_left hn.2⟩
  have hH : is2.errorsAt headerLocationLoc = [] := by
    have h1 : ¬ bodyLoc <+: headerLocationLoc := by decide
    have h2 : ¬ statusLoc <+: headerLocationLoc := by decide
    rw [hi2, errorsAt_merge hw3, hi3, errorsAt_merge statusIs_wf, errorsAt_merge WF.empty, errorsAt_merge hw1]
    simp [h1, h2]
  obtain ⟨a, loc, -, -, ⟨-, v, j, -, hj, rfl⟩ | ⟨-, rfl⟩⟩ := checkLocations_split hl
  · have hwj := locationsMatch_wf hj
    have hw := hw2.merge hwj []
    have e1 : (is2.merge j).errorsAt metaLocationLoc = is2.errorsAt metaLocationLoc ∨
        ∃ e : VErr, e.code = 11 ∧ (is2.merge j).errorsAt metaLocationLoc = is2.errorsAt metaLocationLoc ++ [e] := by
      rw [errorsAt_merge hwj]
      rcases locationsMatch_shape hj with rfl | rfl
      · left; simp
      · right; refine ⟨⟨11, []⟩, rfl, ?_⟩
        simp [errorsAt_add, show headerLocationLoc ≠ metaLocationLoc by decide]
    have e2 : (is2.merge j).errorsAt headerLocationLoc = [] ∨
        ∃ e : VErr, e.code = 11 ∧ (is2.merge j).errorsAt headerLocationLoc = [] ++ [e] := by
      rw [errorsAt_merge hwj, hH]
      rcases locationsMatch_shape hj with rfl | rfl
      · left; simp
      · right; refine ⟨⟨11, []⟩, rfl, ?_⟩
        simp [errorsAt_add, show metaLocationLoc ≠ headerLocationLoc by decide]
    have p1 : ((is2.merge j).pop metaLocationLoc 11).AllStop :=
      (hs2.merge j []).pop hw (fun a ha => ⟨(hA a ha).1, (stopsAt_merge _ _ _ _ _).mpr (.inl (hA a ha).2)⟩) e1
    refine p1.pop (hw.pop _ _) (A := []) (by simp) ?_
    rw [errorsAt_pop_ne _ _ _ _ (by decide)]
    exact e2
  · have p1 : (is.pop metaLocationLoc 11).AllStop := hs2.pop hw2 hA (.inl rfl)
    refine p1.pop (hw2.pop _ _) (A := []) (by simp) ?_
    rw [errorsAt_pop_ne _ _ _ _ (by decide)]
    exact .inl hH

end V

theorem keys_dictPairs' : ∀ (d : List (Str × Val)), (dictPairs d).map (·.1) = d.map (·.1)
  | [] => by simp [dictPairs]
  | (k, v) :: r => by simp [dictPairs, keys_dictPairs' r]

theorem aget_conv_dict (k : Str) (d : List (Str × Val)) :
    aget k (convPairs (dictPairs d)) = (aget k d).map (fun v => convVal (dictVal v)) := by
  rw [aget_convPairs, aget_dictPairs, Option.map_map]; rfl

theorem wordRun_ascii {w : Str} (h : w ≠ []) (ha : ∀ c ∈ w, c.toNat < 128 ∧ asciiWord c = true) : WordRun w := by
  refine ⟨h, ?_⟩
  intro c hc
  rw [PyEnv.isWord_ascii c (ha c hc).1]; exact (ha c hc).2

theorem metaVersion_parse : AttrRep.parse "meta.version".toList = some { attr := "meta".toList, sub := "version".toList } := by
  rw [parse_eq_some_iff]
  refine ⟨⟨.inl (wordRun_ascii (by decide) (by decide +kernel)), .inr (wordRun_ascii (by decide) (by decide +kernel)), .inl rfl, rfl⟩, ?_⟩
  decide +kernel

/-- The version can be looked for in every dumped resource. -/
theorem version_readable {s : Schema} (hs : s.WF) (hmeta : ∀ a ∈ bindWithSubs s.urn false metaAttr, a ∈ s.attrs.all)
    {body b : Val} {is : Issues} (hobj : (body.isCont || body.isDict) = true) (h : s.process .dump body = .ok (b, is)) :
    ∃ v, b.toDict.toCont.getName "meta.version".toList = .ok v := by
  obtain ⟨htr, -, -⟩ := process_spec hs hobj h
  obtain ⟨d, lc, rfl, hv⟩ := process_view hs hobj h
  have hm : bindAttr metaAttr { schema := s.urn, attr := "meta".toList } ∈ s.attrs.top := by
    rw [hs.topAll, List.mem_filter]
    exact ⟨hmeta _ (mem_bindWithSubs.mpr (.inl (by rw [metaAttr_name]))), by rw [bindAttr_rep]; rfl⟩
  simp only [Val.toDict, Val.toCont, Val.getName, metaVersion_parse]
  have h0 : aget (lower ([] : Str)) (lcOf ((dictPairs d).map (·.1))) = none := by
    apply aget_lcOf_none
    rw [keys_dictPairs']
    intro k hk e
    rcases hv.declared k hk with ⟨a, ha, -, rfl⟩ | ⟨a, ha, he, rfl⟩
    · exact lower_ne_nil (hs.named a (hs.top_all a ha)) e
    · exact lower_ne_nil (hs.urnNe _ (List.mem_cons_of_mem _ (hs.ext a ha he))) e
  rw [getItem_noKey (r := { attr := "meta".toList, sub := "version".toList }) h0]
  cases hk : aget (lower "meta".toList) (lcOf ((dictPairs d).map (·.1))) with
  | none => exact ⟨_, rfl⟩
  | some k =>
    obtain ⟨hl, hin⟩ := lcOf_sound _ _ _ hk
    rw [keys_dictPairs'] at hin
    have hkm : k = "meta".toList := by
      have := hv.eq_of_lower hs hm (by rw [bindAttr_rep]) hin (by rw [bindAttr_rep]; exact hl.symm)
      rwa [bindAttr_rep] at this
    subst hkm
    rw [← aget_isSome_iff, Option.isSome_iff_exists] at hin
    obtain ⟨w, hw⟩ := hin
    simp only [aget_conv_dict, hw, Option.map_some, show ("version".toList : Str).isEmpty = false from rfl, Bool.false_eq_true, if_false]
    -- what `meta` is
    have hg := hv.get hs hm (by rw [bindAttr_rep])
    have hattr : (bindAttr metaAttr { schema := s.urn, attr := "meta".toList }).rep.attr = "meta".toList := by rw [bindAttr_rep]
    rw [hattr, hw] at hg
    obtain ⟨x, hx⟩ := htr.read _ hm
    by_cases hmx : x.isMissing = true
    · have hxm : x = .missing := by cases x <;> simp [Val.isMissing] at hmx; rfl
      subst hxm
      have := htr.absent _ hm (by rw [bindAttr_rep]) hx
      rw [hg] at this
      simp only [Option.getD_some, Except.ok.injEq] at this
      subst this
      exact ⟨_, rfl⟩
    have hmiss : x.isMissing = false := by simpa using hmx
    obtain ⟨y, i, hp, hy⟩ := htr.present _ hm x hx hmiss
    rw [hg] at hy
    cases hy
    obtain ⟨g1, g2⟩ := meta_process .dump _ x _ i hp
    cases hc : x.isCont with
    | false =>
      rcases g1 hc with e | e
      · simp only [Option.getD_some] at e; subst e
        exact ⟨_, rfl⟩
      · simp only [Option.getD_some] at e; subst e
        exact ⟨_, rfl⟩
    | true =>
      have hres := subResult_of_processSubs metaSubs_plain (g2 hc)
      simp only [Option.getD_some] at hres
      have hwc := hres.cont
      cases w <;> simp [Val.isCont] at hwc
      rename_i d' l'
      simp only [dictVal, convVal]
      have h1 : aget (lower ([] : Str)) (lcOf ((dictPairs d').map (·.1))) = none := by
        apply aget_lcOf_none
        rw [keys_dictPairs']
        intro k hk e
        obtain ⟨a, ha, rfl, -⟩ := hres.declared k hk
        exact lower_ne_nil (metaSubs_plain.named a ha) e
      have hname : isAttrName "version".toList = true := isAttrName_ascii _ (by decide) (by decide)
      rw [Val.getX]
      simp only [hname, Bool.not_true, Bool.and_false, Bool.false_eq_true, if_false, h1, List.isEmpty_nil, if_true]
      cases hkv : aget (lower "version".toList) (lcOf ((dictPairs d').map (·.1))) with
      | none => exact ⟨_, rfl⟩
      | some k =>
        obtain ⟨-, hin⟩ := lcOf_sound _ _ _ hkv
        rw [keys_dictPairs', ← aget_isSome_iff, Option.isSome_iff_exists] at hin
        obtain ⟨w, hw'⟩ := hin
        simp only [aget_conv_dict, hw', Option.map_some]
        exact ⟨_, rfl⟩

namespace V

/-- All issues of an error response stop. -/
theorem dumpError_allStop {st : Int} {body headers : Val} {resp : Response} {is : Issues}
    (h : dumpError st body headers = .ok (resp, is)) : is.AllStop := by
  unfold dumpError at h
  split at h
  · cases h
  rename_i b is1 hd
  split at h
  · cases h
  rename_i is2 hc
  split at h
  · cases h
  rename_i is3 hs
  have e1 : is3.merge (errorStatusRange st) = is := congrArg Prod.snd (Except.ok.inj h)
  have h2 : is2.AllStop := checkBody_allStop (AllStop.empty.merge _ _) hc
  have h3 : is3.AllStop := by
    unfold errorStatus at hs
    split at hs
    · cases hs
    · split at hs
      · split at hs
        · cases hs
        · split at hs
          · cases hs
          · cases hs; exact h2.merge _ _
      · cases hs; exact h2
  rw [← e1]
  exact h3.merge _ _

theorem setPlain_total {o : Val} (h : o.isCont = true) (a : Str) (v : Val) : ∃ o', o.setPlain a v = .ok o' := by
  cases o <;> simp [Val.isCont] at h
  exact ⟨_, rfl⟩

/-- A failed operation is answered exactly when its response is. -/
theorem failedOp_total {i : Nat} {o : Val} {st : Int} {r : Val} (ho : o.isCont = true) {resp : Response} {is : Issues}
    (h : dumpError st r .null = .ok (resp, is)) (issues : Issues) : ∃ res, failedOp i o st r issues = .ok res := by
  have hall := dumpError_allStop h
  obtain ⟨o', ho'⟩ := setPlain_total ho BulkA.responseWord resp.body
  unfold failedOp
  rw [h]
  dsimp only
  rw [hall.mergeCopy]
  dsimp only
  rw [hall.mergeCopy]
  dsimp only
  rw [ho']
  exact ⟨_, rfl⟩

/-- What a dumped resource says about the body it returns. -/
theorem dumpResource_body {s : Schema} {lr : Bool} {ex st : Int} {body headers : Val} {c : Option Checker} {resp : Response}
    {is : Issues} (h : dumpResource s lr ex st body headers c = .ok (resp, is)) :
    resp.body = .null ∨ ∃ b is1, (body.isCont || body.isDict) = true ∧ s.process .dump body = .ok (b, is1) ∧ b.Reach ∧
      resp.body = b.toDict := by
  obtain ⟨b, is1, is2, i3, is3, hdump, hi3, hi2, -, -, hl, -, hb⟩ := dumpResource_split h
  cases hi : is.hasIssues with
  | true => left; rw [hb, hi]; rfl
  | false =>
    right
    have h2 : is2.hasIssues = false := by
      obtain ⟨a, loc, -, -, ⟨-, v, j, -, -, rfl⟩ | ⟨-, rfl⟩⟩ := checkLocations_split hl
      · rw [hasIssues_merge_false] at hi; exact hi.1
      · exact hi
    have h1 : is1.hasIssues = false := by
      rw [hi2, hi3] at h2
      simp only [hasIssues_merge_false] at h2
      exact h2.1.1.1.2
    obtain ⟨ho, hr, hp⟩ := dump_noIssues hdump h1
    exact ⟨b, is1, ho, hp, hr, by rw [hb, hi]; rfl⟩

theorem checkVersion_total {i : Nat} {version body : Val} (hv : version.truthy = true → ∃ t, version = .str t)
    (hb : body.isNone = true ∨ ∃ v, body.toCont.getName "meta.version".toList = .ok v) (issues : Issues) :
    ∃ res, checkVersion i version body issues = .ok res := by
  unfold checkVersion
  split
  · exact ⟨_, rfl⟩
  rename_i hn
  rcases hb with hb | ⟨v, hg⟩
  · exact absurd hb hn
  rw [hg]
  dsimp only
  split
  · rename_i ht
    rw [Bool.and_eq_true] at ht
    obtain ⟨t, rfl⟩ := hv ht.1
    have : ∃ b, (Val.str t).pyEq v = .ok b := by
      cases v <;> exact ⟨_, rfl⟩
    obtain ⟨b, hb'⟩ := this
    rw [hb']
    exact ⟨_, rfl⟩
  · exact ⟨_, rfl⟩

/-- The response to a single request, as the loop over the operations asks for it. -/
theorem dumpOp_eq {m : Str} {mm : Method} (hm : methodOf (.str m) = some mm) (hd : m ≠ "DELETE".toList) (s : Schema) (n : Int) (r : Val)
    (t : Str) : dumpOp mm s n r (.str t) = singleResponse m s n r t := by
  unfold methodOf at hm
  split at hm
  · rename_i h
    rw [isText_iff] at h
    cases h; cases hm; rfl
  split at hm
  · rename_i h
    rw [isText_iff] at h
    cases h; cases hm; rfl
  split at hm
  · rename_i h
    rw [isText_iff] at h
    cases h; cases hm; rfl
  split at hm
  · rename_i h
    rw [isText_iff] at h
    cases h; cases hm; rfl
  split at hm
  · rename_i h
    rw [isText_iff] at h
    cases h; exact absurd rfl hd
  · cases hm

/-- A successful operation is answered whenever its response is. -/
theorem doneOp_total {s : Schema} (hs : ServedSchema s) {mm : Method} {i : Nat} {o : Val} {n : Int} {r version : Val} {t : Str}
    (ho : o.isCont = true) (hv : version.truthy = true → ∃ t, version = .str t) {resp : Response} {is : Issues}
    (h : dumpOp mm s n r (.str t) = .ok (resp, is)) (issues : Issues) :
    ∃ res, doneOp mm s i o n r (.str t) version issues = .ok res := by
  have hres : ∀ {lr : Bool} {ex : Int}, dumpResource s lr ex n r (.dict [(V.locationWord, .str t)]) none = .ok (resp, is) →
      ((is.pop metaLocationLoc 11).pop headerLocationLoc 11).AllStop ∧
        (resp.body.isNone = true ∨ ∃ v, resp.body.toCont.getName "meta.version".toList = .ok v) := by
    intro lr ex h
    refine ⟨dumpResource_rest hs.wf hs.noShadow hs.owned hs.sane hs.standard hs.hasMeta h, ?_⟩
    rcases dumpResource_body h with e | ⟨b, is1, h1, h2, -, e⟩
    · left; rw [e]; rfl
    · right; rw [e]; exact version_readable hs.wf hs.hasMeta h1 h2
  have hnil : ∀ {hd : Val}, resp = { headers := hd, body := .null } → is = {} →
      ((is.pop metaLocationLoc 11).pop headerLocationLoc 11).AllStop ∧
        (resp.body.isNone = true ∨ ∃ v, resp.body.toCont.getName "meta.version".toList = .ok v) := by
    rintro hd rfl rfl
    exact ⟨AllStop.empty, .inl rfl⟩
  have key : ((is.pop metaLocationLoc 11).pop headerLocationLoc 11).AllStop ∧
        (resp.body.isNone = true ∨ ∃ v, resp.body.toCont.getName "meta.version".toList = .ok v) := by
    cases mm with
    | get => exact hres h
    | put => exact hres h
    | post =>
      simp only [dumpOp, dumpPost] at h
      split at h
      · exact hres h
      · cases h; exact hnil rfl rfl
    | patch =>
      simp only [dumpOp, dumpPatch] at h
      split at h
      · cases h; exact hnil rfl rfl
      · exact hres h
    | delete => cases h
  obtain ⟨hall, hbody⟩ := key
  unfold doneOp
  rw [h]
  dsimp only
  rw [hall.mergeCopy]
  dsimp only
  obtain ⟨⟨rb, is'⟩, hc⟩ := checkVersion_total (i := i) hv hbody (disagree i BulkA.locationWord
    ((is.popResult metaLocationLoc 11).hasIssues && ((is.pop metaLocationLoc 11).popResult headerLocationLoc 11).hasIssues)
    (issues.merge (((is.pop metaLocationLoc 11).pop headerLocationLoc 11).get bodyLoc) (opPartLoc i BulkA.responseWord)))
  rw [hc]
  dsimp only
  obtain ⟨o', ho'⟩ := setPlain_total ho BulkA.responseWord rb
  rw [ho']
  exact ⟨_, rfl⟩

end V
end Scim
