import Verif.Lemmas.PatchFrame
import Verif.Lemmas.ListDoc

/-! # Patch requests at the endpoint: what must be there, and what makes the checks raise -/

namespace Scim.PatchA
open Issues V Valid Declared
variable [PyEnv]

/-- What becomes of an acceptable value of an attribute whose values are lists of objects. -/
theorem many_processed {m : Mode} {a : Attr} (hu : Usual m a) (hs : a.Sane) (hm : a.ManyParts) {u y : Val} {i : Issues}
    (hv : ValidFor m a u) (h : a.process m (convVal u) = .ok (y, i)) : y.NoList ↔ u = .null := by
  cases a with
  | simple i => cases hm.1
  | complex info subs ps ds =>
    have hmm : info.multi = true := hm.2
    unfold ValidFor at hv
    rcases hv with rfl | hv
    · rw [show convVal .null = .null by simp [convVal, Val.null], C25_null] at h
      cases h
      exact ⟨fun _ => rfl, fun _ => ⟨rfl, by intro xs e; cases e⟩⟩
    · rw [if_pos hmm] at hv
      obtain ⟨xs, rfl, -⟩ := hv
      unfold Attr.Sane at hs
      obtain ⟨ys, rfl, -⟩ := complex_multi hu hs.2 hmm h
      exact ⟨fun h => absurd rfl (h.2 ys), fun e => by cases e⟩

/-- What an update without issues is parsed to. -/
theorem parseOne_update {r : Schema} {t p value o : Val} (hu : (t.isText addWord || t.isText replaceWord) = true)
    (h : parseOne r t p value = .ok (o, {})) : ∃ w iw, parseValue r p value = .ok (w, iw) ∧
      o = Val.toCont (.dict [(opWord, t), (pathWord, p), (valWord, w)]) := by
  unfold parseOne at h
  rw [if_pos hu] at h
  unfold parseAddReplace at h
  split at h
  · rename_i hh
    exfalso
    have h2 := congrArg Issues.hasIssues (congrArg Prod.snd (Except.ok.inj h))
    have h3 : (Issues.empty.merge (pathIssues r p) [.name pathWord]).hasIssues = false := h2
    rw [hasIssues_merge_false] at h3
    rw [h3.2] at hh
    cases hh
  · split at h
    · cases h
    · rename_i v iv hv
      exact ⟨v, iv, hv, (congrArg Prod.fst (Except.ok.inj h)).symm⟩

/-- The parsed operation has the word of the operation, or `remove`. -/
theorem parsed_op {r : Schema} {t p value o : Val} (h : parseOne r t p value = .ok (o, {})) :
    ∃ w : Str, w ≠ [] ∧ o.getItem { attr := opWord } = .ok (.str w) := by
  rcases parseOne_shape h with ⟨pp, rfl, e⟩ | ⟨w, iw, ht, hv, e⟩
  · refine ⟨removeWord, by decide, ?_⟩
    have : o.getItem { attr := opWord } = .ok (convVal (.str removeWord)) := by
      rw [e]; exact toCont_read words_nodup' (by simp [opWord, pathWord]) rfl
    rw [this, convVal] <;> simp [Val.str]
  · have hwn : ∀ q ∈ [(opWord, t), (pathWord, p), (valWord, w)], q.1 ≠ [] := by simp [opWord, pathWord, valWord]
    have : o.getItem { attr := opWord } = .ok (convVal t) := by rw [e]; exact toCont_read words_nodup hwn rfl
    rcases ht with rfl | rfl
    · exact ⟨addWord, by decide, by rw [this, convVal] <;> simp [Val.str]⟩
    · exact ⟨replaceWord, by decide, by rw [this, convVal] <;> simp [Val.str]⟩

/-- The path stands for an attribute whose values are lists of objects: it names that attribute and no part. -/
theorem stands_many {r : Schema} (hr : PatchSchema r) {pp : PatchPath} (hok : pp.Ok) {a : Attr} (hst : pp.stands r = some a)
    (hm : a.ManyParts) : pp.subRep = none ∧ r.attrs.get pp.rep = some a := by
  have ha : a ∈ r.attrs.all := stands_mem hst
  have hsub : a.rep.sub = [] := hr.wf.sub a (ManyParts.top hr ha hm)
  unfold PatchPath.stands at hst
  cases hs : pp.subRep with
  | some s =>
    exfalso
    rw [hs] at hst
    dsimp only at hst
    have h1 := (hok.sub s hs).1
    unfold Attributes.get findAttr at hst
    have hq : a.rep.eqv s = true := List.find?_some (p := fun a : Attr => a.rep.eqv s) hst
    have h2 := eqv_sub hq
    rw [hsub, lower_nil] at h2
    exact h1 ((PyEnv.lower_eq_nil _).mp h2.symm)
  | none =>
    rw [hs] at hst
    exact ⟨rfl, hst⟩

/-- A good operation makes the checks raise exactly when it gives `null` for a list of objects. -/
theorem bad_iff {r : Schema} (hP : Patchable r) {E : List (Str × Val)} (ht : (Val.dict E).Tame) (hI : PatchItem r (box E))
    (hg : GoodOp r E) {t path value o : Val} (hin : OpInput (box E) t path value) (h : parseOne r t path value = .ok (o, {})) :
    (Sets o ∧ BadItems r o) ↔ Updates E ∧ NullItems r E := by
  obtain ⟨-, hval, hpath⟩ := input_says ht hin
  have hup := updates_iff ht hin.op
  by_cases hU : Updates E
  · obtain ⟨w, iw, hv, e⟩ := parseOne_update (hup.mpr hU) h
    have hwn : ∀ q ∈ [(opWord, t), (pathWord, path), (valWord, w)], q.1 ≠ [] := by simp [opWord, pathWord, valWord]
    have r1 : o.getItem { attr := opWord } = .ok (convVal t) := by rw [e]; exact toCont_read words_nodup hwn rfl
    have r2 : o.getItem { attr := valWord } = .ok (convVal w) := by rw [e]; exact toCont_read words_nodup hwn rfl
    have r3 : o.getItem { attr := pathWord } = .ok (convVal path) := by rw [e]; exact toCont_read words_nodup hwn rfl
    have hsets : Sets o := by
      refine ⟨_, r1, ?_⟩
      have := hup.mpr hU
      rw [Bool.or_eq_true, isText_iff, isText_iff] at this
      rcases this with rfl | rfl <;> (rw [convVal] <;> simp [Val.str, addWord, replaceWord, removeWord])
    simp only [hsets, hU, true_and]
    rcases hpath with ⟨hn, ho⟩ | ⟨p, rfl, hpg⟩
    · have hpa : convVal path = path := by
        cases path <;> first | (rw [convVal] <;> simp; done) | (simp [Val.isNoneOrMissing] at hn)
      rw [hpa] at r3
      have hNP : NoPath (box E) := by
        rcases hin.pth with ⟨h1, h2⟩ | ⟨s, p, -, -, rfl⟩
        · exact ⟨_, h1, h2⟩
        · cases hn
      obtain ⟨kvs, hk, hord⟩ := hI.whole hNP ((isUpdate_iff hin).mp (hup.mpr hU))
      rw [hin.val] at hk
      cases hk
      obtain ⟨V, hV, hVo, hVe⟩ : ∃ V, says "value" E = some (.dict V) ∧ Ordinary r V ∧ (Val.dict kvs).toCont = (Val.dict V).toCont := by
        cases hs : says "value" E with
        | none => rw [hs] at hval; simp [Val.toCont] at hval
        | some u =>
          rw [hs] at hval
          have htu := found_tame ht hs
          cases u <;> simp [convVal, Val.Tame, Val.toCont] at hval htu
          rename_i V
          refine ⟨V, rfl, ordinary_cont hord (found_tame ht hs) ?_, ?_⟩ <;> simp only [Val.toCont, hval]
      rw [hVe] at hv
      have hValid : ValidIn .parse r.attrs.top V := by
        rcases hg.effect with ⟨-, -, V', hV', h1, -⟩ | ⟨p, hp, -⟩
        · rw [hV] at hV'; cases hV'; exact h1
        · exact absurd hp (open_not_given ho)
      obtain ⟨hcw, hread⟩ := parseValue_object hP.schema hn hv
      rw [hcw] at r2
      have hpr : ∃ iz, r.process .parse (.dict V) = .ok (w, iz) := by
        unfold parseValue at hv
        split at hv
        · cases hn
        · rw [if_pos hn] at hv
          split at hv
          · cases hv
          · rename_i w' iw' hpr
            dsimp only at hv
            split at hv
            · cases hv
            · cases hv
              rw [show r.parse (Val.dict V).toCont = r.parse (.dict V) from process_toCont .parse r V] at hpr
              exact ⟨_, hpr⟩
      obtain ⟨iz, hpr⟩ := hpr
      have key : ∀ a ∈ r.attrs.all, a.ManyParts → ∀ x, w.getItem a.rep = .ok x → (x.NoList ↔ look a.rep V = some .null) := by
        intro a ha hm x hx
        have hat := ManyParts.top hP.schema ha hm
        rcases top_given hP.schema.wf hP.schema.noShadow hP.proper.sane (hP.proper.usual .parse) hVo hValid hpr hat with
          ⟨hl, hw⟩ | ⟨u, y, i, hl, -, hvf, hp, -, hw⟩
        · rw [hx] at hw; cases hw
          rw [hl]
          exact ⟨fun h => absurd h.1 (by simp [Val.isMissing]), fun h => by cases h⟩
        · rw [hx] at hw; cases hw
          rw [many_processed (usualAll_iff.mp (hP.proper.usual .parse) a hat) (saneAll_iff.mp hP.proper.sane a hat) hm hvf hp, hl]
          simp
      constructor
      · intro hb
        cases hb with
        | path d1 => rw [r3] at d1; cases d1; cases hn
        | object d1 d2 d3 d4 d5 d6 d7 =>
          rw [r2] at d3; cases d3
          exact .inr ⟨ho, V, _, hV, d4, d5, (key _ d4 d5 _ d6).mp d7⟩
      · rintro (⟨p, a, hp, -⟩ | ⟨-, V', a, hV', ha, hm, hl⟩)
        · exact absurd hp (open_not_given ho)
        · rw [hV] at hV'; cases hV'
          obtain ⟨-, x, hx, -⟩ := hread a ha
          exact .object r3 hn r2 ha hm hx ((key a ha hm x hx).mpr hl)
    · have hpa : convVal (.obj (.path p)) = .obj (.path p) := by rw [convVal] <;> simp
      rw [hpa] at r3
      obtain ⟨s, -, hq⟩ := id hpg
      have hok := (C62_consistent s p _ hq).1
      have key : ∀ a, p.stands r = some a → a.ManyParts → ((convVal w).NoList ↔ says "value" E = some .null) := by
        intro a hst hm
        obtain ⟨hs, hget⟩ := stands_many hP.schema hok hst hm
        have hat := ManyParts.top hP.schema (stands_mem hst) hm
        rw [convVal_fit (parseValue_path hP.schema hok hst hm hv)]
        obtain ⟨u, hsu, hro, hvf⟩ : ∃ u, says "value" E = some u ∧ ¬ a.ReadOnly ∧ ValidFor .parse a u := by
          rcases hg.effect with ⟨ho, -⟩ | ⟨q, hq', hup', -⟩
          · exact absurd hpg (open_not_given ho)
          · cases given_unique hpg hq'
            obtain ⟨-, a', u, htg, hro, hsu, hvf, -⟩ := hup' hU
            have : p.target r = some a := by
              unfold PatchPath.target
              rw [hs]
              cases p.filter <;> exact hget
            rw [this] at htg; cases htg
            exact ⟨u, hsu, hro, hvf⟩
        rw [hsu] at hval
        have h' : parseUpdate r p.rep value = .ok (w, iw) := by
          unfold parseValue at hv
          dsimp only at hv
          rw [hs] at hv
          cases hf : p.filter <;> rw [hf] at hv <;> exact hv
        unfold parseUpdate at h'
        rw [hget] at h'
        dsimp only at h'
        have hro' : (a.info.mutability == .readOnly) = false := by
          rw [← Bool.not_eq_true]; intro e; exact hro (by simpa [Attr.ReadOnly] using e)
        rw [hro'] at h'
        simp only [Bool.false_eq_true, if_false] at h'
        split at h'
        · cases h'
        · rename_i parsed is hproc
          have hne : (a.isComplex && !a.info.multi) = false := by rw [hm.1, hm.2]; rfl
          rw [hne] at h'
          have hw : w = parsed := by
            split at h' <;> (cases h'; rfl)
          subst hw
          rw [hval] at hproc
          rw [many_processed (usualAll_iff.mp (hP.proper.usual .parse) a hat) (saneAll_iff.mp hP.proper.sane a hat) hm hvf hproc, hsu]
          simp
      constructor
      · intro hb
        cases hb with
        | path d1 d2 d3 d4 d5 =>
          rw [r3] at d1; cases d1
          rw [r2] at d4; cases d4
          exact .inl ⟨p, _, hpg, d2, d3, (key _ d2 d3).mp d5⟩
        | object d1 d2 => rw [r3] at d1; cases d1; cases d2
      · rintro (⟨q, a, hq', hst, hm, hs⟩ | ⟨ho, -⟩)
        · cases given_unique hpg hq'
          exact .path r3 hst hm r2 ((key a hst hm).mpr hs)
        · exact absurd hpg (open_not_given ho)
  · refine ⟨fun ⟨hs, _⟩ => ?_, fun h => absurd h.1 hU⟩
    exfalso
    rcases parseOne_shape h with ⟨pp, rfl, e⟩ | ⟨w, iw, ht', -⟩
    · have : o.getItem { attr := opWord } = .ok (convVal (.str removeWord)) := by
        rw [e]; exact toCont_read words_nodup' (by simp [opWord, pathWord]) rfl
      obtain ⟨t', h1, h2⟩ := hs
      rw [this] at h1
      cases h1
      exact h2 (by rw [convVal] <;> simp [Val.str])
    · exact hU (hup.mp (by rw [Bool.or_eq_true, isText_iff, isText_iff]; exact ht'))

/-! ### What must be there -/

theorem schemas_kept {r : Schema} {data v : Val} {is : Issues} (hobj : (data.isCont || data.isDict) = true)
    (h : PatchA.parse r data = .ok (v, is)) : ∃ d is0, PatchA.schema.parse data = .ok (d, is0) ∧
      v.getItem { schema := urn, attr := "schemas".toList } = d.getItem { schema := urn, attr := "schemas".toList } := by
  unfold PatchA.parse at h
  split at h
  · cases h
  rename_i d0 is0 hd
  refine ⟨d0, is0, hd, ?_⟩
  obtain ⟨-, ⟨dd, lc, rfl, hnk⟩, -⟩ := process_spec patch_wf hobj hd
  have hnk' : aget (lower urn) lc = none := hnk
  have hi : CInv dd lc := by
    obtain ⟨d', lc', e, hi⟩ := (schema_process_reach hobj hd).inv
    cases e
    exact hi
  split at h
  · cases h; rfl
  · repeat' split at h
    all_goals first
      | cases h; done
      | (rename_i v' hset
         cases h
         have e : ∀ out, (Val.cont dd lc).setItem { attr := opsWord } (.list out) =
             .ok (.cont (aset opsWord (.list out) dd) (aset (lower opsWord) opsWord lc)) := by
           intro out
           simp [Val.setItem, Val.setLocal, Val.setPlain]
         rw [e] at hset
         cases hset
         have hne : lower opsWord ≠ lower "schemas".toList := lower_ne_ascii (by decide) (by decide) (by decide)
         rw [getItem_noKey (by
           rw [aget_aset, if_neg (lower_ne_ascii (by decide) (by decide) (by decide))]
           exact hnk'), getItem_noKey hnk']
         dsimp only
         rw [aget_aset, if_neg (by first | exact hne | exact Ne.symm hne)]
         cases hk : aget (lower "schemas".toList) lc with
         | none => rfl
         | some k =>
           have hk' : opsWord ≠ k := by
             rintro rfl
             exact hne (hi.sound _ _ hk).1.symm
           dsimp only
           rw [aget_aset, if_neg (by first | exact hk' | exact Ne.symm hk')])

/-- What is read for `schemas`: it is there if texts are listed. -/
theorem schemas_there {r : Schema} {D : List (Str × Val)} (hD : Ordinary PatchA.schema D)
    (hs : ∀ x, look { schema := urn, attr := "schemas".toList } D = some x →
      x = .null ∨ ∃ strs : List Str, x = .list (strs.map Val.str) ∧ ∀ t ∈ strs, lower t = lower urn)
    {v : Val} {is : Issues} (h : PatchA.parse r (.dict D) = .ok (v, is)) :
    ∃ sv, v.getItem { schema := urn, attr := "schemas".toList } = .ok sv ∧ sv.isInvalid = false ∧
      (¬ sv.Empty ↔ ∃ strs : List Str, strs ≠ [] ∧
        look { schema := urn, attr := "schemas".toList } D = some (.list (strs.map Val.str))) := by
  obtain ⟨d, is0, hd, hkept⟩ := schemas_kept (by rfl) h
  rw [hkept]
  have hrep : (bindAttr schemasAttr { schema := urn, attr := "schemas".toList }).rep = { schema := urn, attr := "schemas".toList } :=
    bindAttr_rep _ _
  have htr := (process_spec patch_wf (by rfl) hd).1
  have hmem := schemasA_mem
  have hread := getItem_look (clear_of_ordinary hD (patch_wf.allSchema _ (patch_wf.top_all _ hmem))) (patch_wf.sub _ hmem)
  rw [hrep] at hread
  cases hl : look { schema := urn, attr := "schemas".toList } D with
  | none =>
    rw [hl] at hread
    have := htr.absent _ hmem (by rw [hrep]) (by rw [hrep]; exact hread)
    rw [hrep] at this
    refine ⟨_, this, rfl, fun hn => absurd (.inr (.inr (.inr rfl))) hn, ?_⟩
    rintro ⟨strs, -, e⟩
    cases e
  | some x =>
    rw [hl] at hread
    dsimp only at hread
    have htx := look_tame hD.tame hl
    have hnm := conv_not_missing htx
    obtain ⟨y, i, hp, hy⟩ := htr.present _ hmem _ (by rw [hrep]; exact hread) (by
      generalize convVal x = z at hnm
      cases z <;> first | rfl | exact absurd rfl hnm)
    rw [hrep] at hy
    have hvalid : ValidFor .parse (bindAttr schemasAttr { schema := urn, attr := "schemas".toList }) x := by
      refine schemas_valid.mpr ?_
      rcases hs x hl with rfl | ⟨strs, rfl, -⟩
      · exact .inl rfl
      · exact .inr ⟨strs, rfl⟩
    have hno : i.hasIssues = false := by
      obtain ⟨w, j, e, hj⟩ := (SearchA.usual_reads (schemas_usual _ rfl) htx ⟨_, hp⟩).mpr hvalid
      rw [hp] at e; cases e; exact hj
    obtain ⟨h1, h2⟩ := process_empty (schemas_usual _ rfl) (saneAll_iff.mp patch_sane _ hmem) htx hp hno
    refine ⟨y, hy, h2, ?_⟩
    rw [h1]
    rcases hs x hl with rfl | ⟨strs, rfl, -⟩
    · refine ⟨fun hn => absurd (.inl rfl) hn, ?_⟩
      rintro ⟨strs, -, e⟩
      cases e
    · constructor
      · intro hn
        refine ⟨strs, ?_, rfl⟩
        rintro rfl
        exact hn (.inr (.inr (.inl rfl)))
      · rintro ⟨strs', hne, e⟩
        have e' : List.map Val.str strs = List.map Val.str strs' := by injection e with e; injection e
        rintro (hh | hh | hh | hh)
        · cases hh
        · cases hh
        · have : strs.map Val.str = [] := by injection hh
          rw [e'] at this
          exact hne (List.map_eq_nil_iff.mp this)
        · cases hh

theorem patch_all : PatchA.schema.attrs.all = (schemasAttr :: [operations]).flatMap (bindWithSubs urn false) := by
  obtain ⟨_, h2⟩ := bind_facts (urn := urn) (ext := false) (declarations_of patchNames_eq (by decide +kernel))
  exact ofList_all (keys_of_lnames h2)

/-- The parts of operations. -/
theorem patch_sub {a : Attr} (ha : a ∈ PatchA.schema.attrs.all) (hs : a.rep.sub ≠ []) :
    a.rep.schema = urn ∧ a.rep.attr = opsWord ∧ (a.info.required = true → a.rep.sub = opWord) := by
  rw [patch_all, List.mem_flatMap] at ha
  obtain ⟨d, hd, hm⟩ := ha
  rcases mem_bindWithSubs.mp hm with rfl | ⟨s, hs', rfl⟩
  · exact absurd (by rw [bindAttr_rep]) hs
  · simp only [List.mem_cons, List.not_mem_nil, or_false] at hd
    rcases hd with rfl | rfl
    · cases hs'
    · have hss : s ∈ [opAttr, pathAttr, valueAttr] := by
        unfold operations mkComplex at hs'
        have : s ∈ (Attributes.ofList [opAttr, pathAttr, valueAttr]).all := hs'
        rwa [ofList_all ops_subs_plain.keys] at this
      rw [bindAttr_rep]
      refine ⟨rfl, rfl, ?_⟩
      simp only [List.mem_cons, List.not_mem_nil, or_false] at hss
      rcases hss with rfl | rfl | rfl
      · intro _; rfl
      · intro h; cases h
      · intro h; cases h

/-- What must be there in a patch request. -/
theorem present_iff {v : Val} {is : Issues} (h : Checker.call {} v PatchA.schema.attrs .request = .ok is) {sv : Val}
    {out : List Val} (hv : v.getItem { schema := urn, attr := "schemas".toList } = .ok sv) (hvi : sv.isInvalid = false)
    (ho : v.getItem { schema := urn, attr := opsWord } = .ok (.list out))
    (hops : ∀ o ∈ out, ∃ w : Str, w ≠ [] ∧ o.getItem { attr := opWord } = .ok (.str w)) :
    is.hasIssues = false ↔ ¬ sv.Empty ∧ out ≠ [] := by
  have hw := call_wf h
  have hce := call_errors {} v PatchA.schema.attrs .request is h
  have key : ∀ a ∈ PatchA.schema.attrs.top, a.info.required = true → ∀ w, v.getItem a.rep = .ok w → w.isInvalid = false → w.Empty →
      is.hasIssues = true := by
    intro a ha hreq w hg hi he
    have hmem : (⟨15, []⟩ : VErr) ∈ is.errorsAt [.name a.rep.attr] := by
      refine (hce _ _).mpr ⟨a, patch_wf.top_all a ha, w, Observed.top (patch_wf.sub a ha) hg hi, ?_⟩
      rw [checkPresence_errors]
      refine ⟨rfl, .inl ⟨rfl, he, hreq, ?_, nofun⟩⟩
      rintro ⟨x, hx, -⟩; cases hx
    exact (hasIssues_iff_errors hw).mpr ⟨_, List.ne_nil_of_mem hmem⟩
  constructor
  · intro hn
    refine ⟨fun he => ?_, ?_⟩
    · have := key _ schemasA_mem rfl sv (by rw [bindAttr_rep]; exact hv) hvi he
      rw [hn] at this; cases this
    · rintro rfl
      have := key _ opsA_mem (by rw [opsA_eq]; rfl) _ (by rw [ops_rep]; exact ho) rfl (.inr (.inr (.inl rfl)))
      rw [hn] at this; cases this
  · rintro ⟨h1, h2⟩
    refine ListA.errors_none hw (fun l e he => ?_)
    obtain ⟨a, ha, w, hob, he⟩ := (hce l e).mp he
    rw [checkPresence_errors] at he
    rcases he.2 with ⟨-, hem, hr, -⟩ | ⟨-, -, hd, -⟩
    · cases hob with
      | top hs hg hi =>
        rcases patch_top a (by rw [patch_wf.topAll]; exact List.mem_filter.mpr ⟨ha, by simp [hs]⟩) with rfl | rfl
        · rw [bindAttr_rep] at hg
          rw [hv] at hg; cases hg
          exact h1 hem
        · rw [ops_rep, ho] at hg; cases hg
          rcases hem with hh | hh | hh | hh
          · cases hh
          · cases hh
          · injection hh with hh; exact h2 hh
          · cases hh
      | sub hs hget hm hg hi =>
        rename_i t
        have htm := get_in hget
        unfold Attributes.get findAttr at hget
        have hq : t.rep.eqv _ = true := List.find?_some (p := fun x : Attr => x.rep.eqv _) hget
        have h3 := eqv_sub hq
        have hts : t.rep.sub = [] := (PyEnv.lower_eq_nil _).mp (h3.trans lower_nil)
        rcases patch_top t (by rw [patch_wf.topAll]; exact List.mem_filter.mpr ⟨htm, by simp [hts]⟩) with rfl | rfl
        · cases hm
        · rw [opsA_eq] at hm
          cases hm
      | null hs hget hm hg =>
        obtain ⟨e1, e2, -⟩ := patch_sub ha hs
        rw [e1, e2, ho] at hg
        cases hg
      | item hs hget hm hg hx hxg hi =>
        obtain ⟨e1, e2, e3⟩ := patch_sub ha hs
        rw [e1, e2, ho] at hg
        cases hg
        obtain ⟨w', hne, hw'⟩ := hops _ (List.mem_of_getElem? hx)
        rw [e3 hr, hw'] at hxg
        cases hxg
        rcases hem with hh | hh | hh | hh
        · cases hh
        · injection hh with hh; injection hh with hh; exact hne hh
        · cases hh
        · cases hh
    · cases hd

end Scim.PatchA
