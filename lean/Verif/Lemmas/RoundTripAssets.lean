import Verif.Lemmas.RoundTrip

/-! The resources of the library are read and written symmetrically. -/

namespace Scim
variable [PyEnv]
open Issues

theorem allSymmetric_iff {as : List Attr} : AllSymmetric as ↔ ∀ a ∈ as, a.Symmetric := by
  induction as with
  | nil => simp [AllSymmetric]
  | cons x xs ih => simp [AllSymmetric, ih]

theorem bind_symmetric {a : Attr} (h : a.Symmetric) (rep : AttrRep) : (bindAttr a rep).Symmetric := by
  cases a with
  | simple i =>
    simp only [Attr.Symmetric] at h
    simp only [bindAttr, Attr.Symmetric]
    refine ⟨h.1, h.2.1, fun ht => ⟨(h.2.2 ht).1, ?_⟩⟩
    simp
  | complex i subs ps ds => simpa only [bindAttr, Attr.Symmetric] using h

theorem subs_symmetric {a : Attr} (h : a.Symmetric) : ∀ s ∈ a.subs, s.Symmetric := by
  cases a with
  | simple i => simp [Attr.subs]
  | complex i subs ps ds =>
    simp only [Attr.Symmetric] at h
    exact allSymmetric_iff.mp h.2.2.2.2.2.2.2

/-- Every attribute of the list is symmetric. -/
def Sym (as : List Attr) : Prop := ∀ a ∈ as, a.Symmetric

theorem sym_bind {as : List Attr} (h : Sym as) (urn : Str) (ext : Bool) : Sym (as.flatMap (bindWithSubs urn ext)) := by
  intro a ha
  rw [List.mem_flatMap] at ha
  obtain ⟨d, hd, hm⟩ := ha
  rcases mem_bindWithSubs.mp hm with rfl | ⟨s, hs, rfl⟩
  · exact bind_symmetric (h d hd) _
  · exact bind_symmetric (subs_symmetric (h d hd) s hs) _

theorem sym_schema {urn : Str} {as : List Attr} (h : Sym (schemasAttr :: as)) : Sym (mkSchema urn as).attrs.top := by
  intro a ha
  exact sym_bind h urn false a (List.mem_filter.mp ha).1

theorem sym_simple {i : AttrInfo} (h1 : i.parsers = []) (h2 : i.dumpers = [])
    (h3 : (mkAttr i).info.type ≠ .dateTime ∨ (mkAttr i).info.canonical = none) : (mkAttr i).Symmetric := by
  refine ⟨h1.trans h2.symm, ?_, fun ht => ⟨h1, ?_⟩⟩
  · intro p hp
    exact absurd (h1 ▸ hp) (by simp)
  · rcases h3 with h3 | h3
    · exact absurd ht h3
    · exact .inr h3

theorem sym_complex {i : AttrInfo} {subs : List Attr} (h1 : i.parsers = []) (h2 : i.dumpers = [])
    (hs : PlainSubs (mkComplex i subs).subs) (hg : Sym (mkComplex i subs).subs) : (mkComplex i subs).Symmetric := by
  refine ⟨rfl, h1, h2, rfl, ?_, ?_, hs, allSymmetric_iff.mpr hg⟩
  · cases hm : i.multi <;> simp
  · intro p hp
    cases hm : i.multi <;> simp [hm] at hp
    exact hp

theorem sym_nil : Sym [] := by simp [Sym]

theorem sym_cons {a : Attr} {as : List Attr} (h : a.Symmetric) (hs : Sym as) : Sym (a :: as) := by
  intro b hb
  rcases List.mem_cons.mp hb with rfl | hb
  · exact h
  · exact hs b hb

omit [PyEnv] in
theorem bulkId_onlyChecks [PyEnv] : OnlyChecks bulkIdValidator := by
  intro v r is h hn
  unfold bulkIdValidator at h
  split at h
  · split at h <;> cases h
    · cases hn
    · rfl
  · cases h

theorem sym_bulkId {i : AttrInfo} (h1 : i.parsers = [bulkIdValidator]) (h2 : i.dumpers = [bulkIdValidator])
    (h3 : (mkAttr i).info.type ≠ .dateTime) : (mkAttr i).Symmetric := by
  refine ⟨h1.trans h2.symm, ?_, fun ht => absurd ht h3⟩
  intro p hp
  have : p = bulkIdValidator := List.mem_singleton.mp (h1 ▸ hp)
  subst this
  exact bulkId_onlyChecks

/-- The next attribute of the list. -/
macro "sym_step" : tactic => `(tactic| first
  | exact sym_nil
  | (refine sym_cons (sym_simple rfl rfl (.inr rfl)) ?_)
  | (refine sym_cons (sym_simple rfl rfl (.inl (by intro h; cases h))) ?_)
  | (refine sym_cons (sym_bulkId rfl rfl (by intro h; cases h)) ?_))

macro "sym_list" : tactic => `(tactic| repeat sym_step)

theorem sym_meta : Sym metaSubs := by
  unfold metaSubs
  sym_list

theorem user_sym : Sym (schemasAttr :: idAttr :: externalIdAttr :: metaAttr :: UserA.attrs) := by
  have hp := user_decl.subs
  unfold UserA.attrs at hp ⊢
  simp only [List.mem_cons, forall_eq_or_imp] at hp
  obtain ⟨_, _, _, hmeta, _, hname, _, _, _, _, _, _, _, _, _, _, hemails, hphones, hims, hphotos, haddr, hgroups, hent, hroles, hx509, _⟩ := hp
  sym_list
  refine sym_cons (sym_complex rfl rfl hmeta sym_meta) ?_
  sym_list
  refine sym_cons (sym_complex rfl rfl hname ?_) ?_
  · sym_list
  sym_list
  refine sym_cons (sym_complex rfl rfl hemails ?_) (sym_cons (sym_complex rfl rfl hphones ?_)
      (sym_cons (sym_complex rfl rfl hims ?_) (sym_cons (sym_complex rfl rfl hphotos ?_)
      (sym_cons (sym_complex rfl rfl haddr ?_) (sym_cons (sym_complex rfl rfl hgroups ?_)
      (sym_cons (sym_complex rfl rfl hent ?_) (sym_cons (sym_complex rfl rfl hroles ?_)
      (sym_cons (sym_complex rfl rfl hx509 ?_) sym_nil))))))))
  all_goals sym_list

theorem enterprise_sym : Sym UserA.enterprise.attrs.all := by
  have hp := enterprise_decl.subs
  have he : UserA.enterprise.attrs.all = [UserA.employeeNumberA, UserA.costCenterA, UserA.divisionA, UserA.departmentA,
    UserA.organizationA, UserA.managerA] := rfl
  rw [he] at hp ⊢
  simp only [List.mem_cons, forall_eq_or_imp] at hp
  obtain ⟨_, _, _, _, _, hm, _⟩ := hp
  sym_list
  refine sym_cons (sym_complex rfl rfl hm ?_) sym_nil
  sym_list

theorem user_top_sym : AllSymmetric userSchema.attrs.top := by
  rw [allSymmetric_iff]
  intro a ha
  have := user_wf.top_all a ha
  rw [user_all] at this
  rcases List.mem_append.mp this with h | h
  · rw [user_core_all] at h
    exact sym_bind user_sym _ _ a h
  · exact sym_bind enterprise_sym _ _ a h

theorem user_noShadow : userSchema.NoShadow := by
  intro a ha b hb hae hbe
  have ha' := user_wf.top_all a ha
  have hb' := user_wf.top_all b hb
  rw [user_all] at ha' hb'
  obtain ⟨h1, _⟩ := bind_facts (urn := UserA.urn) (ext := false) user_decl
  obtain ⟨h2, _⟩ := bind_facts (urn := UserA.enterpriseUrn) (ext := true) enterprise_decl
  rw [user_core_all] at ha' hb'
  have ha1 : ∃ d ∈ (schemasAttr :: idAttr :: externalIdAttr :: metaAttr :: UserA.attrs), a.rep.attr = d.rep.attr := by
    rcases List.mem_append.mp ha' with h | h
    · obtain ⟨_, _, _, d, hd, e⟩ := h1 a h
      exact ⟨d, hd, e⟩
    · rw [(h2 a h).2.1] at hae; cases hae
  have hb1 : ∃ d ∈ UserA.enterprise.attrs.all, b.rep.attr = d.rep.attr := by
    rcases List.mem_append.mp hb' with h | h
    · rw [(h1 b h).2.1] at hbe; cases hbe
    · obtain ⟨_, _, _, d, hd, e⟩ := h2 b h
      exact ⟨d, hd, e⟩
  obtain ⟨d, hd, ed⟩ := ha1
  obtain ⟨e, he, ee⟩ := hb1
  rw [ed, ee]
  exact noClash_of userNames_eq (by decide +kernel) (urns := enterpriseNames.map (fun n => n.1.attr)) (by decide +kernel)
    d hd _ (by
      rw [← enterpriseNames_eq]
      exact List.mem_map.mpr ⟨(e.rep, e.subs.map (·.rep)), List.mem_map.mpr ⟨e, he, rfl⟩, rfl⟩)

theorem noShadow_of_noExt {s : Schema} (hs : s.WF) (he : s.exts = []) : s.NoShadow := by
  intro a _ b hb _ hbe
  have := hs.ext b hb hbe
  rw [he] at this
  cases this

theorem group_sym : Sym (schemasAttr :: idAttr :: externalIdAttr :: metaAttr :: [GroupA.displayNameA, GroupA.membersA]) := by
  have hp := group_decl.subs
  simp only [List.mem_cons, forall_eq_or_imp] at hp
  obtain ⟨_, _, _, hmeta, _, hmem, _⟩ := hp
  sym_list
  refine sym_cons (sym_complex rfl rfl hmeta sym_meta) ?_
  sym_list
  refine sym_cons (sym_complex rfl rfl hmem ?_) sym_nil
  sym_list

theorem group_top_sym : AllSymmetric GroupA.schema.attrs.top :=
  allSymmetric_iff.mpr (sym_schema (urn := GroupA.urn) group_sym)

theorem resourceType_decl : Declarations (schemasAttr :: ResourceTypeA.idA :: externalIdAttr :: metaAttr ::
    [ResourceTypeA.nameA, ResourceTypeA.descriptionA, ResourceTypeA.endpointA, ResourceTypeA.schemaA,
     ResourceTypeA.schemaExtensionsA]) := declarations_of resourceTypeNames_eq (by decide +kernel)

theorem resourceType_sym : Sym (schemasAttr :: ResourceTypeA.idA :: externalIdAttr :: metaAttr ::
    [ResourceTypeA.nameA, ResourceTypeA.descriptionA, ResourceTypeA.endpointA, ResourceTypeA.schemaA,
     ResourceTypeA.schemaExtensionsA]) := by
  have hp := resourceType_decl.subs
  simp only [List.mem_cons, forall_eq_or_imp] at hp
  obtain ⟨_, _, _, hmeta, _, _, _, _, hext, _⟩ := hp
  sym_list
  refine sym_cons (sym_complex rfl rfl hmeta sym_meta) ?_
  sym_list
  refine sym_cons (sym_complex rfl rfl hext ?_) sym_nil
  sym_list

theorem resourceType_top_sym : AllSymmetric ResourceTypeA.schema.attrs.top :=
  allSymmetric_iff.mpr (sym_schema (urn := ResourceTypeA.urn) resourceType_sym)

theorem config_decl : Declarations (schemasAttr :: ConfigA.idA :: externalIdAttr :: metaAttr ::
    [ConfigA.documentationUriA, ConfigA.patchA, ConfigA.bulkA, ConfigA.filterA,
     ConfigA.changePasswordA, ConfigA.sortA, ConfigA.etagA, ConfigA.authenticationSchemesA]) :=
  declarations_of configNames_eq (by decide +kernel)

theorem config_sym : Sym (schemasAttr :: ConfigA.idA :: externalIdAttr :: metaAttr ::
    [ConfigA.documentationUriA, ConfigA.patchA, ConfigA.bulkA, ConfigA.filterA,
     ConfigA.changePasswordA, ConfigA.sortA, ConfigA.etagA, ConfigA.authenticationSchemesA]) := by
  have hp := config_decl.subs
  simp only [List.mem_cons, forall_eq_or_imp] at hp
  obtain ⟨_, _, _, hmeta, _, h1, h2, h3, h4, h5, h6, h7, _⟩ := hp
  sym_list
  refine sym_cons (sym_complex rfl rfl hmeta sym_meta) ?_
  sym_list
  refine sym_cons (sym_complex rfl rfl h1 ?_) (sym_cons (sym_complex rfl rfl h2 ?_) (sym_cons (sym_complex rfl rfl h3 ?_)
    (sym_cons (sym_complex rfl rfl h4 ?_) (sym_cons (sym_complex rfl rfl h5 ?_) (sym_cons (sym_complex rfl rfl h6 ?_)
    (sym_cons (sym_complex rfl rfl h7 ?_) sym_nil))))))
  all_goals sym_list

theorem config_top_sym : AllSymmetric ConfigA.schema.attrs.top :=
  allSymmetric_iff.mpr (sym_schema (urn := ConfigA.urn) config_sym)

/-! ### The type of the resource -/

theorem resourceType_process {m : Mode} {x z : Val} {i : Issues} (h : resourceTypeAttr.process m x = .ok (z, i))
    (hn : i.hasIssues = false) : z = x ∧ (z = .null ∨ ∃ t, z = .str t) := by
  obtain ⟨j, hj, ht, hm, hv, hp⟩ : ∃ j, resourceTypeAttr = .simple j ∧ j.type = .string ∧ j.multi = false ∧
      j.validateCanon = false ∧ j.procs m = [] := ⟨_, rfl, rfl, rfl, rfl, by cases m <;> rfl⟩
  rw [hj, Attr.process] at h
  unfold AttrInfo.process at h
  split at h
  · rename_i hnone
    have e1 := (Prod.mk.inj (Except.ok.inj h)).1
    subst e1
    refine ⟨rfl, .inl ?_⟩
    cases x with
    | prim p => cases p <;> simp [Val.isNone] at hnone; rfl
    | _ => simp [Val.isNone] at hnone
  · simp only [hm, Bool.false_eq_true, if_false, AttrInfo.processOne, ht, conv_parse (t := .string) (by decide) m,
      AttrType.parse, hv, Bool.and_false, hp, runProcs, ite_self] at h
    have hx : (∃ t, x = .str t) ∨ stringConv x = .ok badType := by
      cases x with
      | prim p => cases p <;> first | exact .inr rfl | exact .inl ⟨_, rfl⟩
      | _ => exact .inr rfl
    rcases hx with ⟨t, rfl⟩ | hx
    · have e1 := (Prod.mk.inj (Except.ok.inj h)).1
      exact ⟨e1.symm, .inr ⟨t, e1.symm⟩⟩
    · rw [hx] at h
      have e2 := (Prod.mk.inj (Except.ok.inj h)).2
      subst e2
      cases ((hasIssues_merge_false _ _ _).mp hn).2

/-- Reading the sub-attribute goes through the attribute. -/
theorem read_metaType {urn : Str} {d lc} (hn : aget (lower urn) lc = none) {y : Val}
    (hy : (Val.cont d lc).getItem { schema := urn, attr := "meta".toList } = .ok y) :
    (Val.cont d lc).getItem (metaTypeRep urn) =
      if y.isCont then y.getItem { attr := "resourceType".toList } else Val.getX true y { attr := "resourceType".toList } := by
  unfold metaTypeRep
  rw [V.getItem_sub_noKey hn (by simp), hy]
  simp only
  split
  · rename_i hc; exact getX_true_getItem hc isAttrName_resourceType
  · rfl

/-- Dumping keeps the type of the resource, and may be read off the result. -/
theorem metaType_dump {m : Mode} {s : Schema} (hs : s.WF) (hmeta : ∀ a ∈ bindWithSubs s.urn false metaAttr, a ∈ s.attrs.all)
    {data w : Val} {is : Issues} (h : s.process m data = .ok (w, is)) (hn : is.hasIssues = false) :
    ∃ u, w.getItem (metaTypeRep s.urn) = .ok u ∧ (u = .missing ∨ u = .null ∨ ∃ t, u = .str t) ∧
      (data.isCont = true → (∃ d lc, data = .cont d lc ∧ aget (lower s.urn) lc = none) →
        data.getItem (metaTypeRep s.urn) = .ok u) := by
  obtain ⟨hobj, _⟩ := process_noIssues h hn
  obtain ⟨htr, ⟨d, lc, rfl, hnk⟩, _⟩ := process_spec hs hobj h
  have hmem := boundMeta_mem hs hmeta
  have hrep := boundMeta_rep s.urn
  obtain ⟨x, hx⟩ := htr.read _ hmem
  cases hmx : x.isMissing with
  | true =>
    have : x = .missing := by cases x <;> simp [Val.isMissing] at hmx; rfl
    subst this
    have hab := htr.absent _ hmem (by rw [hrep]) hx
    rw [hrep] at hab hx
    refine ⟨.missing, by rw [read_metaType hnk hab]; rfl, .inl rfl, ?_⟩
    rintro _ ⟨d0, lc0, rfl, hn0⟩
    rw [read_metaType hn0 hx]
    rfl
  | false =>
    obtain ⟨y, i, hp, hg⟩ := htr.present _ hmem x hx hmx
    have hi := top_clean hs hobj h hn hmem hx hmx hp
    rw [hrep] at hg hx
    obtain ⟨g1, g2⟩ := meta_process m _ x y i hp
    cases hc : x.isCont with
    | false =>
      obtain ⟨j, hj, ht, hmu, hv, hp1, hp2, _⟩ := metaAttr_eq
      have hb : boundMeta s.urn = .complex { j with rep := { schema := s.urn, attr := "meta".toList }, description := [] } metaSubs [] [] := by
        unfold boundMeta; rw [hj]; rfl
      -- anything but an object is null
      have hxn : x = .null ∧ y = .null := by
        rw [hb, complex_process_eq] at hp
        have hd : ComplexDecl m { j with rep := { schema := s.urn, attr := "meta".toList }, description := [] } :=
          ⟨ht, hv, by cases m; exact hp1; exact hp2⟩
        generalize hk : ({ j with rep := { schema := s.urn, attr := "meta".toList }, description := [] } : AttrInfo) = k at hp hd
        have hkm : k.multi = false := by rw [← hk]; exact hmu
        rw [info_process_eq] at hp
        have hone := complex_one hd x
        unfold AttrInfo.one at hone
        simp only [AttrInfo.base, hkm, Bool.false_eq_true, if_false, hone, hd.procs, runProcs, ite_self] at hp
        rw [hc] at hp
        by_cases hxn : x.isNone = true
        · simp only [hxn, if_true, Bool.or_true] at hp
          have e1 := (Prod.mk.inj (Except.ok.inj hp)).1
          subst e1
          have : x = .null := by
            cases x <;> simp [Val.isNone] at hxn
            rename_i p; cases p <;> simp [Val.isNone] at hxn; rfl
          exact ⟨this, this⟩
        · have hcp : (Issues.empty.merge (blocking 2)).canProceed = false := by decide
          simp only [hxn, if_false, Bool.false_eq_true, hcp, Bool.not_false, Bool.true_or, if_true] at hp
          have e2 := (Prod.mk.inj (Except.ok.inj hp)).2
          subst e2
          cases hi
      obtain ⟨rfl, rfl⟩ := hxn
      refine ⟨.missing, by rw [read_metaType hnk hg]; rfl, .inl rfl, ?_⟩
      rintro _ ⟨d0, lc0, rfl, hn0⟩
      rw [read_metaType hn0 hx]
      rfl
    | true =>
      have hps := g2 hc
      have hres := subResult_of_processSubs metaSubs_plain hps
      obtain ⟨x', hx'⟩ := hres.read _ resourceTypeAttr_mem
      have hyc := hres.cont
      have hw : (Val.cont d lc).getItem (metaTypeRep s.urn) = y.getItem { attr := "resourceType".toList } := by
        rw [read_metaType hnk hg, if_pos hyc]
      cases hmx' : x'.isMissing with
      | true =>
        have : x' = .missing := by cases x' <;> simp [Val.isMissing] at hmx'; rfl
        subst this
        refine ⟨.missing, by rw [hw]; exact hres.absent _ resourceTypeAttr_mem hx', .inl rfl, ?_⟩
        rintro _ ⟨d0, lc0, rfl, hn0⟩
        rw [read_metaType hn0 hx, if_pos hc]
        exact hx'
      | false =>
        obtain ⟨z, i', hp', hg'⟩ := hres.present _ resourceTypeAttr_mem x' hx' hmx'
        have hi' : i'.hasIssues = false := by
          have hspec := hps
          rw [← mkCont_nil] at hspec
          obtain ⟨_, e2, _⟩ := processSubs_spec metaSubs [] x [] {} y i metaSubs_plain.plain
            (lower_nodup_attr metaSubs_plain.distinct) (by simp) hspec
          rw [e2] at hi
          exact (mergeSubs_clean hi).2.2 (resourceTypeAttr.rep.attr, z, i')
            (List.mem_filterMap.mpr ⟨_, resourceTypeAttr_mem, subOut_of hx' hmx' hp'⟩)
        obtain ⟨rfl, hk⟩ := resourceType_process hp' hi'
        refine ⟨z, by rw [hw]; exact hg', .inr hk, ?_⟩
        rintro _ ⟨d0, lc0, rfl, hn0⟩
        rw [read_metaType hn0 hx, if_pos hc]
        exact hx'

omit [PyEnv] in
theorem merge_17 (l : Loc) : (({} : Issues).merge (Issues.empty.add ⟨17, []⟩ true resourceTypeLoc)).errorsAt l =
    if l = resourceTypeLoc then [⟨17, []⟩] else [] := by
  rw [errorsAt_merge (WF.empty.add _ _ _)]
  simp only [errorsAt_empty, List.nil_append, List.nil_prefix, if_true, List.length_nil, List.drop_zero]
  rw [errorsAt_add]
  by_cases h : l = resourceTypeLoc
  · subst h; simp
  · rw [if_neg h, if_neg (fun e => h e.symm)]; rfl

/-- Dumping a resource that is accepted but for its type. -/
theorem dump_of_process {s : Schema} (hs : s.WF)
    (hmeta : s.isResource = true → ∀ a ∈ bindWithSubs s.urn false metaAttr, a ∈ s.attrs.all)
    {data w : Val} (h : s.process .dump data = .ok (w, {})) :
    ∃ is, s.dump data = .ok (w, is) ∧ (is = {} ∨ s.isResource = true ∧ (∀ l, is.errorsAt l = if l = resourceTypeLoc then [⟨17, []⟩] else []) ∧
        w.getItem (metaTypeRep s.urn) ≠ .ok .missing ∧ w.getItem (metaTypeRep s.urn) ≠ .ok (.str s.name)) := by
  unfold Schema.dump
  rw [h]
  simp only
  cases hr : s.isResource with
  | false => exact ⟨{}, by simp, .inl rfl⟩
  | true =>
    have hmeta := hmeta hr
    rw [if_neg (by simp), canProceed_empty, if_neg (by simp), canProceed_empty, if_pos rfl]
    obtain ⟨b, hb, hbr⟩ := getSub_resourceType hs hmeta
    rw [hb]
    simp only
    rw [hbr]
    obtain ⟨u, hu, hk, _⟩ := metaType_dump hs hmeta h rfl
    have hu' : w.getItem { schema := s.urn, attr := "meta".toList, sub := "resourceType".toList } = .ok u := hu
    rw [hu']
    rcases hk with rfl | rfl | ⟨t, rfl⟩
    · exact ⟨{}, rfl, .inl rfl⟩
    · simp only [Val.null, validateResourceType]
      rw [show (Val.prim Prim.none).pyEq (.str s.name) = .ok false from pyEq_null_str _]
      refine ⟨_, rfl, .inr ⟨by simp, merge_17, ?_, ?_⟩⟩
      · rw [hu]; intro e; cases e
      · rw [hu]; intro e; cases e
    · simp only [Val.str, validateResourceType]
      rw [show (Val.prim (Prim.str t)).pyEq (.prim (.str s.name)) = .ok (t == s.name) from pyEq_str_str _ _]
      cases he : t == s.name with
      | true => exact ⟨{}, by simp only [if_true]; rw [merge_noIssues _ _ rfl], .inl rfl⟩
      | false =>
        refine ⟨_, rfl, .inr ⟨by simp, merge_17, ?_, ?_⟩⟩
        · rw [hu]; intro e; cases e
        · rw [hu]; intro e; cases e; simp at he

end Scim
