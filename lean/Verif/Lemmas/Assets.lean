import Verif.Lemmas.Totality
import Verif.Model.Assets.User
import Verif.Model.Assets.Group
import Verif.Model.Assets.ResourceType
import Verif.Model.Assets.ServiceProviderConfig

/-! The declared schemas are sane, for every run-time library: names are ASCII, so distinctness up to letter
case is decided by evaluation. -/

namespace Scim

/-- ASCII lower-casing of a name. -/
def lowAscii (s : Str) : Str := s.map asciiLower

/-- ASCII text. -/
def asciiStr (s : Str) : Bool := s.all (fun c => c.toNat < 128)

/-- The names declared by a list of attributes. -/
def declNames (attrs : List Attr) : List (AttrRep × List AttrRep) := attrs.map (fun a => (a.rep, a.subs.map (·.rep)))

/-- Names are plain, not empty, ASCII, and distinct up to letter case. -/
def checkReps (rs : List AttrRep) : Bool :=
  rs.all (fun r => r.schema.isEmpty && r.sub.isEmpty && !r.ext && !r.attr.isEmpty && asciiStr r.attr) &&
  decide ((rs.map (fun r => lowAscii r.attr)).Nodup)

/-- The check for declarations. -/
def checkDecl (ns : List (AttrRep × List AttrRep)) : Bool :=
  checkReps (ns.map (·.1)) && ns.all (fun n => checkReps n.2)

/-- No declared name is spelled like one of the URNs. -/
def checkClash (ns : List (AttrRep × List AttrRep)) (urns : List Str) : Bool :=
  ns.all (fun n => urns.all (fun u => asciiStr u && decide (lowAscii n.1.attr ≠ lowAscii u)))

variable [PyEnv]

theorem lower_asciiStr {s : Str} (h : asciiStr s = true) : lower s = lowAscii s := by
  apply PyEnv.lower_ascii
  intro c hc
  have := List.all_eq_true.mp h c hc
  simpa using this

theorem checkReps_sound {as : List Attr} (h : checkReps (as.map (·.rep)) = true) :
    (∀ a ∈ as, a.rep.Plain ∧ a.rep.attr ≠ [] ∧ asciiStr a.rep.attr = true) ∧
    (as.map (fun a => lower a.rep.attr)).Nodup := by
  simp only [checkReps, Bool.and_eq_true, decide_eq_true_eq, List.all_map, List.map_map] at h
  have h1 : ∀ a ∈ as, a.rep.Plain ∧ a.rep.attr ≠ [] ∧ asciiStr a.rep.attr = true := by
    intro a ha
    have := List.all_eq_true.mp h.1 a ha
    simp only [Function.comp, Bool.and_eq_true, List.isEmpty_iff, Bool.not_eq_true'] at this
    obtain ⟨⟨⟨⟨a1, a2⟩, a3⟩, a4⟩, a5⟩ := this
    refine ⟨⟨a1, a2, a3⟩, ?_, a5⟩
    intro e; rw [e] at a4; simp at a4
  refine ⟨h1, ?_⟩
  have : as.map (fun a => lower a.rep.attr) = as.map ((fun r : AttrRep => lowAscii r.attr) ∘ fun a : Attr => a.rep) := by
    apply List.map_congr_left
    intro a ha
    exact lower_asciiStr (h1 a ha).2.2
  rw [this]
  exact h.2

theorem declarations_of {attrs : List Attr} {ns : List (AttrRep × List AttrRep)} (h : declNames attrs = ns)
    (hk : checkDecl ns = true) : Declarations attrs := by
  subst h
  simp only [checkDecl, declNames, Bool.and_eq_true, List.map_map] at hk
  have hk1 : checkReps (attrs.map (·.rep)) = true := hk.1
  obtain ⟨h1, h2⟩ := checkReps_sound hk1
  refine ⟨fun a ha => (h1 a ha).1, fun a ha => (h1 a ha).2.1, h2, ?_⟩
  intro a ha
  have := List.all_eq_true.mp hk.2 (a.rep, a.subs.map (·.rep)) (List.mem_map.mpr ⟨a, ha, rfl⟩)
  obtain ⟨s1, s2⟩ := checkReps_sound this
  exact ⟨fun a ha => (s1 a ha).1, fun a ha => (s1 a ha).2.1, s2⟩

theorem noClash_of {attrs : List Attr} {ns : List (AttrRep × List AttrRep)} {urns : List Str} (h : declNames attrs = ns)
    (hd : checkDecl ns = true) (hk : checkClash ns urns = true) :
    ∀ d ∈ attrs, ∀ u ∈ urns, lower d.rep.attr ≠ lower u := by
  subst h
  intro d hdm u hu
  simp only [checkDecl, declNames, Bool.and_eq_true, List.map_map] at hd
  have hk1 : checkReps (attrs.map (·.rep)) = true := hd.1
  have := List.all_eq_true.mp hk (d.rep, d.subs.map (·.rep)) (List.mem_map.mpr ⟨d, hdm, rfl⟩)
  have := List.all_eq_true.mp this u hu
  simp only [Bool.and_eq_true, decide_eq_true_eq] at this
  rw [lower_asciiStr ((checkReps_sound hk1).1 d hdm).2.2, lower_asciiStr this.1]
  exact this.2

/-! ### Processors -/

theorem procSane_bulkId : ProcSane bulkIdValidator := by
  intro v r is h
  unfold bulkIdValidator at h
  split at h
  · split at h <;> cases h
    · exact Issues.WF.empty.add _ _ _
    · exact Issues.WF.empty
  · cases h

theorem procSane_primary : ProcSane validateSinglePrimary := fun v r is h => (validateSinglePrimary_validates v r is h).2

theorem bind_standard {m : Mode} {a : Attr} (h : a.Standard m) (rep : AttrRep) : (bindAttr a rep).Standard m := by
  cases a with
  | simple i => exact h
  | complex i subs ps ds => exact h

theorem bind_sane {a : Attr} (h : a.Sane) (rep : AttrRep) : (bindAttr a rep).Sane := by
  cases a with
  | simple i => simpa only [bindAttr, Attr.Sane] using h
  | complex i subs ps ds => simpa only [bindAttr, Attr.Sane] using h

theorem subs_standard {m : Mode} {a : Attr} (h : a.Standard m) : ∀ s ∈ a.subs, s.Standard m := by
  cases a with
  | simple i => simp [Attr.subs]
  | complex i subs ps ds =>
    simp only [Attr.Standard] at h
    exact standardAll_iff.mp h.2.2.2.2.2

theorem subs_sane {a : Attr} (h : a.Sane) : ∀ s ∈ a.subs, s.Sane := by
  cases a with
  | simple i => simp [Attr.subs]
  | complex i subs ps ds =>
    simp only [Attr.Sane] at h
    exact saneAll_iff.mp h.2

/-- Every attribute of a list is sane and has standard processors. -/
def Good (as : List Attr) : Prop := ∀ a ∈ as, (∀ m, a.Standard m) ∧ a.Sane

theorem good_bind {as : List Attr} (h : Good as) (urn : Str) (ext : Bool) : Good (as.flatMap (bindWithSubs urn ext)) := by
  intro a ha
  rw [List.mem_flatMap] at ha
  obtain ⟨d, hd, hm⟩ := ha
  rcases mem_bindWithSubs.mp hm with rfl | ⟨s, hs, rfl⟩
  · exact ⟨fun m => bind_standard ((h d hd).1 m) _, bind_sane (h d hd).2 _⟩
  · exact ⟨fun m => bind_standard (subs_standard ((h d hd).1 m) s hs) _, bind_sane (subs_sane (h d hd).2 s hs) _⟩

theorem good_schema {urn : Str} {as : List Attr} (h : Good (schemasAttr :: as)) : Good (mkSchema urn as).attrs.top := by
  intro a ha
  exact good_bind h urn false a (List.mem_filter.mp ha).1

theorem good_simple {i : AttrInfo} (h1 : i.parsers = []) (h2 : i.dumpers = []) : (∀ m, (mkAttr i).Standard m) ∧ (mkAttr i).Sane := by
  constructor
  · intro m; cases m
    · exact .inl h1
    · exact .inl h2
  · intro p hp
    rcases hp with hp | hp
    · exact absurd (h1 ▸ hp) (by simp)
    · exact absurd (h2 ▸ hp) (by simp)

theorem good_complex {i : AttrInfo} {subs : List Attr} (h1 : i.parsers = []) (h2 : i.dumpers = [])
    (hs : PlainSubs (mkComplex i subs).subs) (hg : Good (mkComplex i subs).subs) :
    (∀ m, (mkComplex i subs).Standard m) ∧ (mkComplex i subs).Sane := by
  constructor
  · intro m
    refine ⟨rfl, rfl, by cases m <;> assumption, ?_, hs, standardAll_iff.mpr (fun a ha => (hg a ha).1 m)⟩
    intro p hp
    have hp' : p ∈ (if i.multi then [validateSinglePrimary] else []) := by cases m <;> exact hp
    cases hm : i.multi <;> simp [hm] at hp'
    exact ⟨hp', rfl⟩
  · refine ⟨?_, saneAll_iff.mpr (fun a ha => (hg a ha).2)⟩
    intro p hp
    have : p = validateSinglePrimary := by
      rcases hp with hp | hp | hp | hp
      · exact absurd (h1 ▸ hp) (by simp)
      · exact absurd (h2 ▸ hp) (by simp)
      · cases hm : i.multi <;> simp [hm] at hp; exact hp
      · cases hm : i.multi <;> simp [hm] at hp; exact hp
    subst this
    exact procSane_primary

theorem good_nil : Good [] := by simp [Good]

theorem good_cons {a : Attr} {as : List Attr} (h : (∀ m, a.Standard m) ∧ a.Sane) (hs : Good as) : Good (a :: as) := by
  intro b hb
  rcases List.mem_cons.mp hb with rfl | hb
  · exact h
  · exact hs b hb

theorem good_id : (∀ m, idAttr.Standard m) ∧ idAttr.Sane := by
  constructor
  · intro m; cases m <;> exact .inr ⟨rfl, rfl, rfl⟩
  · intro p hp
    have : p = bulkIdValidator := by rcases hp with hp | hp <;> simpa using hp
    subst this
    exact procSane_bulkId

/-- `∀ a ∈ …, Good`: split the list; simple attributes have no processors, sub-attributes are plain. -/
macro "good_list" : tactic => `(tactic| (repeat (first
  | exact good_nil
  | (refine good_cons (good_simple rfl rfl) ?_)
  | (refine good_cons good_id ?_))))

/-! ### User -/

/-- The names of the declared core attributes of `User`. -/
def userNames : List (AttrRep × List AttrRep) :=
  @declNames (@schemasAttr asciiEnv :: @idAttr asciiEnv :: @externalIdAttr asciiEnv :: @metaAttr asciiEnv :: @UserA.attrs asciiEnv)

theorem userNames_eq : declNames (schemasAttr :: idAttr :: externalIdAttr :: metaAttr :: UserA.attrs) = userNames := rfl

theorem user_decl : Declarations (schemasAttr :: idAttr :: externalIdAttr :: metaAttr :: UserA.attrs) :=
  declarations_of userNames_eq (by decide +kernel)

theorem user_core_wf : UserA.core.WF :=
  mkResource_wf user_decl (by decide +kernel)
    (fun d hd => noClash_of userNames_eq (by decide +kernel) (urns := [UserA.urn]) (by decide +kernel) d hd _ (by simp))

theorem user_good : Good (schemasAttr :: idAttr :: externalIdAttr :: metaAttr :: UserA.attrs) := by
  have hp := user_decl.subs
  unfold UserA.attrs at hp ⊢
  simp only [List.mem_cons, forall_eq_or_imp] at hp
  obtain ⟨_, _, _, hmeta, _, hname, _, _, _, _, _, _, _, _, _, _, hemails, hphones, hims, hphotos, haddr, hgroups, hent, hroles, hx509, _⟩ := hp
  refine good_cons (good_simple rfl rfl) (good_cons good_id (good_cons (good_simple rfl rfl)
    (good_cons (good_complex rfl rfl hmeta ?_) (good_cons (good_simple rfl rfl)
    (good_cons (good_complex rfl rfl hname ?_) ?_)))))
  · show Good metaSubs
    unfold metaSubs
    good_list
  · show Good [_, _, _, _, _, _]
    good_list
  · refine good_cons (good_simple rfl rfl) (good_cons (good_simple rfl rfl) (good_cons (good_simple rfl rfl)
      (good_cons (good_simple rfl rfl) (good_cons (good_simple rfl rfl) (good_cons (good_simple rfl rfl)
      (good_cons (good_simple rfl rfl) (good_cons (good_simple rfl rfl) (good_cons (good_simple rfl rfl)
      (good_cons (good_simple rfl rfl)
      (good_cons (good_complex rfl rfl hemails ?_) (good_cons (good_complex rfl rfl hphones ?_)
      (good_cons (good_complex rfl rfl hims ?_) (good_cons (good_complex rfl rfl hphotos ?_)
      (good_cons (good_complex rfl rfl haddr ?_) (good_cons (good_complex rfl rfl hgroups ?_)
      (good_cons (good_complex rfl rfl hent ?_) (good_cons (good_complex rfl rfl hroles ?_)
      (good_cons (good_complex rfl rfl hx509 ?_) good_nil))))))))))))))))))
    all_goals good_list

/-- The names of the enterprise extension. -/
def enterpriseNames : List (AttrRep × List AttrRep) := declNames (@UserA.enterprise asciiEnv).attrs.all

theorem enterpriseNames_eq : declNames UserA.enterprise.attrs.all = enterpriseNames := rfl

theorem enterprise_decl : Declarations UserA.enterprise.attrs.all :=
  declarations_of enterpriseNames_eq (by decide +kernel)

theorem enterprise_good : Good UserA.enterprise.attrs.all := by
  have hp := enterprise_decl.subs
  have he : UserA.enterprise.attrs.all = [UserA.employeeNumberA, UserA.costCenterA, UserA.divisionA, UserA.departmentA,
    UserA.organizationA, UserA.managerA] := rfl
  rw [he] at hp ⊢
  simp only [List.mem_cons, forall_eq_or_imp] at hp
  obtain ⟨_, _, _, _, _, hm, _⟩ := hp
  refine good_cons (good_simple rfl rfl) (good_cons (good_simple rfl rfl) (good_cons (good_simple rfl rfl)
    (good_cons (good_simple rfl rfl) (good_cons (good_simple rfl rfl) (good_cons (good_complex rfl rfl hm ?_) good_nil)))))
  good_list

/-- `User()`, the result of adding the extension. -/
def userSchema : Schema :=
  { UserA.core with
    exts := [(UserA.enterpriseUrn, false)]
    attrs := Attributes.ofList (UserA.core.attrs.all ++ UserA.enterprise.attrs.all.flatMap (bindWithSubs UserA.enterpriseUrn true)) }

theorem lower_user_urn : lower UserA.urn = lowAscii UserA.urn := lower_asciiStr (by decide +kernel)
theorem lower_enterprise_urn : lower UserA.enterpriseUrn = lowAscii UserA.enterpriseUrn := lower_asciiStr (by decide +kernel)

/-- `User()` does not raise. -/
theorem user_schema_eq : UserA.schema = .ok userSchema := by
  unfold UserA.schema Schema.withExtension
  rw [if_neg]
  · rfl
  · have hs : UserA.core.schemas = [UserA.urn] := rfl
    rw [hs]
    simp only [List.map_cons, List.map_nil, List.mem_singleton, lower_user_urn]
    show ¬UserA.enterpriseUrn = lowAscii UserA.urn
    decide +kernel

theorem enterprise_urn_ne : UserA.enterpriseUrn ≠ [] := by decide +kernel

theorem user_wf : userSchema.WF := by
  have hs : UserA.core.schemas = [UserA.urn] := rfl
  refine withExtension_wf (s := UserA.core) (e := UserA.enterprise) (req := false) user_core_wf user_schema_eq enterprise_decl
    enterprise_urn_ne ?_ ?_ ?_
  · have he : UserA.enterprise.urn = UserA.enterpriseUrn := rfl
    rw [hs, he]
    simp only [List.map_cons, List.map_nil, List.mem_singleton, lower_user_urn, lower_enterprise_urn]
    decide +kernel
  · intro d hd u hu
    rw [hs] at hu
    exact noClash_of enterpriseNames_eq (by decide +kernel) (urns := [UserA.enterpriseUrn, UserA.urn]) (by decide +kernel)
      d hd u hu
  · intro a ha
    obtain ⟨h1, h2⟩ := bind_facts (urn := UserA.urn) (ext := false) user_decl
    have hall : UserA.core.attrs.all = (schemasAttr :: idAttr :: externalIdAttr :: metaAttr :: UserA.attrs).flatMap
        (bindWithSubs UserA.urn false) := ofList_all (keys_of_lnames h2)
    rw [hall] at ha
    obtain ⟨_, _, _, d, hd, e⟩ := h1 a ha
    rw [e]
    exact noClash_of userNames_eq (by decide +kernel) (urns := [UserA.enterpriseUrn]) (by decide +kernel)
      d hd _ (by simp [UserA.enterprise])

theorem Good.sane {as : List Attr} (h : Good as) : SaneAll as := saneAll_iff.mpr (fun a ha => (h a ha).2)

/-- The bound `meta` attribute and its sub-attributes are part of a resource schema. -/
theorem meta_mem {urn : Str} {attrs : List Attr} {name : Str} {idA exA : Attr}
    (hd : Declarations (schemasAttr :: idA :: exA :: metaAttr :: attrs)) :
    ∀ a ∈ bindWithSubs urn false metaAttr, a ∈ (mkResource urn attrs name idA exA).attrs.all := by
  intro a ha
  obtain ⟨_, h2⟩ := bind_facts (urn := urn) (ext := false) hd
  have hall : (mkResource urn attrs name idA exA).attrs.all =
      (schemasAttr :: idA :: exA :: metaAttr :: attrs).flatMap (bindWithSubs urn false) := ofList_all (keys_of_lnames h2)
  rw [hall, List.mem_flatMap]
  exact ⟨metaAttr, by simp, ha⟩

theorem user_all : userSchema.attrs.all = UserA.core.attrs.all ++
    UserA.enterprise.attrs.all.flatMap (bindWithSubs UserA.enterpriseUrn true) := by
  apply ofList_all
  apply keys_of_lnames
  obtain ⟨h1, h2⟩ := bind_facts (urn := UserA.enterpriseUrn) (ext := true) enterprise_decl
  rw [List.map_append, List.nodup_append]
  refine ⟨user_core_wf.names, h2, ?_⟩
  intro x hx y hy exy
  subst exy
  rw [List.mem_map] at hx hy
  obtain ⟨a, ha, rfl⟩ := hx
  obtain ⟨b, hb, e⟩ := hy
  simp only [Attr.lname, Prod.mk.injEq] at e
  have ha' := user_core_wf.allSchema a ha
  have hs : UserA.core.schemas = [UserA.urn] := rfl
  rw [hs, List.mem_singleton] at ha'
  rw [(h1 b hb).1, ha', lower_user_urn, lower_enterprise_urn] at e
  exact absurd e.1 (by decide +kernel)

theorem user_core_all : UserA.core.attrs.all = (schemasAttr :: idAttr :: externalIdAttr :: metaAttr :: UserA.attrs).flatMap
    (bindWithSubs UserA.urn false) := by
  obtain ⟨_, h2⟩ := bind_facts (urn := UserA.urn) (ext := false) user_decl
  exact ofList_all (keys_of_lnames h2)

theorem user_top_good : Good userSchema.attrs.top := by
  intro a ha
  have := user_wf.top_all a ha
  rw [user_all] at this
  rcases List.mem_append.mp this with h | h
  · rw [user_core_all] at h
    exact good_bind user_good _ _ a h
  · exact good_bind enterprise_good _ _ a h

theorem user_meta_mem : ∀ a ∈ bindWithSubs userSchema.urn false metaAttr, a ∈ userSchema.attrs.all := by
  intro a ha
  rw [user_all]
  exact List.mem_append_left _ (meta_mem user_decl a ha)

/-! ### Group, ResourceType, ServiceProviderConfig -/

/-- The names of `Group`. -/
def groupNames : List (AttrRep × List AttrRep) :=
  @declNames (@schemasAttr asciiEnv :: @idAttr asciiEnv :: @externalIdAttr asciiEnv :: @metaAttr asciiEnv ::
    [@GroupA.displayNameA asciiEnv, @GroupA.membersA asciiEnv])

theorem groupNames_eq : declNames (schemasAttr :: idAttr :: externalIdAttr :: metaAttr :: [GroupA.displayNameA, GroupA.membersA]) =
    groupNames := rfl

theorem group_decl : Declarations (schemasAttr :: idAttr :: externalIdAttr :: metaAttr :: [GroupA.displayNameA, GroupA.membersA]) :=
  declarations_of groupNames_eq (by decide +kernel)

theorem group_wf : GroupA.schema.WF :=
  mkResource_wf group_decl (by decide +kernel)
    (fun d hd => noClash_of groupNames_eq (by decide +kernel) (urns := [GroupA.urn]) (by decide +kernel) d hd _ (by simp))

theorem group_good : Good (schemasAttr :: idAttr :: externalIdAttr :: metaAttr :: [GroupA.displayNameA, GroupA.membersA]) := by
  have hp := group_decl.subs
  simp only [List.mem_cons, forall_eq_or_imp] at hp
  obtain ⟨_, _, _, hmeta, _, hmem, _⟩ := hp
  refine good_cons (good_simple rfl rfl) (good_cons good_id (good_cons (good_simple rfl rfl)
    (good_cons (good_complex rfl rfl hmeta ?_) (good_cons (good_simple rfl rfl)
    (good_cons (good_complex rfl rfl hmem ?_) good_nil)))))
  all_goals good_list

theorem group_top_good : Good GroupA.schema.attrs.top := good_schema (urn := GroupA.urn) group_good

/-- The names of `ServiceProviderConfig`. -/
def configNames : List (AttrRep × List AttrRep) :=
  @declNames (@schemasAttr asciiEnv :: @ConfigA.idA asciiEnv :: @externalIdAttr asciiEnv :: @metaAttr asciiEnv ::
    [@ConfigA.documentationUriA asciiEnv, @ConfigA.patchA asciiEnv, @ConfigA.bulkA asciiEnv, @ConfigA.filterA asciiEnv,
     @ConfigA.changePasswordA asciiEnv, @ConfigA.sortA asciiEnv, @ConfigA.etagA asciiEnv, @ConfigA.authenticationSchemesA asciiEnv])

theorem configNames_eq : declNames (schemasAttr :: ConfigA.idA :: externalIdAttr :: metaAttr ::
    [ConfigA.documentationUriA, ConfigA.patchA, ConfigA.bulkA, ConfigA.filterA,
     ConfigA.changePasswordA, ConfigA.sortA, ConfigA.etagA, ConfigA.authenticationSchemesA]) = configNames := rfl

theorem config_wf : ConfigA.schema.WF :=
  mkResource_wf (declarations_of configNames_eq (by decide +kernel)) (by decide +kernel)
    (fun d hd => noClash_of configNames_eq (by decide +kernel) (urns := [ConfigA.urn]) (by decide +kernel) d hd _ (by simp))

/-- The names of `ResourceType`. -/
def resourceTypeNames : List (AttrRep × List AttrRep) :=
  @declNames (@schemasAttr asciiEnv :: @ResourceTypeA.idA asciiEnv :: @externalIdAttr asciiEnv :: @metaAttr asciiEnv ::
    [@ResourceTypeA.nameA asciiEnv, @ResourceTypeA.descriptionA asciiEnv, @ResourceTypeA.endpointA asciiEnv,
     @ResourceTypeA.schemaA asciiEnv, @ResourceTypeA.schemaExtensionsA asciiEnv])

theorem resourceTypeNames_eq : declNames (schemasAttr :: ResourceTypeA.idA :: externalIdAttr :: metaAttr ::
    [ResourceTypeA.nameA, ResourceTypeA.descriptionA, ResourceTypeA.endpointA, ResourceTypeA.schemaA,
     ResourceTypeA.schemaExtensionsA]) = resourceTypeNames := rfl

theorem resourceType_wf : ResourceTypeA.schema.WF :=
  mkResource_wf (declarations_of resourceTypeNames_eq (by decide +kernel)) (by decide +kernel)
    (fun d hd => noClash_of resourceTypeNames_eq (by decide +kernel) (urns := [ResourceTypeA.urn]) (by decide +kernel) d hd _ (by simp))

attribute [irreducible] userSchema

end Scim
