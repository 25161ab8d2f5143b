import Verif.Lemmas.SchemaRep
import Verif.Lemmas.Assets
import Verif.Lemmas.BulkRequest
import Verif.Props.Schemas

/-! The Schema resource as a whole. -/

namespace Scim
variable [PyEnv]
open SchemaA Issues

omit [PyEnv] in
theorem mergeAll_quiet {acc : Issues} {outs : List (Loc × Issues)} (h : ∀ o ∈ outs, o.2.hasIssues = false) :
    mergeAll acc outs = acc := by
  induction outs generalizing acc with
  | nil => rfl
  | cons o outs ih =>
    have : mergeAll acc (o :: outs) = mergeAll (acc.merge o.2 o.1) outs := rfl
    rw [this, merge_noIssues _ _ (h o (by simp))]
    exact ih (fun q hq => h q (List.mem_cons_of_mem _ hq))

/-- An accepted object has accepted attributes. -/
theorem top_clean {m : Mode} {s : Schema} (hs : s.WF) {data r : Val} {is : Issues}
    (hobj : (data.isCont || data.isDict) = true) (h : s.process m data = .ok (r, is)) (hn : is.hasIssues = false)
    {a : Attr} (ha : a ∈ s.attrs.top) {x y : Val} {i : Issues} (hx : data.toCont.getItem a.rep = .ok x)
    (hm : x.isMissing = false) (hp : a.process m x = .ok (y, i)) : i.hasIssues = false := by
  obtain ⟨_, _, is1, hi1, sv, hsv, hcase⟩ := process_spec hs hobj h
  have hn1 : is1.hasIssues = false := by
    rcases hcase with ⟨_, xs, is2, _, _, rfl⟩ | ⟨_, rfl⟩
    · exact ((hasIssues_merge_false _ _ _).mp hn).1
    · exact hn
  rw [hi1, hasIssues_merge_false] at hn1
  cases hi : i.hasIssues with
  | false => rfl
  | true =>
    have := (mergeAll_hasIssues ((s.attrs.top.filterMap (topOut m data.toCont)).map
      (fun o => (o.1.topLoc, o.2.2))) {}).mpr (.inr ⟨(a.topLoc, i), ?_, hi⟩)
    · rw [this] at hn1; simp at hn1
    · rw [List.mem_map]
      exact ⟨(a, y, i), List.mem_filterMap.mpr ⟨a, ha, topOut_of hx hm hp⟩, rfl⟩

/-- A core attribute of a result may be read without its schema. -/
theorem top_has {m : Mode} {s : Schema} (hs : s.WF) {data r : Val} (ht : TopResult m s data r) (hr : r.Reach)
    (hk : ∃ d lc, r = .cont d lc ∧ aget (lower s.urn) lc = none) (n : Str) :
    r.getItem { attr := n } = r.getItem { schema := s.urn, attr := n } := by
  obtain ⟨d, lc, rfl, hnk⟩ := hk
  obtain ⟨d', lc', e, hc⟩ := hr.inv
  cases e
  have h0 : aget (lower []) lc = none := by
    cases hg : aget (lower []) lc with
    | none => rfl
    | some k =>
      exfalso
      have h1 := hc.sound _ _ hg
      have h2 := ht.declared k h1.2
      rcases h2 with ⟨a, ha, _, rfl⟩ | ⟨a, ha, he, rfl⟩
      · exact lower_ne_nil (hs.named a (hs.top_all a ha)) h1.1.symm
      · exact lower_ne_nil (hs.urnNe _ (List.mem_cons_of_mem _ (hs.ext a ha he))) h1.1.symm
  rw [getItem_noKey (r := { attr := n }) h0, getItem_noKey (r := { schema := s.urn, attr := n }) hnk]

omit [PyEnv] in
theorem extKeysLoop_quiet {known listed : List Str} (h : ∀ k ∈ known, k ∈ listed) :
    ∀ (ks : List Str) (acc : Issues) [PyEnv], extKeysLoop known listed ks acc = acc := by
  intro ks
  induction ks with
  | nil => intro acc _; rfl
  | cons k ks ih =>
    intro acc _
    rw [extKeysLoop, if_neg (fun hh => hh.2 (h _ hh.1))]
    exact ih _

/-- An object that lists exactly the schema itself is accepted when its attributes are. -/
theorem process_quiet {m : Mode} {s : Schema} (hs : s.WF) (hex : s.exts = []) {data : Val}
    (hobj : (data.isCont || data.isDict) = true)
    (hok : ∀ a ∈ s.attrs.top, ∃ x, data.toCont.getItem a.rep = .ok x ∧
      (x.isMissing = false → ∃ y, a.process m x = .ok (y, {})))
    (hsch : data.toCont.getItem { schema := s.urn, attr := "schemas".toList } = .ok (.list [.str s.urn])) :
    ∃ r, s.process m data = .ok (r, {}) := by
  have hnone : data.isNone = false := by
    cases data <;> simp [Val.isCont, Val.isDict] at hobj <;> rfl
  obtain ⟨⟨r, is⟩, hpt⟩ := processTop_total (m := m) s.attrs.top data.toCont [] [] [] {} PInv.nil hs.sub hs.compat
    (by simp) (by
      intro a ha
      obtain ⟨x, hx, hp⟩ := hok a ha
      exact ⟨x, hx, fun hm => by obtain ⟨y, hy⟩ := hp hm; exact ⟨_, hy⟩⟩)
  obtain ⟨⟨d', lc', rfl, hinv⟩, h2, h3⟩ := processTop_spec s.attrs.top data.toCont [] [] [] {} r is PInv.nil hs.sub
      hs.compat (by simp) hpt
  have hq : is = {} := by
    rw [h2]
    apply mergeAll_quiet
    intro o ho
    obtain ⟨o', ho', rfl⟩ := List.mem_map.mp ho
    obtain ⟨a, ha, hto⟩ := List.mem_filterMap.mp ho'
    obtain ⟨_, x, hx, hm, hp⟩ := topOut_spec hto
    obtain ⟨x', hx', hp'⟩ := hok a ha
    rw [hx] at hx'; cases hx'
    obtain ⟨y, hy⟩ := hp' hm
    rw [hp] at hy
    have : o'.2.2 = {} := (Prod.mk.inj (Except.ok.inj hy)).2
    simp only [this]; rfl
  subst hq
  rw [List.nil_append] at hinv
  have htr := topResult_of_PInv hs hinv h3
  have hsa := hs.schemas_mem
  have hpr := schemas_process m { schema := s.urn, attr := "schemas".toList } [s.urn]
  obtain ⟨y, i, hp, hg⟩ := htr.present _ hsa (.list [.str s.urn]) (by rw [bindAttr_rep]; exact hsch) rfl
  have hy : y = .list [.str s.urn] := by
    have := hp.symm.trans hpr
    exact (Prod.mk.inj (Except.ok.inj this)).1
  subst hy
  rw [bindAttr_rep] at hg
  refine ⟨.cont d' lc', ?_⟩
  unfold Schema.process
  rw [hnone, hobj]
  simp only [Bool.false_eq_true, if_false, Bool.not_true]
  have hpt' : processTop m s.attrs.top data.toCont .emptyCont {} = .ok (.cont d' lc', {}) := hpt
  rw [hpt']
  simp only
  rw [hs.getTop_schemas]
  simp only [bindAttr_rep]
  rw [hg]
  simp only
  have e1 : (Issues.empty.merge {}) = ({} : Issues) := merge_noIssues _ _ rfl
  rw [e1]
  have e2 : (({} : Issues).canProceed [schemasLoc] && (Val.list [Val.str s.urn]).truthy) = true := by
    rw [canProceed_empty]; rfl
  rw [e2]
  simp only [if_true]
  have e3 : validateSchemasField (.cont d' lc') [.str s.urn] s.urn s.schemas = .ok {} := by
    have hs1 : s.schemas = [s.urn] := by simp [Schema.schemas, hex]
    rw [hs1]
    unfold validateSchemasField
    have : lowerAll [Val.str s.urn] = .ok [lower s.urn] := rfl
    rw [this]
    simp only [List.map_cons, List.map_nil, schemasLoop, if_true]
    rw [extKeysLoop_quiet (by simp)]
  rw [e3]
  simp only
  rw [merge_noIssues _ _ rfl]

/-- The declarations of `Schema`. -/
def schemaDefNames : List (AttrRep × List AttrRep) :=
  @declNames (@schemasAttr asciiEnv :: @SchemaA.idA asciiEnv :: @externalIdAttr asciiEnv :: @metaAttr asciiEnv ::
    [@SchemaA.nameA asciiEnv, @SchemaA.descriptionA asciiEnv, @SchemaA.attributesA asciiEnv 0])

theorem schemaDefNames_eq (depth : Nat) : declNames (schemasAttr :: SchemaA.idA :: externalIdAttr :: metaAttr ::
    [SchemaA.nameA, SchemaA.descriptionA, SchemaA.attributesA depth]) = schemaDefNames := rfl

theorem schemaDef_wf (depth : Nat) : (SchemaA.schema depth).WF :=
  mkResource_wf (declarations_of (schemaDefNames_eq depth) (by decide +kernel)) (by decide +kernel)
    (fun d hd => noClash_of (schemaDefNames_eq depth) (by decide +kernel) (urns := [schemaUrn]) (by decide +kernel) d hd _ (by simp))

/-- What `meta` makes of an object whose sub-attributes are accepted. -/
theorem meta_quiet (m : Mode) (rep : AttrRep) {x y : Val} (hx : x.isCont = true)
    (h : processSubs m metaSubs [] x .emptyCont {} = .ok (y, {})) :
    (bindAttr metaAttr rep).process m x = .ok (y, {}) := by
  obtain ⟨j, hj, ht, hm, hv, hp1, hp2, _⟩ := metaAttr_eq
  have hb : bindAttr metaAttr rep = .complex { j with rep := rep, description := [] } metaSubs [] [] := by rw [hj]; rfl
  rw [hb, complex_process_eq]
  have hd : ComplexDecl m { j with rep := rep, description := [] } := ⟨ht, hv, by cases m; exact hp1; exact hp2⟩
  generalize hk : ({ j with rep := rep, description := [] } : AttrInfo) = k at hd ⊢
  have hkm : k.multi = false := by rw [← hk]; exact hm
  rw [info_process_eq]
  have hone := complex_one hd x
  unfold AttrInfo.one at hone
  have hn : x.isNone = false := by cases x <;> simp [Val.isCont] at hx <;> rfl
  have htc : x.toCont = x := by cases x <;> simp [Val.isCont] at hx <;> rfl
  have hcp : Issues.canProceed {} = true := by decide
  simp only [AttrInfo.base, hkm, Bool.false_eq_true, if_false, hone, hd.procs, runProcs, ite_self,
    hx, hn, if_true, hcp, Bool.not_true, Bool.or_false, complexBody, Attr.cprocs, htc, h]
  cases m <;> rfl

/-- The names in the dictionary of a schema, and the other names of the Schema resource. -/
def repNames : List Str :=
  ["id".toList, "schemas".toList, "name".toList, "description".toList, "attributes".toList, "meta".toList,
   "externalId".toList]

theorem repNames_unconfused : Unconfused repNames := unconfused_of (by decide +kernel)

theorem repNames_urn : ∀ k ∈ repNames, lower k ≠ lower schemaUrn := by
  intro k hk
  refine lower_ne_ascii ?_ (by decide +kernel) ?_
  · revert k; decide +kernel
  · revert k; decide +kernel

/-- The dictionary of a schema. -/
def repEntries (s : Schema) (ds : List Val) : List (Str × Val) :=
  [("id".toList, .str s.urn), ("schemas".toList, .list [.str schemaUrn]), ("name".toList, .str s.name),
   ("description".toList, .str s.description), ("attributes".toList, .list ds),
   ("meta".toList, .dict [("resourceType".toList, .str "Schema".toList)])]

theorem repEntries_keys (s : Schema) (ds : List Val) : (repEntries s ds).map (·.1) =
    ["id".toList, "schemas".toList, "name".toList, "description".toList, "attributes".toList, "meta".toList] := rfl

theorem rep_read (s : Schema) (ds : List Val) {n : Str} (hn : n ∈ repNames) {o : Option Val}
    (ho : aget n (repEntries s ds) = o) :
    (Val.dict (repEntries s ds)).toCont.getItem { schema := schemaUrn, attr := n } = .ok (readEntry o) := by
  have := dict_read (es := repEntries s ds) repNames_unconfused
    (by rw [repEntries_keys]; decide) (by rw [repEntries_keys]; decide)
    (r := { schema := schemaUrn, attr := n }) rfl hn repNames_urn
  refine this.trans ?_
  simp only [ho]
  cases o <;> rfl

/-- The names of the sub-attributes of `meta`. -/
def metaNames : List Str :=
  ["resourceType".toList, "created".toList, "lastModified".toList, "location".toList, "version".toList]

theorem metaNames_unconfused : Unconfused metaNames := unconfused_of (by decide +kernel)

/-- The `meta` of a schema's dictionary. -/
def repMeta : Val :=
  .cont (convPairs [("resourceType".toList, .str "Schema".toList)]) (lcOf ["resourceType".toList])

theorem meta_read {n : Str} (hn : n ∈ metaNames) : repMeta.getItem { attr := n } =
    .ok (readEntry (aget n [("resourceType".toList, Val.str "Schema".toList)])) := by
  have := dict_read (es := [("resourceType".toList, Val.str "Schema".toList)]) metaNames_unconfused
    (by decide) (by simp) (r := { attr := n }) rfl hn (by
      intro k hk
      apply lower_ne_nil
      revert k; decide)
  refine this.trans ?_
  cases aget n [("resourceType".toList, Val.str "Schema".toList)] <;> rfl

theorem metaSubs_names : metaSubs.map (·.rep) = metaNames.map (fun n => ({ attr := n } : AttrRep)) := rfl

/-- The `meta` of a schema's dictionary is accepted. -/
theorem repMeta_quiet : ∃ y, processSubs .dump metaSubs [] repMeta .emptyCont {} = .ok (y, {}) ∧
    y.getItem { attr := "resourceType".toList } = .ok (.str "Schema".toList) := by
  have hrt : resourceTypeAttr.process .dump (.str "Schema".toList) = .ok (.str "Schema".toList, {}) :=
    string_quiet rfl rfl rfl (fun h => by cases h)
  have hread : ∀ s ∈ metaSubs, ∃ x, repMeta.getItem s.rep = .ok x ∧
      (x.isMissing = false → ∃ y, s.process .dump x = .ok (y, {})) := by
    intro s hs
    have h1 : s.rep ∈ metaSubs.map (·.rep) := List.mem_map_of_mem hs
    have h2 := h1
    rw [metaSubs_names, List.mem_map] at h2
    obtain ⟨n, hn, e⟩ := h2
    refine ⟨_, by rw [← e]; exact meta_read hn, ?_⟩
    intro hm
    by_cases hr : n = "resourceType".toList
    · subst hr
      have : s = resourceTypeAttr := by
        simp only [metaSubs, List.mem_cons, List.not_mem_nil, or_false] at hs
        rcases hs with rfl | rfl | rfl | rfl | rfl
        · rfl
        all_goals (exact absurd (congrArg AttrRep.attr e) (by simp [mkAttr, Attr.rep, Attr.info]))
      subst this
      exact ⟨_, hrt⟩
    · rw [aget_one, if_neg hr] at hm
      cases hm
  obtain ⟨y, hy⟩ := processSubs_quiet metaSubs [] repMeta [] {} metaSubs_plain.plain (lower_nodup_attr metaSubs_plain.distinct) (by simp) hread
  rw [mkCont_nil] at hy
  refine ⟨y, hy, ?_⟩
  have hsr := subResult_of_processSubs metaSubs_plain hy
  obtain ⟨w, iw, hpw, hw⟩ := hsr.present _ resourceTypeAttr_mem (.str "Schema".toList) (meta_read (by decide)) rfl
  rw [hrt] at hpw
  rw [← (Prod.mk.inj (Except.ok.inj hpw)).1] at hw
  exact hw

theorem schemaDef_decls (depth : Nat) : Declarations (schemasAttr :: SchemaA.idA :: externalIdAttr :: metaAttr ::
    [SchemaA.nameA, SchemaA.descriptionA, SchemaA.attributesA depth]) :=
  declarations_of (schemaDefNames_eq depth) (by decide +kernel)

theorem schemaDef_meta (depth : Nat) : ∀ a ∈ bindWithSubs (SchemaA.schema depth).urn false metaAttr,
    a ∈ (SchemaA.schema depth).attrs.all := meta_mem (schemaDef_decls depth)

/-- The top-level attributes of the Schema resource. -/
theorem schemaDef_top (depth : Nat) {a : Attr} (ha : a ∈ (SchemaA.schema depth).attrs.top) :
    ∃ d ∈ [schemasAttr, SchemaA.idA, externalIdAttr, metaAttr, SchemaA.nameA, SchemaA.descriptionA,
      SchemaA.attributesA depth], a = bindAttr d { schema := schemaUrn, attr := d.rep.attr } := by
  refine mkSchema_top_named (as := [SchemaA.idA, externalIdAttr, metaAttr, SchemaA.nameA, SchemaA.descriptionA,
      SchemaA.attributesA depth]) ?_ ha
  intro d hd s hs
  simp only [List.mem_cons, List.not_mem_nil, or_false] at hd
  rcases hd with rfl | rfl | rfl | rfl | rfl | rfl
  · cases hs
  · cases hs
  · obtain ⟨j, hj, _⟩ := metaAttr_eq
    rw [hj] at hs
    exact metaSubs_plain.named s hs
  · cases hs
  · cases hs
  · obtain ⟨j, hj, _⟩ := attributesWith_eq (nestedDump depth)
    rw [attributesA, hj] at hs
    exact attributesSubs_plain.named s hs

theorem schemaDef_mem (depth : Nat) {d : Attr} (hd : d ∈ [SchemaA.idA, externalIdAttr, metaAttr, SchemaA.nameA,
      SchemaA.descriptionA, SchemaA.attributesA depth]) :
    bindAttr d { schema := schemaUrn, attr := d.rep.attr } ∈ (SchemaA.schema depth).attrs.top := mkSchema_mem hd

/-- The bound `attributes` attribute. -/
theorem boundAttributes (depth : Nat) : ∃ info, bindAttr (attributesA depth) { schema := schemaUrn, attr := "attributes".toList } =
    .complex info attributesSubs [validateSinglePrimary] [dumpAttributes (nestedDump depth), validateSinglePrimary] ∧
    ComplexDecl .dump info ∧ info.multi = true := by
  obtain ⟨info, e, hd, hm, _⟩ := attributesWith_eq (nestedDump depth)
  exact ⟨{ info with rep := { schema := schemaUrn, attr := "attributes".toList }, description := [] },
    by rw [attributesA, e]; rfl, ⟨(hd .dump).type, (hd .dump).canon, (hd .dump).procs⟩, hm⟩

theorem attributesA_name (depth : Nat) : (attributesA depth).rep.attr = "attributes".toList := by
  obtain ⟨info, e, _, _, hr⟩ := attributesWith_eq (nestedDump depth)
  rw [attributesA, e]
  show info.rep.attr = _
  rw [hr]

theorem metaAttr_name : metaAttr.rep.attr = "meta".toList := by
  obtain ⟨j, hj, _, _, _, _, _, hrep⟩ := metaAttr_eq
  rw [hj]; exact hrep

/-- What an accepted Schema resource holds. -/
theorem schemaDef_consistent {depth : Nat} {data r : Val} {is : Issues}
    (h : (SchemaA.schema depth).dump data = .ok (r, is)) (hn : is.hasIssues = false) :
    ∃ v, r.Has "attributes".toList v ∧ (v.Unset ∨ ∃ ys, v = .list ys ∧ ∀ y ∈ ys, ConsistentDoc y) := by
  obtain ⟨hobj, hr, hp⟩ := dump_noIssues h hn
  have hwf := schemaDef_wf depth
  obtain ⟨htr, hk, _⟩ := process_spec hwf hobj hp
  have hmem := schemaDef_mem depth (d := attributesA depth) (by simp)
  rw [attributesA_name] at hmem
  obtain ⟨info, e, hd, hm⟩ := boundAttributes depth
  obtain ⟨x, hx⟩ := htr.read _ hmem
  have hhas := fun n => top_has hwf htr hr hk n
  have hrep : (bindAttr (attributesA depth) { schema := schemaUrn, attr := "attributes".toList }).rep =
    { schema := schemaUrn, attr := "attributes".toList } := bindAttr_rep _ _
  have hext : (bindAttr (attributesA depth) { schema := schemaUrn, attr := "attributes".toList }).rep.ext = false := by
    rw [hrep]
  by_cases hxm : x = .missing
  · subst hxm
    have := htr.absent _ hmem hext hx
    rw [hrep] at this
    exact ⟨.missing, (hhas _).trans this, .inl (.inl rfl)⟩
  · have hxm' : x.isMissing = false := by cases x <;> first | exact absurd rfl hxm | rfl
    obtain ⟨y, i, hpr, hget⟩ := htr.present _ hmem x hx hxm'
    have hi := top_clean hwf hobj hp hn hmem hx hxm' hpr
    rw [hrep] at hget
    rw [e] at hpr
    refine ⟨y, (hhas _).trans hget, ?_⟩
    rcases attributes_consistent (nestedDump_consistent depth) hd hm hpr hi with ⟨_, rfl⟩ | h
    · exact .inl (.inr rfl)
    · exact .inr h

/-- The representation of a schema is accepted, and says what the schema is. -/
theorem schemaDef_accepts {depth : Nat} {s : Schema} (hdoc : DocumentableAll s.attrs.top)
    (hnest : nestingAll s.attrs.top ≤ depth) : ∃ rep r ys, getSchemaRep s = .ok rep ∧
      (SchemaA.schema depth).dump rep = .ok (r, {}) ∧
      r.Has "id".toList (.str s.urn) ∧ r.Has "name".toList (.str s.name) ∧
      r.Has "description".toList (.str s.description) ∧ r.Has "schemas".toList (.list [.str schemaUrn]) ∧
      r.Has "attributes".toList (.list ys) ∧ AllDescribedBy s.attrs.top ys := by
  obtain ⟨ds, hds⟩ := attrDicts_total _ hdoc
  have hrep : getSchemaRep s = .ok (.dict (repEntries s ds)) := by
    unfold getSchemaRep; rw [hds]; rfl
  have hwf := schemaDef_wf depth
  obtain ⟨info, hbe, hcd, hmu⟩ := boundAttributes depth
  obtain ⟨ys, hys, hdesc⟩ := rep_passes depth s.attrs.top hdoc hnest ds hds info [validateSinglePrimary] hcd hmu
  rw [← hbe] at hys
  obtain ⟨my, hmy, hmyr⟩ := repMeta_quiet
  have r1 := rep_read s ds (n := "id".toList) (by decide) (o := some (.str s.urn)) rfl
  have r2 := rep_read s ds (n := "schemas".toList) (by decide) (o := some (.list [.str schemaUrn])) rfl
  have r3 := rep_read s ds (n := "name".toList) (by decide) (o := some (.str s.name)) rfl
  have r4 := rep_read s ds (n := "description".toList) (by decide) (o := some (.str s.description)) rfl
  have r5 := rep_read s ds (n := "attributes".toList) (by decide) (o := some (.list ds)) rfl
  have r6 := rep_read s ds (n := "meta".toList) (by decide)
    (o := some (.dict [("resourceType".toList, .str "Schema".toList)])) rfl
  have r7 := rep_read s ds (n := "externalId".toList) (by decide) (o := none) rfl
  have hstr : ∀ (d : Attr) (t : Str), d = SchemaA.idA ∨ d = SchemaA.nameA ∨ d = SchemaA.descriptionA →
      (bindAttr d { schema := schemaUrn, attr := d.rep.attr }).process .dump (.str t) = .ok (.str t, {}) := by
    intro d t hd
    rcases hd with rfl | rfl | rfl
    all_goals exact string_quiet rfl rfl rfl (fun h => by cases h)
  have hmeta := meta_quiet .dump { schema := schemaUrn, attr := "meta".toList } (x := repMeta) rfl hmy
  obtain ⟨r, hr⟩ := process_quiet (m := .dump) (data := .dict (repEntries s ds)) hwf rfl rfl (by
    intro a ha
    obtain ⟨d, hd, rfl⟩ := schemaDef_top depth ha
    rw [bindAttr_rep]
    simp only [List.mem_cons, List.not_mem_nil, or_false] at hd
    rcases hd with rfl | rfl | rfl | rfl | rfl | rfl | rfl
    · exact ⟨_, r2, fun _ => ⟨_, schemas_process .dump _ [schemaUrn]⟩⟩
    · exact ⟨_, r1, fun _ => ⟨_, hstr _ _ (.inl rfl)⟩⟩
    · exact ⟨_, r7, fun h => by cases h⟩
    · rw [metaAttr_name]
      exact ⟨_, r6, fun _ => ⟨_, hmeta⟩⟩
    · exact ⟨_, r3, fun _ => ⟨_, hstr _ _ (.inr (.inl rfl))⟩⟩
    · exact ⟨_, r4, fun _ => ⟨_, hstr _ _ (.inr (.inr rfl))⟩⟩
    · rw [attributesA_name]
      exact ⟨_, r5, fun _ => ⟨_, hys⟩⟩) r2
  obtain ⟨htr, hk, _⟩ := process_spec hwf rfl hr
  have hreach := (process_noIssues hr rfl).2
  have hget : ∀ (d : Attr), d ∈ [SchemaA.idA, externalIdAttr, metaAttr, SchemaA.nameA, SchemaA.descriptionA,
      SchemaA.attributesA depth] → ∀ x y, (Val.dict (repEntries s ds)).toCont.getItem { schema := schemaUrn, attr := d.rep.attr } = .ok x →
      x.isMissing = false → (bindAttr d { schema := schemaUrn, attr := d.rep.attr }).process .dump x = .ok (y, {}) →
      r.getItem { schema := schemaUrn, attr := d.rep.attr } = .ok y := by
    intro d hd x y hx hm hp
    obtain ⟨y', i', hp', hg⟩ := htr.present _ (schemaDef_mem depth hd) x (by rw [bindAttr_rep]; exact hx) hm
    rw [hp] at hp'
    rw [bindAttr_rep, ← (Prod.mk.inj (Except.ok.inj hp')).1] at hg
    exact hg
  have hhas := fun n => top_has hwf htr hreach hk n
  have g1 := hget SchemaA.idA (by simp) _ _ r1 rfl (hstr _ _ (.inl rfl))
  have g3 := hget SchemaA.nameA (by simp) _ _ r3 rfl (hstr _ _ (.inr (.inl rfl)))
  have g4 := hget SchemaA.descriptionA (by simp) _ _ r4 rfl (hstr _ _ (.inr (.inr rfl)))
  have g5 := hget (SchemaA.attributesA depth) (by simp) (.list (convItems ds)) (.list ys)
    (by rw [attributesA_name]; exact r5) rfl (by rw [attributesA_name]; exact hys)
  rw [attributesA_name] at g5
  have g6 := hget metaAttr (by simp) repMeta my (by rw [metaAttr_name]; exact r6) rfl (by rw [metaAttr_name]; exact hmeta)
  rw [metaAttr_name] at g6
  have g2 : r.getItem { schema := schemaUrn, attr := "schemas".toList } = .ok (.list [.str schemaUrn]) := by
    obtain ⟨y', i', hp', hg⟩ := htr.present _ hwf.schemas_mem (.list [.str schemaUrn]) (by rw [bindAttr_rep]; exact r2) rfl
    have := (schemas_process .dump { schema := schemaUrn, attr := "schemas".toList } [schemaUrn]).symm.trans hp'
    rw [bindAttr_rep, ← (Prod.mk.inj (Except.ok.inj this)).1] at hg
    exact hg
  refine ⟨_, r, ys, hrep, ?_, (hhas _).trans g1, (hhas _).trans g3, (hhas _).trans g4, (hhas _).trans g2,
    (hhas _).trans g5, hdesc⟩
  unfold Schema.dump
  rw [hr]
  simp only
  rw [if_neg (by rw [show (SchemaA.schema depth).isResource = true from rfl]; simp), canProceed_empty]
  rw [if_neg (by simp), canProceed_empty, if_pos rfl]
  obtain ⟨b, hb, hbr⟩ := getSub_resourceType hwf (schemaDef_meta depth)
  rw [hb]
  simp only
  rw [hbr]
  obtain ⟨d', lc', rfl, hnk⟩ := hk
  have g7 : (Val.cont d' lc').getItem { schema := (SchemaA.schema depth).urn, attr := "meta".toList, sub := "resourceType".toList } =
      .ok (.str "Schema".toList) := by
    rw [V.getItem_sub_noKey hnk (by simp)]
    rw [show (Val.cont d' lc').getItem { schema := (SchemaA.schema depth).urn, attr := "meta".toList } = .ok my from g6]
    simp only
    have hmc := (subResult_of_processSubs metaSubs_plain hmy).cont
    rw [getX_true_getItem hmc isAttrName_resourceType]
    exact hmyr
  rw [g7]
  have e : validateResourceType (.str "Schema".toList) (SchemaA.schema depth).name = .ok {} := by
    unfold validateResourceType
    rw [pyEq_str_str]
    rfl
  show (match validateResourceType (.str "Schema".toList) (SchemaA.schema depth).name with
    | Except.error e => Except.error e | Except.ok is2 => Except.ok (Val.cont d' lc', ({} : Issues).merge is2)) = _
  rw [e]
  simp only
  rw [merge_noIssues _ _ rfl]

omit [PyEnv] in
theorem toDict_entries {a : Attr} {d : Val} (h : a.toDict = .ok d) : ∃ t so, a.info.type.scimName = .ok t ∧
    d = .dict (docEntries a.info t so) := by
  cases a with
  | simple i =>
    rw [Attr.toDict] at h
    unfold AttrInfo.toEntries at h
    cases ht : i.type.scimName with
    | error e => rw [ht] at h; cases h
    | ok t =>
      rw [ht] at h
      refine ⟨t, none, ht, ?_⟩
      simp only [docEntries, subsEntry, List.append_nil]
      exact (Except.ok.inj h).symm
  | complex i subs ps qs =>
    rw [Attr.toDict] at h
    unfold AttrInfo.toEntries at h
    cases ht : i.type.scimName with
    | error e => rw [ht] at h; cases h
    | ok t =>
      rw [ht] at h
      simp only at h
      cases hs : attrDicts subs with
      | error e => rw [hs] at h; cases h
      | ok ds =>
        rw [hs] at h
        refine ⟨t, some ds, ht, ?_⟩
        simp only [docEntries, subsEntry]
        exact (Except.ok.inj h).symm

omit [PyEnv] in
theorem attrDicts_get {as : List Attr} {ds : List Val} (h : attrDicts as = .ok ds) {j : Nat} {a : Attr}
    (hj : as[j]? = some a) : ∃ d, ds[j]? = some d ∧ a.toDict = .ok d := by
  induction as generalizing ds j with
  | nil => cases hj
  | cons b as ih =>
    rw [attrDicts] at h
    split at h
    · cases h
    · rename_i d hd
      split at h
      · cases h
      · rename_i ds' hds
        cases h
        cases j with
        | zero => cases hj; exact ⟨d, rfl, hd⟩
        | succ j => exact ih hds hj

theorem convItems_get {ds : List Val} {j : Nat} {es : List (Str × Val)} (h : ds[j]? = some (.dict es)) :
    (convItems ds)[j]? = some (.cont (convPairs es) (lcOf (es.map (·.1)))) := by
  induction ds generalizing j with
  | nil => cases h
  | cons d ds ih =>
    cases j with
    | zero => cases h; rw [convItems]; rfl
    | succ j =>
      have h' : ds[j]? = some (.dict es) := h
      unfold convItems
      split
      · rename_i heq; cases heq
      · rename_i heq; cases heq; exact ih h'
      · rename_i heq; cases heq; exact ih h'

/-- A type name the Schema resource does not know is reported. -/
theorem schemaDef_rejects {depth : Nat} {s : Schema} {a : Attr} (ha : a ∈ s.attrs.top) (ht : a.info.type = .decimal)
    {rep r : Val} {is : Issues} (hrep : getSchemaRep s = .ok rep) (h : (SchemaA.schema depth).dump rep = .ok (r, is)) :
    is.hasIssues = true := by
  cases hn : is.hasIssues with
  | true => rfl
  | false =>
    exfalso
    unfold getSchemaRep at hrep
    cases hds : attrDicts s.attrs.top with
    | error e => rw [hds] at hrep; cases hrep
    | ok ds =>
      rw [hds] at hrep
      have hrep' : rep = .dict (repEntries s ds) := (Except.ok.inj hrep).symm
      subst hrep'
      obtain ⟨hobj, hr, hp⟩ := dump_noIssues h hn
      have hwf := schemaDef_wf depth
      obtain ⟨htr, hk, _⟩ := process_spec hwf hobj hp
      have hmem := schemaDef_mem depth (d := attributesA depth) (by simp)
      rw [attributesA_name] at hmem
      obtain ⟨info, e, hd, hm⟩ := boundAttributes depth
      have r5 := rep_read s ds (n := "attributes".toList) (by decide) (o := some (.list ds)) rfl
      have hx : (Val.dict (repEntries s ds)).toCont.getItem
          (bindAttr (attributesA depth) { schema := schemaUrn, attr := "attributes".toList }).rep =
          .ok (.list (convItems ds)) := by rw [bindAttr_rep]; exact r5
      obtain ⟨y, i, hpr, _⟩ := htr.present _ hmem _ hx rfl
      have hi := top_clean hwf hobj hp hn hmem hx rfl hpr
      rw [e] at hpr
      rcases attributes_clean hd hm hpr hi with ⟨h, _⟩ | ⟨xs, ys, hxs, _, _, hall⟩
      · cases h
      · have hxs' : convItems ds = xs := by injection hxs
        obtain ⟨j, hj⟩ := List.getElem?_of_mem ha
        obtain ⟨d, hdj, hda⟩ := attrDicts_get hds hj
        obtain ⟨t, so, hsn, rfl⟩ := toDict_entries hda
        have ht' : t = "decimal".toList := by rw [ht] at hsn; exact (Except.ok.inj hsn).symm
        have hxj : xs[j]? = some (rawDoc a.info t so) := by
          rw [← hxs', convItems_get hdj]; rfl
        obtain ⟨mid, _, _, _, _, hsub, _, hcl, _⟩ := hall j _ hxj
        have hty := (rawDoc_raw a.info t so).type
        have hs : attributesTypeA ∈ attributesSubs := by simp [attributesSubs]
        obtain ⟨w, k, hpw, _⟩ := hsub.present _ hs _ hty rfl
        have hk := hcl _ hs _ w k hty rfl hpw
        obtain ⟨_, h' | ⟨t', e', hcan⟩⟩ := text_clean rfl rfl rfl hpw hk
        · cases h'
        · have e'' : t = t' := by injection e' with e'; injection e'
          have := (words_canonical (ws := documentTypes) rfl rfl t').mp (hcan rfl)
          rw [← e'', ht'] at this
          obtain ⟨w', hw', hl⟩ := this
          refine lower_ne_ascii (a := "decimal".toList) (b := w') (by decide) ?_ ?_ hl
          · clear hl; revert w'; decide
          · clear hl; revert w'; decide

end Scim
