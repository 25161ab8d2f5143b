import Verif.Lemmas.Schemas

/-! The schemas built by the constructors are sane. -/

namespace Scim
variable [PyEnv]

omit [PyEnv] in
theorem isInfix_iff (n s : Str) : isInfix n s = true ↔ Contains n s := by
  unfold Contains
  induction s with
  | nil =>
    simp only [isInfix, List.isEmpty_iff]
    constructor
    · rintro rfl; exact ⟨[], [], rfl⟩
    · rintro ⟨a, b, h⟩
      have := congrArg List.length h
      simp only [List.length_nil, List.length_append] at this
      exact List.length_eq_zero_iff.mp (by omega)
  | cons c cs ih =>
    simp only [isInfix, Bool.or_eq_true, ih, List.isPrefixOf_iff_prefix]
    constructor
    · rintro (⟨t, h⟩ | ⟨a, b, h⟩)
      · exact ⟨[], t, h.symm⟩
      · exact ⟨c :: a, b, by rw [h]; simp⟩
    · rintro ⟨a, b, h⟩
      cases a with
      | nil => exact .inl ⟨b, h.symm⟩
      | cons x a =>
        simp only [List.cons_append, List.cons.injEq] at h
        exact .inr ⟨a, b, h.2⟩

omit [PyEnv] in
theorem bindAttr_rep [PyEnv] (a : Attr) (r : AttrRep) : (bindAttr a r).rep = r := by
  cases a <;> rfl

theorem mem_bindWithSubs {urn : Str} {ext : Bool} {d a : Attr} :
    a ∈ bindWithSubs urn ext d ↔
      a = bindAttr d { schema := urn, attr := d.rep.attr, ext := ext } ∨
      ∃ s ∈ d.subs, a = bindAttr s { schema := urn, attr := d.rep.attr, sub := s.rep.attr, ext := ext } := by
  simp [bindWithSubs, eq_comm]

/-- The lowered full name. -/
def Attr.lname (a : Attr) : Str × Str × Str := (lower a.rep.schema, lower a.rep.attr, lower a.rep.sub)

/-- Facts about the attributes a list of declarations is turned into. -/
theorem bind_facts {urn : Str} {ext : Bool} {ds : List Attr} (hd : Declarations ds) :
    (∀ a ∈ ds.flatMap (bindWithSubs urn ext), a.rep.schema = urn ∧ a.rep.ext = ext ∧ a.rep.attr ≠ [] ∧
      ∃ d ∈ ds, a.rep.attr = d.rep.attr) ∧
    ((ds.flatMap (bindWithSubs urn ext)).map Attr.lname).Nodup := by
  refine ⟨?_, ?_⟩
  · intro a ha
    simp only [List.mem_flatMap] at ha
    obtain ⟨d, hdm, ha⟩ := ha
    rcases mem_bindWithSubs.mp ha with rfl | ⟨s, _, rfl⟩ <;>
      exact ⟨by rw [bindAttr_rep], by rw [bindAttr_rep], by rw [bindAttr_rep]; exact hd.named d hdm,
        d, hdm, by rw [bindAttr_rep]⟩
  · rw [List.Nodup, List.pairwise_map, List.pairwise_flatMap]
    refine ⟨?_, ?_⟩
    · intro d hdm
      have hp := hd.subs d hdm
      simp only [bindWithSubs, List.pairwise_cons, List.pairwise_map]
      refine ⟨?_, ?_⟩
      · intro a ha
        simp only [List.mem_map] at ha
        obtain ⟨s, hs, rfl⟩ := ha
        simp only [Attr.lname, bindAttr_rep, ne_eq, Prod.mk.injEq, true_and]
        intro e
        exact hp.named s hs ((PyEnv.lower_eq_nil _).1 (by rw [← e]; exact (PyEnv.lower_eq_nil []).2 rfl))
      · have := hp.distinct
        rw [List.Nodup, List.pairwise_map] at this
        refine this.imp ?_
        intro a b hne
        simp only [Attr.lname, bindAttr_rep, ne_eq, Prod.mk.injEq, true_and]
        exact hne
    · have := hd.distinct
      rw [List.Nodup, List.pairwise_map] at this
      refine this.imp ?_
      intro d1 d2 hne a ha b hb e
      apply hne
      have h1 : a.rep.attr = d1.rep.attr := by
        rcases mem_bindWithSubs.mp ha with rfl | ⟨s, _, rfl⟩ <;> rw [bindAttr_rep]
      have h2 : b.rep.attr = d2.rep.attr := by
        rcases mem_bindWithSubs.mp hb with rfl | ⟨s, _, rfl⟩ <;> rw [bindAttr_rep]
      simp only [Attr.lname, Prod.mk.injEq] at e
      rw [← h1, ← h2]; exact e.2.1

theorem keys_of_lnames {l : List Attr} (h : (l.map Attr.lname).Nodup) : (l.map Attr.key).Nodup := by
  rw [List.Nodup, List.pairwise_map] at h ⊢
  refine h.imp ?_
  intro a b hne e
  apply hne
  simp only [Attr.key, Prod.mk.injEq] at e
  simp only [Attr.lname, e.1, e.2.1, e.2.2]

/-- Sanity of a schema from the sanity of its list of attributes. -/
theorem wf_of_list {s : Schema} {l : List Attr} (hs : s.attrs = Attributes.ofList l)
    (hn : (l.map Attr.lname).Nodup) (hnamed : ∀ a ∈ l, a.rep.attr ≠ [])
    (hord : ∃ cs es, l = cs ++ es ∧ (∀ a ∈ cs, a.rep.ext = false ∧ a.rep.schema = s.urn) ∧
      ∀ a ∈ es, a.rep.ext = true ∧ a.rep.schema ∈ s.exts.map (·.1))
    (hurns : (s.schemas.map lower).Nodup) (hne : ∀ u ∈ s.schemas, u ≠ [])
    (hclash : ∀ a ∈ l, ∀ u ∈ s.schemas, lower a.rep.attr ≠ lower u)
    (hfirst : ∃ rest, l = bindAttr schemasAttr { schema := s.urn, attr := "schemas".toList } :: rest) : s.WF := by
  have hall : s.attrs.all = l := by rw [hs]; exact ofList_all (keys_of_lnames hn)
  have htop : s.attrs.top = l.filter (fun a => a.rep.sub.isEmpty) := by rw [hs]; rfl
  have hmem : ∀ a ∈ s.attrs.top, a ∈ l ∧ a.rep.sub = [] := by
    intro a ha; rw [htop] at ha; simpa using ha
  obtain ⟨cs, es, hl, hcs, hes⟩ := hord
  have hcl : ∀ a ∈ l, (a.rep.ext = false ∧ a.rep.schema = s.urn) ∨
      (a.rep.ext = true ∧ a.rep.schema ∈ s.exts.map (·.1)) := by
    intro a ha
    rw [hl] at ha
    rcases List.mem_append.mp ha with ha | ha
    · exact .inl (hcs a ha)
    · exact .inr (hes a ha)
  have hn' : (s.attrs.all.map (fun a => (lower a.rep.schema, lower a.rep.attr, lower a.rep.sub))).Nodup := by
    rw [hall]; exact hn
  refine ⟨fun a ha => (hmem a ha).2, fun a ha => hnamed a (hall ▸ ha), ?_, ?_, hurns, hne,
    fun a ha => hclash a (hall ▸ ha), ?_, hn', ?_, ⟨cs, es, hall.trans hl, hcs, hes⟩, by rw [htop, hall],
    by rw [hall]; exact hfirst⟩
  · intro a ha he
    rcases hcl a (hmem a ha).1 with h | h
    · exact h.2
    · rw [h.1] at he; cases he
  · intro a ha he
    rcases hcl a (hmem a ha).1 with h | h
    · rw [h.1] at he; cases he
    · exact h.2
  · rw [htop, List.Nodup, List.pairwise_map]
    rw [List.Nodup, List.pairwise_map] at hn
    refine (hn.sublist List.filter_sublist).imp_of_mem ?_
    intro a b ha hb hne e
    apply hne
    simp only [List.mem_filter, List.isEmpty_iff] at ha hb
    simp only [Prod.mk.injEq] at e
    simp only [Attr.lname, e.1, e.2, ha.2, hb.2]
  · intro a ha
    rw [hall] at ha
    rcases hcl a ha with h | h
    · rw [h.2]; simp [Schema.schemas]
    · exact List.mem_cons_of_mem _ h.2

/-- `BaseSchema(urn, attrs)` is sane. -/
theorem mkSchema_wf {urn : Str} {attrs : List Attr} (hd : Declarations (schemasAttr :: attrs)) (hu : urn ≠ [])
    (hc : ∀ d ∈ schemasAttr :: attrs, lower d.rep.attr ≠ lower urn) : (mkSchema urn attrs).WF := by
  obtain ⟨h1, h2⟩ := bind_facts (urn := urn) (ext := false) hd
  refine wf_of_list (l := (schemasAttr :: attrs).flatMap (bindWithSubs urn false)) rfl h2
    (fun a ha => (h1 a ha).2.2.1) ⟨_, [], (List.append_nil _).symm, fun a ha => ⟨(h1 a ha).2.1, (h1 a ha).1⟩, by simp⟩
    (by simp [Schema.schemas, mkSchema]) (by simpa [Schema.schemas, mkSchema] using hu) ?_
    ⟨_, rfl⟩
  intro a ha u hu'
  obtain ⟨_, _, _, d, hdm, e⟩ := h1 a ha
  simp only [Schema.schemas, mkSchema, List.map_nil, List.mem_singleton] at hu'
  rw [e, hu']
  exact hc d hdm

omit [PyEnv] in
theorem wf_resource [PyEnv] {s : Schema} (h : s.WF) (b : Bool) (n : Str) : ({ s with isResource := b, name := n } : Schema).WF :=
  ⟨h.sub, h.named, h.core, h.ext, h.urns, h.urnNe, h.noClash, h.distinct, h.names, h.allSchema, h.order, h.topAll, h.first⟩

/-- `ResourceSchema(urn, attrs, name)` is sane. -/
theorem mkResource_wf {urn : Str} {attrs : List Attr} {name : Str} {idA exA metaA : Attr}
    (hd : Declarations (schemasAttr :: idA :: exA :: metaA :: attrs)) (hu : urn ≠ [])
    (hc : ∀ d ∈ schemasAttr :: idA :: exA :: metaA :: attrs, lower d.rep.attr ≠ lower urn) :
    (mkResource urn attrs name idA exA metaA).WF := wf_resource (mkSchema_wf hd hu hc) _ _

/-- `with_extension` keeps the schema sane. -/
theorem withExtension_wf {s s' : Schema} {e : Extension} {req : Bool} (hs : s.WF)
    (h : s.withExtension e req = .ok s') (hd : Declarations e.attrs.all) (hu : e.urn ≠ [])
    (hnew : lower e.urn ∉ s.schemas.map lower)
    (hc : ∀ d ∈ e.attrs.all, ∀ u ∈ e.urn :: s.schemas, lower d.rep.attr ≠ lower u)
    (hc' : ∀ a ∈ s.attrs.all, lower a.rep.attr ≠ lower e.urn) : s'.WF := by
  obtain ⟨h1, h2⟩ := bind_facts (urn := e.urn) (ext := true) hd
  unfold Schema.withExtension at h
  split at h
  · cases h
  · cases h
    have hx : e.urn ∉ s.exts.map (·.1) := by
      intro hm
      apply hnew
      rw [List.mem_map]
      exact ⟨e.urn, List.mem_cons_of_mem _ hm, rfl⟩
    have hexts : (aset e.urn req s.exts).map (·.1) = s.exts.map (·.1) ++ [e.urn] := by
      rw [aset_append_new _ _ _ hx]; simp
    have hsch : ∀ {at' : Attributes}, ({ s with exts := aset e.urn req s.exts, attrs := at' } : Schema).schemas =
        s.schemas ++ [e.urn] := by
      intro at'; simp [Schema.schemas, hexts]
    refine wf_of_list (l := s.attrs.all ++ e.attrs.all.flatMap (bindWithSubs e.urn true)) rfl ?_ ?_ ?_ ?_ ?_ ?_ ?_
    · rw [List.map_append, List.nodup_append]
      refine ⟨hs.names, h2, ?_⟩
      intro x hx' y hy exy
      subst exy
      rw [List.mem_map] at hx' hy
      obtain ⟨a, ha, rfl⟩ := hx'
      obtain ⟨b, hb, e'⟩ := hy
      simp only [Attr.lname, Prod.mk.injEq] at e'
      apply hnew
      rw [← (h1 b hb).1, e'.1]
      exact List.mem_map_of_mem (hs.allSchema a ha)
    · intro a ha
      rcases List.mem_append.mp ha with ha | ha
      · exact hs.named a ha
      · exact (h1 a ha).2.2.1
    · obtain ⟨cs, es, hl, hcs, hes⟩ := hs.order
      refine ⟨cs, es ++ e.attrs.all.flatMap (bindWithSubs e.urn true), by rw [hl, List.append_assoc], hcs, ?_⟩
      intro a ha
      simp only [hexts]
      rcases List.mem_append.mp ha with ha | ha
      · exact ⟨(hes a ha).1, List.mem_append_left _ (hes a ha).2⟩
      · exact ⟨(h1 a ha).2.1, by rw [(h1 a ha).1]; simp⟩
    · rw [hsch, List.map_append, List.nodup_append]
      refine ⟨hs.urns, by simp, ?_⟩
      intro x hx y hy exy
      simp only [List.map_cons, List.map_nil, List.mem_singleton] at hy
      rw [exy, hy] at hx
      exact hnew hx
    · rw [hsch]
      intro u hu'
      rcases List.mem_append.mp hu' with h' | h'
      · exact hs.urnNe u h'
      · simp only [List.mem_singleton] at h'; rw [h']; exact hu
    · rw [hsch]
      intro a ha u hu'
      rcases List.mem_append.mp ha with ha | ha
      · rcases List.mem_append.mp hu' with h' | h'
        · exact hs.noClash a ha u h'
        · simp only [List.mem_singleton] at h'; rw [h']; exact hc' a ha
      · obtain ⟨_, _, _, d, hdm, ed⟩ := h1 a ha
        rw [ed]
        apply hc d hdm
        rcases List.mem_append.mp hu' with h' | h'
        · exact List.mem_cons_of_mem _ h'
        · simp only [List.mem_singleton] at h'; rw [h']; simp
    · obtain ⟨rest, hr⟩ := hs.first
      exact ⟨_, by rw [hr]; rfl⟩

/-! ## What `parse` and `dump` return -/

open Issues

theorem Schema.WF.getTop_schemas {s : Schema} (h : s.WF) :
    s.attrs.getTop "schemas".toList = some (bindAttr schemasAttr { schema := s.urn, attr := "schemas".toList }) := by
  obtain ⟨rest, hr⟩ := h.first
  have : s.attrs.top = bindAttr schemasAttr { schema := s.urn, attr := "schemas".toList } ::
      rest.filter (fun a => a.rep.sub.isEmpty) := by
    rw [h.topAll, hr, List.filter_cons, if_pos (by rw [bindAttr_rep]; rfl)]
  rw [Attributes.getTop, this, List.find?_cons_of_pos (by rw [bindAttr_rep]; simp)]

theorem Schema.WF.schemas_mem {s : Schema} (h : s.WF) :
    bindAttr schemasAttr { schema := s.urn, attr := "schemas".toList } ∈ s.attrs.top := by
  have := h.getTop_schemas
  exact List.mem_of_find?_eq_some this

/-- The keys of the built container are not the URN of the schema. -/
theorem PInv.keys_ne {s : Schema} (hs : s.WF) {done data lc} (h : PInv done data lc)
    (hd : ∀ p ∈ done, p.1 ∈ s.attrs.top) : ∀ k ∈ data.map (·.1), lower k ≠ lower s.urn := by
  intro k hk e
  rcases h.key_class hk with ⟨p, hp, h1, rfl⟩ | ⟨p, hp, h1, rfl⟩
  · exact hs.noClash p.1 (hs.top_all _ (hd p hp)) s.urn (by simp [Schema.schemas]) e
  · have hm := hs.ext p.1 (hd p hp) h1
    have hu := hs.urns
    simp only [Schema.schemas, List.map_cons, List.nodup_cons] at hu
    apply hu.1
    rw [← e]
    exact List.mem_map_of_mem hm

/-- The result of the loop, read attribute by attribute. -/
theorem topResult_of_PInv {m : Mode} {s : Schema} (hs : s.WF) {data : Val} {d lc}
    (h : PInv ((s.attrs.top.filterMap (topOut m data)).map (fun o => (o.1, o.2.1))) d lc)
    (hok : ∀ a ∈ s.attrs.top, ∃ x, data.getItem a.rep = .ok x ∧ (x.isMissing = false → ∃ o, a.process m x = .ok o)) :
    TopResult m s data (.cont d lc) := by
  have hmem : ∀ {p : Attr × Val}, p ∈ (s.attrs.top.filterMap (topOut m data)).map (fun o => (o.1, o.2.1)) →
      p.1 ∈ s.attrs.top ∧ ∃ x i, data.getItem p.1.rep = .ok x ∧ x.isMissing = false ∧ p.1.process m x = .ok (p.2, i) := by
    intro p hp
    simp only [List.mem_map, List.mem_filterMap] at hp
    obtain ⟨o, ⟨a, ha, ho⟩, rfl⟩ := hp
    obtain ⟨h1, x, h2, h3, h4⟩ := topOut_spec ho
    simp only [h1]
    exact ⟨ha, x, _, h2, h3, h4⟩
  have hk := h.keys_ne hs (fun p hp => (hmem hp).1)
  have hin : ∀ a ∈ s.attrs.top, ∀ x, data.getItem a.rep = .ok x → x.isMissing = false →
      ∃ y i, a.process m x = .ok (y, i) ∧
        (a, y) ∈ (s.attrs.top.filterMap (topOut m data)).map (fun o => (o.1, o.2.1)) := by
    intro a ha x hx hm
    obtain ⟨x', hx', hp⟩ := hok a ha
    rw [hx] at hx'; cases hx'
    obtain ⟨⟨y, i⟩, hp⟩ := hp hm
    refine ⟨y, i, hp, ?_⟩
    simp only [List.mem_map, List.mem_filterMap]
    exact ⟨(a, y, i), ⟨a, ha, topOut_of hx hm hp⟩, rfl⟩
  refine ⟨rfl, ?_, ?_, ?_, ?_, fun a ha => (hok a ha).imp fun _ hx => hx.1⟩
  · intro k hk'
    rcases h.key_class hk' with ⟨p, hp, h1, h2⟩ | ⟨p, hp, h1, h2⟩
    · exact .inl ⟨p.1, (hmem hp).1, h1, h2⟩
    · exact .inr ⟨p.1, (hmem hp).1, h1, h2⟩
  · rintro u ⟨a, ha, hae, rfl⟩ v hv
    rcases h.keys _ _ hv with ⟨p, hp, h1, h2, _⟩ | ⟨d', l', rfl, h2, _, h4⟩
    · exfalso
      have hm := hs.ext a ha hae
      exact hs.noClash p.1 (hs.top_all _ (hmem hp).1) a.rep.schema (List.mem_cons_of_mem _ hm) (by rw [h2])
    · refine ⟨rfl, ?_⟩
      intro k hk'
      have hsome := aget_isSome_iff.mpr hk'
      cases hg : aget k d' with
      | none => rw [hg] at hsome; cases hsome
      | some w =>
        obtain ⟨p, hp, e1, e2, e3, _⟩ := h4 k w hg
        exact ⟨p.1, (hmem hp).1, e1, e2, e3⟩
  · intro a ha x hx hm
    obtain ⟨y, i, hp, hy⟩ := hin a ha x hx hm
    refine ⟨y, i, hp, ?_⟩
    cases he : a.rep.ext with
    | false =>
      have := (h.get_core he (hs.sub a ha) (by rw [hs.core a ha he]; exact hk)).1 y hy
      exact this
    | true =>
      refine h.get_ext he (hs.sub a ha) hy (fun p hp => hs.named _ (hs.top_all _ (hmem hp).1)) ?_
      intro p hp _ e
      exact hs.noClash p.1 (hs.top_all _ (hmem hp).1) a.rep.schema
        (List.mem_cons_of_mem _ (hs.ext a ha he)) (by rw [e])
  · intro a ha he hx
    refine (h.get_core he (hs.sub a ha) (by rw [hs.core a ha he]; exact hk)).2 ?_
    intro k hk' e
    rcases h.key_class hk' with ⟨p, hp, h1, h2⟩ | ⟨p, hp, h1, h2⟩
    · obtain ⟨hpm, x, i, hx', hxm, _⟩ := hmem hp
      have : p.1 = a := eq_of_map_nodup hs.distinct hpm ha
        (by simp only [hs.core _ hpm h1, hs.core a ha he, h2, e])
      rw [this, hx] at hx'
      cases hx'
      simp [Val.isMissing] at hxm
    · refine hs.noClash a (hs.top_all _ ha) p.1.rep.schema ?_ (by rw [h2, e])
      exact List.mem_cons_of_mem _ (hs.ext p.1 (hmem hp).1 h1)

/-! ## Where the issues are -/

theorem topLoc_ne (a : Attr) : a.topLoc ≠ [] := by
  unfold Attr.topLoc; split <;> simp

/-- The locations of two different attributes do not overlap. -/
theorem Compat.loc {a b : Attr} (h : Compat a b) (l : Loc) : ¬ a.topLoc <+: b.topLoc ++ l := by
  intro hp
  unfold Attr.topLoc at hp
  cases ha : a.rep.ext <;> cases hb : b.rep.ext <;>
    simp only [ha, hb, Bool.false_eq_true, if_false, if_true, List.cons_append, List.nil_append,
      List.cons_prefix_cons, LKey.name.injEq] at hp
  · exact h.coreCore ha hb (by rw [hp.1])
  · exact h.coreExt ha hb (by rw [hp.1])
  · exact h.extCore ha hb (by rw [hp.1])
  · exact (h.extExt ha hb (by rw [hp.1])).2 (by rw [hp.2.1])

theorem Compat.loc' {a b : Attr} (h : Compat a b) (l : Loc) : ¬ b.topLoc <+: a.topLoc ++ l := by
  refine Compat.loc ⟨?_, ?_, ?_, ?_⟩ l
  · exact fun h1 h2 e => h.coreCore h2 h1 e.symm
  · exact fun h1 h2 e => h.extCore h2 h1 e.symm
  · exact fun h1 h2 e => h.coreExt h2 h1 e.symm
  · intro h1 h2 e
    obtain ⟨e1, e2⟩ := h.extExt h2 h1 e.symm
    exact ⟨e1.symm, fun e => e2 e.symm⟩

/-- The issues of the loop: those of each attribute under its location, nothing else. -/
theorem mergeTop_errors {m : Mode} {as : List Attr} (hp : as.Pairwise Compat) (hsane : SaneAll as) (data : Val) :
    (∀ a ∈ as, ∀ x y i, data.getItem a.rep = .ok x → x.isMissing = false → a.process m x = .ok (y, i) →
      ∀ l, (mergeAll {} ((as.filterMap (topOut m data)).map (fun o => (o.1.topLoc, o.2.2)))).errorsAt (a.topLoc ++ l) =
        i.errorsAt l) ∧
    (∀ l, (mergeAll {} ((as.filterMap (topOut m data)).map (fun o => (o.1.topLoc, o.2.2)))).errorsAt l ≠ [] →
      ∃ a ∈ as, ∃ x y i l', data.getItem a.rep = .ok x ∧ x.isMissing = false ∧ a.process m x = .ok (y, i) ∧
        l = a.topLoc ++ l' ∧ i.errorsAt l' ≠ []) ∧
    (mergeAll {} ((as.filterMap (topOut m data)).map (fun o => (o.1.topLoc, o.2.2)))).WF := by
  have hw : ∀ o ∈ (as.filterMap (topOut m data)).map (fun o => (o.1.topLoc, o.2.2)), o.2.WF := by
    intro o ho
    simp only [List.mem_map, List.mem_filterMap] at ho
    obtain ⟨q, ⟨a, ha, hq⟩, rfl⟩ := ho
    obtain ⟨_, x, _, _, hpr⟩ := topOut_spec hq
    exact process_wf a (saneAll_iff.mp hsane a ha) hpr
  refine ⟨?_, ?_, mergeAll_wf hw WF.empty⟩
  · intro a ha x y i hx hm hpr l
    rw [mergeAll_errors hw]
    simp only [errorsAt_empty, List.nil_append]
    obtain ⟨s, t, rfl⟩ := List.append_of_mem ha
    have ho := topOut_of hx hm hpr
    rw [List.pairwise_append, List.pairwise_cons] at hp
    simp only [List.filterMap_append, List.filterMap_cons_some ho, List.map_append, List.map_cons,
      List.flatMap_append, List.flatMap_cons]
    have hnil : ∀ as' : List Attr, (∀ b ∈ as', ¬ b.topLoc <+: a.topLoc ++ l) →
        ((as'.filterMap (topOut m data)).map (fun o => (o.1.topLoc, o.2.2))).flatMap
          (fun o => if o.1 <+: a.topLoc ++ l then o.2.errorsAt ((a.topLoc ++ l).drop o.1.length) else []) = [] := by
      intro as' hb
      rw [List.flatMap_eq_nil_iff]
      intro o ho
      simp only [List.mem_map, List.mem_filterMap] at ho
      obtain ⟨q, ⟨b, hbm, hq⟩, rfl⟩ := ho
      obtain ⟨e, _⟩ := topOut_spec hq
      rw [if_neg (by simp only [e]; exact hb b hbm)]
    rw [hnil s (fun b hb => (hp.2.2 b hb a (by simp)).loc l), hnil t (fun b hb => (hp.2.1.1 b hb).loc' l)]
    simp
  · intro l hl
    rw [mergeAll_errors hw] at hl
    simp only [errorsAt_empty, List.nil_append, ne_eq, List.flatMap_eq_nil_iff, Classical.not_forall] at hl
    obtain ⟨o, ho, hl⟩ := hl
    simp only [List.mem_map, List.mem_filterMap] at ho
    obtain ⟨q, ⟨b, hbm, hq⟩, rfl⟩ := ho
    obtain ⟨e, x, h1, h2, h3⟩ := topOut_spec hq
    split at hl
    · rename_i hpre
      simp only [e] at hpre hl
      obtain ⟨l', rfl⟩ := hpre
      refine ⟨b, hbm, x, _, _, l', h1, h2, h3, rfl, ?_⟩
      simpa using hl
    · exact absurd rfl hl

/-- What `schema.parse` and `schema.dump` (of a base schema) return for an object. -/
theorem process_spec {m : Mode} {s : Schema} (hs : s.WF) {data r : Val} {is : Issues}
    (hobj : (data.isCont || data.isDict) = true) (h : s.process m data = .ok (r, is)) :
    TopResult m s data.toCont r ∧ (∃ d lc, r = .cont d lc ∧ aget (lower s.urn) lc = none) ∧
    ∃ is1, is1 = Issues.empty.merge (mergeAll {} ((s.attrs.top.filterMap (topOut m data.toCont)).map
        (fun o => (o.1.topLoc, o.2.2)))) ∧
      ∃ sv, r.getItem { schema := s.urn, attr := "schemas".toList } = .ok sv ∧
      ((is1.canProceed [schemasLoc] && sv.truthy) = true ∧
          (∃ xs is2, sv = .list xs ∧ validateSchemasField r xs s.urn s.schemas = .ok is2 ∧ is = is1.merge is2) ∨
        (is1.canProceed [schemasLoc] && sv.truthy) = false ∧ is = is1) := by
  have hnone : data.isNone = false := by
    cases data <;> simp [Val.isCont, Val.isDict] at hobj <;> rfl
  unfold Schema.process at h
  rw [hnone, hobj] at h
  simp only [Bool.false_eq_true, if_false, Bool.not_true] at h
  split at h
  · cases h
  · rename_i r0 is0 hpt
    have hsub : ∀ a ∈ s.attrs.top, a.rep.sub = [] := hs.sub
    obtain ⟨⟨d', lc', rfl, hinv⟩, h2, h3⟩ := processTop_spec s.attrs.top data.toCont [] [] [] {} r0 is0 PInv.nil hsub
      hs.compat (by simp) hpt
    rw [List.nil_append] at hinv
    have htr := topResult_of_PInv hs hinv h3
    have hnk : aget (lower s.urn) lc' = none := by
      apply hinv.lc_none
      apply hinv.keys_ne hs
      intro p hp
      simp only [List.mem_map, List.mem_filterMap] at hp
      obtain ⟨o, ⟨a, ha, ho⟩, rfl⟩ := hp
      rw [(topOut_spec ho).1]; exact ha
    rw [hs.getTop_schemas] at h
    simp only [bindAttr_rep] at h
    cases hsv : (Val.cont d' lc').getItem { schema := s.urn, attr := "schemas".toList } with
    | error e => rw [hsv] at h; cases h
    | ok sv =>
      rw [hsv] at h
      simp only at h
      cases hb : ((Issues.empty.merge is0).canProceed [schemasLoc] && sv.truthy) with
      | true =>
        rw [hb] at h
        simp only [if_true] at h
        split at h
        · rename_i xs
          split at h
          · cases h
          · rename_i is2 hv
            cases h
            exact ⟨htr, ⟨_, _, rfl, hnk⟩, _, by rw [h2], .list xs, hsv, .inl ⟨hb, xs, is2, rfl, hv, rfl⟩⟩
        · cases h
      | false =>
        rw [hb] at h
        simp only [Bool.false_eq_true, if_false] at h
        cases h
        exact ⟨htr, ⟨_, _, rfl, hnk⟩, _, by rw [h2], sv, hsv, .inr ⟨hb, rfl⟩⟩

end Scim
