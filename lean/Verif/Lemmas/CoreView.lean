import Verif.Lemmas.Validators
import Verif.Props.Schemas

/-! The dictionary inside what a schema returns: its own attributes stand under their declared names. -/

namespace Scim
open Issues
variable [PyEnv]

/-- The contents of a container made by a schema. -/
structure CoreView (s : Schema) (d : List (Str × Val)) (lc : List (Str × Str)) : Prop extends DInv d lc where
  declared : ∀ k ∈ d.map (·.1), (∃ a ∈ s.attrs.top, a.rep.ext = false ∧ a.rep.attr = k) ∨
    (∃ a ∈ s.attrs.top, a.rep.ext = true ∧ a.rep.schema = k)

theorem CoreView.eq_of_lower {s : Schema} (hs : s.WF) {d lc} (h : CoreView s d lc) {a : Attr} (ha : a ∈ s.attrs.top)
    (he : a.rep.ext = false) {k : Str} (hk : k ∈ d.map (·.1)) (hl : lower k = lower a.rep.attr) : k = a.rep.attr := by
  rcases h.declared k hk with ⟨b, hb, h1, rfl⟩ | ⟨b, hb, h1, rfl⟩
  · have : b = a := eq_of_map_nodup hs.distinct hb ha (by simp only [hs.core b hb h1, hs.core a ha he, hl])
    rw [this]
  · exact absurd hl.symm (hs.noClash a (hs.top_all a ha) _ (List.mem_cons_of_mem _ (hs.ext b hb h1)))

theorem CoreView.noUrn {s : Schema} (hs : s.WF) {d lc} (h : CoreView s d lc) : aget (lower s.urn) lc = none := by
  apply h.lc_none
  intro k hk e
  rcases h.declared k hk with ⟨b, hb, h1, rfl⟩ | ⟨b, hb, h1, rfl⟩
  · exact hs.noClash b (hs.top_all b hb) s.urn (by simp [Schema.schemas]) e
  · have hm := hs.ext b hb h1
    have hu := hs.urns
    rw [Schema.schemas, List.map_cons, List.nodup_cons] at hu
    exact hu.1 (List.mem_map.mpr ⟨_, hm, e⟩)

/-- Reading an attribute is looking up its declared name. -/
theorem CoreView.get {s : Schema} (hs : s.WF) {d lc} (h : CoreView s d lc) {a : Attr} (ha : a ∈ s.attrs.top)
    (he : a.rep.ext = false) : (Val.cont d lc).getItem a.rep = .ok ((aget a.rep.attr d).getD .missing) := by
  have hn := h.noUrn hs
  rw [getItem_noKey (by rw [hs.core a ha he]; exact hn), hs.sub a ha]
  cases hg : aget a.rep.attr d with
  | some v =>
    rw [h.complete _ (aget_isSome_iff.mp (by rw [hg]; rfl))]
    simp [hg]
  | none =>
    rw [h.lc_none]
    · rfl
    · intro k hk e
      have := h.eq_of_lower hs ha he hk e
      rw [this] at hk
      rw [aget_eq_none_iff] at hg
      exact hg hk

/-- Reading a sub-attribute goes through the declared name. -/
theorem CoreView.getSub {s : Schema} (hs : s.WF) {d lc} (h : CoreView s d lc) {a : Attr} (ha : a ∈ s.attrs.top)
    (he : a.rep.ext = false) {sub : Str} (hsub : sub ≠ []) :
    (Val.cont d lc).getItem { schema := s.urn, attr := a.rep.attr, sub } =
      match aget a.rep.attr d with
      | none => .ok .missing
      | some v => Val.getX true v { attr := sub } := by
  have hn := h.noUrn hs
  rw [getItem_noKey (r := { schema := s.urn, attr := a.rep.attr, sub }) hn]
  have hse : sub.isEmpty = false := by cases sub <;> simp at hsub ⊢
  simp only [hse, Bool.false_eq_true, if_false]
  cases hg : aget a.rep.attr d with
  | some v =>
    rw [h.complete _ (aget_isSome_iff.mp (by rw [hg]; rfl))]
    simp [hg]
  | none =>
    rw [h.lc_none]
    intro k hk e
    have := h.eq_of_lower hs ha he hk e
    rw [this] at hk
    rw [aget_eq_none_iff] at hg
    exact hg hk

/-- Storing a value under an attribute. -/
theorem CoreView.set {s : Schema} (hs : s.WF) {d lc} (h : CoreView s d lc) {a : Attr} (ha : a ∈ s.attrs.top)
    (he : a.rep.ext = false) (v : Val) :
    ∃ lc', (Val.cont d lc).setItem a.rep v = .ok (.cont (aset a.rep.attr v d) lc') ∧
      CoreView s (aset a.rep.attr v d) lc' := by
  refine ⟨aset (lower a.rep.attr) a.rep.attr lc, ?_, ?_⟩
  · simp only [Val.setItem, he, Bool.false_eq_true, if_false, Val.setLocal, hs.sub a ha, List.isEmpty_nil, if_true, Val.setPlain]
  · refine ⟨h.setPlain a.rep.attr v (fun k hk e => h.eq_of_lower hs ha he hk e), ?_⟩
    intro k hk
    rw [mem_keys_aset] at hk
    rcases hk with rfl | hk
    · exact .inl ⟨a, ha, he, rfl⟩
    · exact h.declared k hk

theorem process_view {m : Mode} {s : Schema} (hs : s.WF) {data r : Val} {is : Issues}
    (hobj : (data.isCont || data.isDict) = true) (h : s.process m data = .ok (r, is)) :
    ∃ d lc, r = .cont d lc ∧ CoreView s d lc := by
  have hnone : data.isNone = false := by
    cases data <;> simp [Val.isCont, Val.isDict] at hobj <;> rfl
  unfold Schema.process at h
  rw [hnone, hobj] at h
  simp only [Bool.false_eq_true, if_false, Bool.not_true] at h
  split at h
  · cases h
  · rename_i r0 is0 hpt
    obtain ⟨⟨d', lc', rfl, hinv⟩, h2, h3⟩ := processTop_spec s.attrs.top data.toCont [] [] [] {} r0 is0 PInv.nil hs.sub
      hs.compat (by simp) hpt
    rw [List.nil_append] at hinv
    have hr : r = .cont d' lc' := by
      repeat' split at h
      all_goals first
        | (cases h; done)
        | (cases h; rfl)
    refine ⟨d', lc', hr, hinv.toDInv, ?_⟩
    intro k hk
    have hmem : ∀ p ∈ (s.attrs.top.filterMap (topOut m data.toCont)).map (fun o => (o.1, o.2.1)), p.1 ∈ s.attrs.top := by
      intro p hp
      simp only [List.mem_map, List.mem_filterMap] at hp
      obtain ⟨o, ⟨a, ha, ho⟩, rfl⟩ := hp
      rw [(topOut_spec ho).1]; exact ha
    rcases hinv.key_class hk with ⟨p, hp, h1, rfl⟩ | ⟨p, hp, h1, rfl⟩
    · exact .inl ⟨p.1, hmem p hp, h1, rfl⟩
    · exact .inr ⟨p.1, hmem p hp, h1, rfl⟩

omit [PyEnv] in
theorem aget_dictPairs (k : Str) (d : List (Str × Val)) : aget k (dictPairs d) = (aget k d).map dictVal := by
  induction d with
  | nil => rfl
  | cons p r ih =>
    obtain ⟨k', v⟩ := p
    rw [dictPairs, aget_cons, aget_cons]
    split <;> simp [ih]

/-- Lookup of a declared attribute by its Python name. -/
theorem Schema.WF.getTop_of_mem {s : Schema} (hs : s.WF) {a : Attr} (ha : a ∈ s.attrs.top) (he : a.rep.ext = false)
    {name : Str} (hn : lower a.rep.attr = lower name) : s.attrs.getTop name = some a := by
  obtain ⟨cs, es, hl, hcs, hes⟩ := hs.order
  unfold Attributes.getTop
  rw [hs.topAll, hl, List.filter_append]
  have hac : a ∈ cs.filter (fun a => a.rep.sub.isEmpty) := by
    rw [hs.topAll, hl, List.filter_append] at ha
    rcases List.mem_append.mp ha with h | h
    · exact h
    · have := (hes _ (List.mem_filter.mp h).1).1; rw [he] at this; cases this
  obtain ⟨as, bs, hl'⟩ := List.append_of_mem hac
  rw [List.find?_eq_some_iff_append]
  refine ⟨by simpa using hn, as, bs ++ es.filter (fun a => a.rep.sub.isEmpty), by rw [hl']; simp, ?_⟩
  intro b hb
  have hd := hs.distinct
  rw [hs.topAll, hl, List.filter_append, hl', List.append_assoc, List.Nodup, List.pairwise_map, List.pairwise_append] at hd
  have := hd.2.2 b hb a List.mem_cons_self
  have hbc : b ∈ cs := (List.mem_filter.mp (by rw [hl']; simp [hb] : b ∈ cs.filter (fun a => a.rep.sub.isEmpty))).1
  have hac' : a ∈ cs := (List.mem_filter.mp hac).1
  simp only [(hcs b hbc).2, (hcs a hac').2, ne_eq, Prod.mk.injEq, true_and] at this
  simp only [Bool.not_eq_true', beq_eq_false_iff_ne, ← hn]
  exact this

theorem Schema.WF.getSub_of_mem {s : Schema} (hs : s.WF) {a : Attr} (ha : a ∈ s.attrs.all) (he : a.rep.ext = false)
    {name sub : Str} (hn : lower a.rep.attr = lower name) (hsn : lower a.rep.sub = lower sub) :
    s.attrs.getSub name sub = some a := by
  obtain ⟨cs, es, hl, hcs, hes⟩ := hs.order
  unfold Attributes.getSub
  have hac : a ∈ cs := by
    rw [hl] at ha
    rcases List.mem_append.mp ha with h | h
    · exact h
    · have := (hes _ h).1; rw [he] at this; cases this
  obtain ⟨as, bs, hl'⟩ := List.append_of_mem hac
  rw [List.find?_eq_some_iff_append]
  refine ⟨by simp [hn, hsn], as, bs ++ es, by rw [hl, hl']; simp, ?_⟩
  intro b hb
  have hbc : b ∈ cs := by rw [hl']; simp [hb]
  have hd := hs.names
  rw [hl, hl', List.append_assoc, List.Nodup, List.pairwise_map, List.pairwise_append] at hd
  have := hd.2.2 b hb a List.mem_cons_self
  simp only [(hcs b hbc).2, (hcs a hac).2, ne_eq, Prod.mk.injEq, true_and] at this
  simp only [Bool.not_eq_true', Bool.and_eq_false_iff, beq_eq_false_iff_ne, ← hn, ← hsn]
  by_cases e : lower b.rep.attr = lower a.rep.attr
  · exact .inr (fun e' => this ⟨e, e'⟩)
  · exact .inl e

/-- Nothing but a string equals a string. -/
theorem pyEq_str_right {v : Val} {t : Str} (h : v.pyEq (.str t) = .ok true) : v = .str t := by
  cases v with
  | prim p =>
    rw [show Val.str t = .prim (.str t) from rfl, pyEq_prim] at h
    cases p <;> simp [Prim.pyEq, Prim.num?] at h ⊢
    subst h; rfl
  | _ => simp [Val.pyEq, Val.pyEqN, Val.str] at h

theorem pyEq_str_left {v : Val} {t : Str} (h : (Val.str t).pyEq v = .ok true) : v = .str t := by
  cases v with
  | prim p =>
    rw [show Val.str t = .prim (.str t) from rfl, pyEq_prim] at h
    cases p <;> simp [Prim.pyEq, Prim.num?] at h ⊢
    subst h; rfl
  | _ => simp [Val.pyEq, Val.pyEqN, Val.str] at h

/-- The contents of a complex value made by its attribute. -/
structure SubView (subs : List Attr) (d : List (Str × Val)) (lc : List (Str × Str)) : Prop extends DInv d lc where
  declared : ∀ k ∈ d.map (·.1), ∃ s ∈ subs, s.rep.attr = k

theorem processSubs_view {m : Mode} {subs : List Attr} (hs : PlainSubs subs) {loc : Loc}
    {item : Val} {acc : Issues} {r : Val} {is : Issues}
    (h : processSubs m subs loc item .emptyCont acc = .ok (r, is)) : ∃ d lc, r = .cont d lc ∧ SubView subs d lc := by
  rw [← mkCont_nil] at h
  obtain ⟨h1, h2, h3⟩ := processSubs_spec subs loc item [] acc r is hs.plain
    (lower_nodup_attr hs.distinct) (by simp) h
  rw [List.nil_append] at h1
  obtain ⟨hn, hmem⟩ := outs_names (m := m) (item := item) lower hs.distinct
  have hn' : ((((subs.filterMap (subOut m item)).map (fun o => (o.1, o.2.1))).map (·.1)).map lower).Nodup := by
    rw [List.map_map, List.map_map]; exact hn
  refine ⟨_, _, h1, ⟨mkCont_inv _ (List.Pairwise.of_map _ (fun _ _ hne e => hne (e ▸ rfl)) hn'), ?_⟩, ?_⟩
  · intro k hk
    exact aget_lcOf_of_mem hn' hk
  · intro k hk
    obtain ⟨e, he, rfl⟩ := List.mem_map.mp hk
    obtain ⟨o, ho, rfl⟩ := List.mem_map.mp he
    obtain ⟨s, hsm, e⟩ := hmem o ho
    exact ⟨s, hsm, (subOut_name e).symm⟩

theorem SubView.get {subs : List Attr} (hs : PlainSubs subs) {d lc} (h : SubView subs d lc) {a : Attr} (ha : a ∈ subs) :
    (Val.cont d lc).getItem a.rep = .ok ((aget a.rep.attr d).getD .missing) := by
  have hn : aget (lower a.rep.schema) lc = none := by
    apply h.lc_none
    intro k hk e
    obtain ⟨t, ht, rfl⟩ := h.declared k hk
    rw [(hs.plain a ha).1] at e
    exact hs.named t ht ((PyEnv.lower_eq_nil _).1 (by rw [e, (PyEnv.lower_eq_nil []).2 rfl]))
  rw [getItem_noKey hn, (hs.plain a ha).2.1]
  cases hg : aget a.rep.attr d with
  | some v =>
    rw [h.complete _ (aget_isSome_iff.mp (by rw [hg]; rfl))]
    simp [hg]
  | none =>
    rw [h.lc_none]
    · rfl
    intro k hk e
    obtain ⟨t, ht, rfl⟩ := h.declared k hk
    have := eq_of_map_nodup hs.distinct ht ha e
    rw [this] at hk
    rw [aget_eq_none_iff] at hg
    exact hg hk

theorem SubView.getX {subs : List Attr} (hs : PlainSubs subs) {d lc} (h : SubView subs d lc) {a : Attr} (ha : a ∈ subs)
    (hname : isAttrName a.rep.attr = true) :
    Val.getX true (.cont d lc) { attr := a.rep.attr } = .ok ((aget a.rep.attr d).getD .missing) := by
  rw [getX_true_cont hname (h.lc_none (by
    intro k hk e
    obtain ⟨t, ht, rfl⟩ := h.declared k hk
    exact hs.named t ht ((PyEnv.lower_eq_nil _).1 (by rw [e, (PyEnv.lower_eq_nil []).2 rfl]))))]
  cases hg : aget a.rep.attr d with
  | some v =>
    simp [h.complete _ (aget_isSome_iff.mp (by rw [hg]; rfl)), hg]
  | none =>
    rw [h.lc_none]
    · rfl
    intro k hk e
    obtain ⟨t, ht, rfl⟩ := h.declared k hk
    have := eq_of_map_nodup hs.distinct ht ha e
    rw [this] at hk
    rw [aget_eq_none_iff] at hg
    exact hg hk

end Scim
