import Verif.Lemmas.SchemaDoc

/-! Representations of attributes pass through the Schema resource. -/

namespace Scim
variable [PyEnv]
open Issues SchemaA

/-! ## Reading dictionaries with known names -/

/-- Names that letter case does not confuse. -/
def Unconfused (names : List Str) : Prop :=
  (∀ a ∈ names, a ≠ []) ∧ ∀ a ∈ names, ∀ b ∈ names, lower a = lower b → a = b

theorem unconfused_of {names : List Str} (h : (names.all (fun n => asciiStr n && !n.isEmpty) &&
    names.all (fun a => names.all (fun b => !decide (lowAscii a = lowAscii b) || decide (a = b)))) = true) :
    Unconfused names := by
  rw [Bool.and_eq_true] at h
  have h1 := List.all_eq_true.mp h.1
  have h2 := List.all_eq_true.mp h.2
  refine ⟨?_, ?_⟩
  · intro a ha e
    have := h1 a ha
    rw [e] at this
    simp at this
  · intro a ha b hb e
    have ha' := h1 a ha
    have hb' := h1 b hb
    rw [Bool.and_eq_true] at ha' hb'
    rw [lower_asciiStr ha'.1, lower_asciiStr hb'.1] at e
    have := List.all_eq_true.mp (h2 a ha) b hb
    simpa [e] using this

theorem dict_read {names : List Str} (hu : Unconfused names) {es : List (Str × Val)} (hk : ∀ k ∈ es.map (·.1), k ∈ names)
    (hn : (es.map (·.1)).Nodup) {r : AttrRep} (hr : r.sub = []) (ha : r.attr ∈ names)
    (hs : ∀ k ∈ names, lower k ≠ lower r.schema) :
    (Val.cont (convPairs es) (lcOf (es.map (·.1)))).getItem r =
      .ok (match aget r.attr es with | none => .missing | some v => convVal v) := by
  have e1 : Val.cont (convPairs es) (lcOf (es.map (·.1))) = mkCont (convPairs es) := by
    unfold mkCont; rw [keys_convPairs]
  have hk' : ∀ e ∈ convPairs es, e.1 ∈ names := fun e he =>
    hk _ (by rw [← keys_convPairs]; exact List.mem_map.mpr ⟨e, he, rfl⟩)
  have hn' : ((convPairs es).map (fun e => lower e.1)).Nodup := by
    have e2 : (convPairs es).map (fun e => lower e.1) = (es.map (·.1)).map lower := by
      rw [← keys_convPairs, List.map_map]; rfl
    rw [e2, List.Nodup, List.pairwise_map]
    refine List.Pairwise.imp_of_mem ?_ hn
    intro a b ha hb hne e
    exact hne (hu.2 a (hk a ha) b (hk b hb) e)
  rw [e1, mkCont_get hn' hr (fun e he => hs _ (hk' e he))]
  have e3 : ∀ l : List (Str × Val), (∀ e ∈ l, e.1 ∈ names) →
      (l.find? (fun e => lower e.1 == lower r.attr)).map (·.2) = aget r.attr l := by
    intro l
    induction l with
    | nil => intro _; rfl
    | cons e l ih =>
      intro hl
      obtain ⟨k, v⟩ := e
      rw [aget_cons, List.find?_cons]
      have hkm : k ∈ names := hl (k, v) (by simp)
      by_cases h : k = r.attr
      · subst h; simp
      · rw [if_neg h]
        have : (lower k == lower r.attr) = false := by
          rw [beq_eq_false_iff_ne]
          exact fun e => h (hu.2 _ hkm _ ha e)
        simp only [this]
        exact ih (fun e he => hl e (List.mem_cons_of_mem _ he))
  have e4 := e3 _ hk'
  rw [aget_convPairs] at e4
  cases hf : (convPairs es).find? (fun e => lower e.1 == lower r.attr) with
  | none =>
    rw [hf] at e4
    cases hg : aget r.attr es with
    | none => rfl
    | some v => rw [hg] at e4; cases e4
  | some e =>
    rw [hf] at e4
    cases hg : aget r.attr es with
    | none => rw [hg] at e4; cases e4
    | some v =>
      rw [hg] at e4
      simp only [Option.map_some, Option.some.injEq] at e4
      simp only [e4]

/-! ## The dictionaries of attributes -/

/-- The names used by the dictionaries. -/
def docNames : List Str :=
  ["name".toList, "type".toList, "subAttributes".toList, "multiValued".toList, "description".toList,
   "required".toList, "canonicalValues".toList, "caseExact".toList, "mutability".toList, "returned".toList,
   "uniqueness".toList, "referenceTypes".toList]

theorem docNames_unconfused : Unconfused docNames := unconfused_of (by decide +kernel)

/-- The sub-attributes entry. -/
def subsEntry : Option (List Val) → List (Str × Val)
  | none => []
  | some ds => [("subAttributes".toList, .list ds)]

/-- All entries of the dictionary of an attribute. -/
def docEntries (i : AttrInfo) (t : Str) (subs : Option (List Val)) : List (Str × Val) :=
  [("name".toList, .str i.rep.attr), ("type".toList, .str t), ("multiValued".toList, .bool i.multi),
      ("description".toList, .str i.description), ("required".toList, .bool i.required),
      ("caseExact".toList, .bool i.caseExact), ("mutability".toList, .str i.mutability.value),
      ("returned".toList, .str i.returned.value), ("uniqueness".toList, .str i.uniqueness.value)]
     ++ canonicalEntry i.canonical ++ refTypesEntry i.refTypes ++ subsEntry subs

/-- The keys of the dictionary. -/
theorem docEntries_keys (i : AttrInfo) (t : Str) (subs : Option (List Val)) :
    (∀ k ∈ (docEntries i t subs).map (·.1), k ∈ docNames) ∧ ((docEntries i t subs).map (·.1)).Nodup := by
  have h : ∃ b1 b2 b3 : Bool, (docEntries i t subs).map (·.1) =
      ["name".toList, "type".toList, "multiValued".toList, "description".toList, "required".toList, "caseExact".toList,
       "mutability".toList, "returned".toList, "uniqueness".toList] ++ (if b1 then ["canonicalValues".toList] else []) ++
       (if b2 then ["referenceTypes".toList] else []) ++ (if b3 then ["subAttributes".toList] else []) := by
    unfold docEntries
    have h1 : ∃ b1 : Bool, (canonicalEntry i.canonical).map (·.1) = if b1 then ["canonicalValues".toList] else [] := by
      rcases i.canonical with _ | (_ | ⟨c, r⟩)
      · exact ⟨false, rfl⟩
      · exact ⟨false, rfl⟩
      · exact ⟨true, rfl⟩
    have h2 : ∃ b2 : Bool, (refTypesEntry i.refTypes).map (·.1) = if b2 then ["referenceTypes".toList] else [] := by
      rcases i.refTypes with _ | ⟨c, r⟩
      · exact ⟨false, rfl⟩
      · exact ⟨true, rfl⟩
    have h3 : ∃ b3 : Bool, (subsEntry subs).map (·.1) = if b3 then ["subAttributes".toList] else [] := by
      rcases subs with _ | ds
      · exact ⟨false, rfl⟩
      · exact ⟨true, rfl⟩
    obtain ⟨b1, h1⟩ := h1
    obtain ⟨b2, h2⟩ := h2
    obtain ⟨b3, h3⟩ := h3
    refine ⟨b1, b2, b3, ?_⟩
    rw [List.map_append, List.map_append, List.map_append, h1, h2, h3]
    rfl
  obtain ⟨b1, b2, b3, e⟩ := h
  rw [e]
  unfold docNames
  constructor
  · clear e; revert b1 b2 b3; decide +kernel
  · clear e; revert b1 b2 b3; decide +kernel

/-- The container made of the dictionary. -/
def rawDoc (i : AttrInfo) (t : Str) (subs : Option (List Val)) : Val :=
  .cont (convPairs (docEntries i t subs)) (lcOf ((docEntries i t subs).map (·.1)))

/-- What is read for an entry. -/
def readEntry : Option Val → Val
  | none => .missing
  | some v => convVal v

/-- The first of two values. -/
def orEntry : Option Val → Option Val → Option Val
  | some v, _ => some v
  | none, w => w

/-- The canonical values in the dictionary. -/
def canonVal : Option (List Prim) → Option Val
  | none | some [] => none
  | some (c :: r) => some (.list ((c :: r).map .prim))

/-- The reference types in the dictionary. -/
def refVal : List Str → Option Val
  | [] => none
  | c :: r => some (.list ((c :: r).map .str))

theorem rawDoc_read (i : AttrInfo) (t : Str) (subs : Option (List Val)) {n : Str} (hn : n ∈ docNames) :
    (rawDoc i t subs).getItem { attr := n } = .ok (readEntry (aget n (docEntries i t subs))) := by
  refine (dict_read (r := { attr := n }) docNames_unconfused (docEntries_keys i t subs).1 (docEntries_keys i t subs).2 rfl hn
    (fun k hk => lower_ne_nil (docNames_unconfused.1 k hk))).trans ?_
  cases aget n (docEntries i t subs) <;> rfl

omit [PyEnv] in
theorem aget_append' (k : Str) (l1 l2 : List (Str × Val)) :
    aget k (l1 ++ l2) = match aget k l1 with | some v => some v | none => aget k l2 := by
  induction l1 with
  | nil => rfl
  | cons e l ih =>
    obtain ⟨a, v⟩ := e
    rw [List.cons_append, aget_cons, aget_cons]
    split
    · rfl
    · exact ih

omit [PyEnv] in
theorem aget_one (k w : Str) (v : Val) : aget k [(w, v)] = if k = w then some v else none := by
  rw [aget_cons]
  by_cases h : k = w
  · rw [if_pos h.symm, if_pos h]
  · rw [if_neg (Ne.symm h), if_neg h]; rfl

omit [PyEnv] in
theorem aget_canonicalEntry (k : Str) (cs : Option (List Prim)) :
    aget k (canonicalEntry cs) = if k = "canonicalValues".toList then canonVal cs else none := by
  rcases cs with _ | (_ | ⟨c, r⟩)
  · show none = _; split <;> rfl
  · show none = _; split <;> rfl
  · exact aget_one _ _ _

omit [PyEnv] in
theorem aget_refTypesEntry (k : Str) (rs : List Str) :
    aget k (refTypesEntry rs) = if k = "referenceTypes".toList then refVal rs else none := by
  rcases rs with _ | ⟨c, r⟩
  · show none = _; split <;> rfl
  · exact aget_one _ _ _

omit [PyEnv] in
theorem aget_subsEntry (k : Str) (subs : Option (List Val)) :
    aget k (subsEntry subs) = if k = "subAttributes".toList then subs.map .list else none := by
  rcases subs with _ | ds
  · show none = _; split <;> rfl
  · exact aget_one _ _ _

omit [PyEnv] in
theorem aget_docEntries {k : Str} (i : AttrInfo) (t : Str) (subs : Option (List Val)) {v : Option Val}
    (hv : aget k [("name".toList, .str i.rep.attr), ("type".toList, .str t), ("multiValued".toList, .bool i.multi),
        ("description".toList, .str i.description), ("required".toList, .bool i.required),
        ("caseExact".toList, .bool i.caseExact), ("mutability".toList, .str i.mutability.value),
        ("returned".toList, .str i.returned.value), ("uniqueness".toList, Val.str i.uniqueness.value)] = v) :
    aget k (docEntries i t subs) =
      orEntry v (if k = "canonicalValues".toList then canonVal i.canonical
        else if k = "referenceTypes".toList then refVal i.refTypes
        else if k = "subAttributes".toList then subs.map .list else none) := by
  unfold docEntries
  rw [aget_append', aget_append', aget_append', aget_canonicalEntry, aget_refTypesEntry, aget_subsEntry]
  rw [hv]
  cases v with
  | some v => rfl
  | none =>
    unfold orEntry
    by_cases h1 : k = "canonicalValues".toList
    · subst h1
      simp only [if_true]
      rw [if_neg (show "canonicalValues".toList ≠ "referenceTypes".toList by decide),
        if_neg (show "canonicalValues".toList ≠ "subAttributes".toList by decide)]
      cases canonVal i.canonical <;> rfl
    · simp only [if_neg h1]
      by_cases h2 : k = "referenceTypes".toList
      · subst h2
        simp only [if_true]
        rw [if_neg (show "referenceTypes".toList ≠ "subAttributes".toList by decide)]
        cases refVal i.refTypes <;> rfl
      · simp only [if_neg h2]

theorem convItems_prims (cs : List Prim) : convItems (cs.map .prim) = cs.map .prim := by
  induction cs with
  | nil => rfl
  | cons c cs ih => simp only [List.map_cons, convItems, ih]

theorem convItems_strs (rs : List Str) : convItems (rs.map .str) = rs.map .str := by
  have := convItems_prims (rs.map .str)
  rw [List.map_map] at this
  exact this

/-- What the container says. -/
structure RawDoc (i : AttrInfo) (t : Str) (subs : Option (List Val)) (x : Val) : Prop where
  object : x.isCont = true
  name : x.Has "name".toList (.str i.rep.attr)
  type : x.Has "type".toList (.str t)
  subs : x.Has "subAttributes".toList (match subs with | none => .missing | some ds => .list (convItems ds))
  multi : x.Has "multiValued".toList (.bool i.multi)
  description : x.Has "description".toList (.str i.description)
  required : x.Has "required".toList (.bool i.required)
  canonical : x.Has "canonicalValues".toList
    (match i.canonical with | none | some [] => .missing | some cs => .list (cs.map .prim))
  caseExact : x.Has "caseExact".toList (.bool i.caseExact)
  mutability : x.Has "mutability".toList (.str i.mutability.value)
  returned : x.Has "returned".toList (.str i.returned.value)
  uniqueness : x.Has "uniqueness".toList (.str i.uniqueness.value)
  refTypes : x.Has "referenceTypes".toList (if i.refTypes = [] then .missing else .list (i.refTypes.map .str))

theorem rawDoc_raw (i : AttrInfo) (t : Str) (subs : Option (List Val)) : RawDoc i t subs (rawDoc i t subs) := by
  refine ⟨rfl, ?_, ?_, ?_, ?_, ?_, ?_, ?_, ?_, ?_, ?_, ?_, ?_⟩
  · exact (rawDoc_read i t subs (by decide)).trans (by rw [aget_docEntries (k := "name".toList) (v := some (.str i.rep.attr)) i t subs rfl]; rfl)
  · exact (rawDoc_read i t subs (by decide)).trans (by rw [aget_docEntries (k := "type".toList) (v := some (.str t)) i t subs rfl]; rfl)
  · refine (rawDoc_read i t subs (by decide)).trans ?_
    rw [aget_docEntries (k := "subAttributes".toList) (v := none) i t subs rfl]
    unfold orEntry
    rw [if_neg (by decide), if_neg (by decide), if_pos rfl]
    cases subs <;> rfl
  · exact (rawDoc_read i t subs (by decide)).trans (by rw [aget_docEntries (k := "multiValued".toList) (v := some (.bool i.multi)) i t subs rfl]; rfl)
  · exact (rawDoc_read i t subs (by decide)).trans (by rw [aget_docEntries (k := "description".toList) (v := some (.str i.description)) i t subs rfl]; rfl)
  · exact (rawDoc_read i t subs (by decide)).trans (by rw [aget_docEntries (k := "required".toList) (v := some (.bool i.required)) i t subs rfl]; rfl)
  · refine (rawDoc_read i t subs (by decide)).trans ?_
    rw [aget_docEntries (k := "canonicalValues".toList) (v := none) i t subs rfl]
    unfold orEntry
    rw [if_pos rfl]
    rcases i.canonical with _ | (_ | ⟨c, r⟩)
    · rfl
    · rfl
    · simp only [canonVal, readEntry, convVal]
      rw [convItems_prims]
  · exact (rawDoc_read i t subs (by decide)).trans (by rw [aget_docEntries (k := "caseExact".toList) (v := some (.bool i.caseExact)) i t subs rfl]; rfl)
  · exact (rawDoc_read i t subs (by decide)).trans (by rw [aget_docEntries (k := "mutability".toList) (v := some (.str i.mutability.value)) i t subs rfl]; rfl)
  · exact (rawDoc_read i t subs (by decide)).trans (by rw [aget_docEntries (k := "returned".toList) (v := some (.str i.returned.value)) i t subs rfl]; rfl)
  · exact (rawDoc_read i t subs (by decide)).trans (by rw [aget_docEntries (k := "uniqueness".toList) (v := some (.str i.uniqueness.value)) i t subs rfl]; rfl)
  · refine (rawDoc_read i t subs (by decide)).trans ?_
    rw [aget_docEntries (k := "referenceTypes".toList) (v := none) i t subs rfl]
    unfold orEntry
    rw [if_neg (by decide), if_pos rfl]
    rcases i.refTypes with _ | ⟨c, r⟩
    · rfl
    · rw [if_neg (by simp)]
      simp only [refVal, readEntry, convVal]
      rw [convItems_strs]
/-! ## The dictionaries of documentable attributes -/

omit [PyEnv] in
theorem scimName_of {ty : AttrType} {t : Str} (h : ty.documentName = some t) : ty.scimName = .ok t ∧ t ∈ documentTypes := by
  cases ty <;> simp only [AttrType.documentName, reduceCtorEq, Option.some.injEq] at h <;> subst h <;>
    exact ⟨rfl, by decide⟩

omit [PyEnv] in
theorem toEntries_of {i : AttrInfo} {t : Str} (h : i.type.documentName = some t) : i.toEntries = .ok (docEntries i t none) := by
  unfold AttrInfo.toEntries
  rw [(scimName_of h).1]
  simp only [docEntries, subsEntry, List.append_nil]

mutual
theorem toDict_total : ∀ (a : Attr), a.Documentable → ∃ d, a.toDict = .ok d
  | .simple i, h => by
    obtain ⟨t, ht⟩ := Option.isSome_iff_exists.mp h
    rw [Attr.toDict, toEntries_of ht]
    exact ⟨_, rfl⟩
  | .complex i subs _ _, h => by
    obtain ⟨ds, hds⟩ := attrDicts_total subs h.2
    rw [Attr.toDict, toEntries_of (t := "complex".toList) (by rw [h.1]; rfl), hds]
    exact ⟨_, rfl⟩
theorem attrDicts_total : ∀ (as : List Attr), DocumentableAll as → ∃ ds, attrDicts as = .ok ds
  | [], _ => ⟨[], by rw [attrDicts]⟩
  | a :: r, h => by
    obtain ⟨d, hd⟩ := toDict_total a h.1
    obtain ⟨ds, hds⟩ := attrDicts_total r h.2
    rw [attrDicts, hd, hds]
    exact ⟨_, rfl⟩
end

/-- The container made of the dictionary of an attribute. -/
inductive DocOf : Attr → Val → Prop
  | simple (i : AttrInfo) (t : Str) (h : i.type.documentName = some t) : DocOf (.simple i) (rawDoc i t none)
  | complex (i : AttrInfo) (subs : List Attr) (ps qs : List Proc) (ds : List Val) (h : i.type = .complex)
      (hd : attrDicts subs = .ok ds) : DocOf (.complex i subs ps qs) (rawDoc i "complex".toList (some ds))

theorem toDict_conv {a : Attr} (h : a.Documentable) {d : Val} (hd : a.toDict = .ok d) :
    ∃ es, d = .dict es ∧ DocOf a (.cont (convPairs es) (lcOf (es.map (·.1)))) := by
  cases a with
  | simple i =>
    obtain ⟨t, ht⟩ := Option.isSome_iff_exists.mp h
    rw [Attr.toDict, toEntries_of ht] at hd
    cases hd
    exact ⟨_, rfl, .simple i t ht⟩
  | complex i subs ps qs =>
    obtain ⟨ds, hds⟩ := attrDicts_total subs h.2
    rw [Attr.toDict, toEntries_of (t := "complex".toList) (by rw [h.1]; rfl), hds] at hd
    have e : docEntries i "complex".toList none ++ [("subAttributes".toList, Val.list ds)] =
        docEntries i "complex".toList (some ds) := by
      simp only [docEntries, subsEntry, List.append_nil]
    cases hd
    exact ⟨_, rfl, by rw [e]; exact .complex i subs ps qs ds h.1 hds⟩

/-- The containers made of the dictionaries, one for each attribute. -/
inductive DocsOf : List Attr → List Val → Prop
  | nil : DocsOf [] []
  | cons (a : Attr) (as : List Attr) (x : Val) (xs : List Val) (h : DocOf a x) (r : DocsOf as xs) : DocsOf (a :: as) (x :: xs)

theorem attrDicts_conv {as : List Attr} (h : DocumentableAll as) {ds : List Val} (hd : attrDicts as = .ok ds) :
    DocsOf as (convItems ds) := by
  induction as generalizing ds with
  | nil => rw [attrDicts] at hd; cases hd; exact .nil
  | cons a as ih =>
    rw [attrDicts] at hd
    split at hd
    · cases hd
    · rename_i d hda
      split at hd
      · cases hd
      · rename_i ds' hds
        cases hd
        obtain ⟨es, rfl, hdoc⟩ := toDict_conv h.1 hda
        rw [convItems]
        exact .cons a as _ _ hdoc (ih h.2 hds)

theorem DocOf.raw {a : Attr} {x : Val} (h : DocOf a x) : ∃ t so, a.info.type.documentName = some t ∧ RawDoc a.info t so x ∧
    ((∃ i, a = .simple i ∧ so = none) ∨
      ∃ i subs ps qs ds, a = .complex i subs ps qs ∧ t = "complex".toList ∧ attrDicts subs = .ok ds ∧ so = some ds) := by
  cases h with
  | simple i t h => exact ⟨t, none, h, rawDoc_raw i t none, .inl ⟨i, rfl, rfl⟩⟩
  | complex i subs ps qs ds h hd =>
    exact ⟨_, some ds, by rw [show (Attr.complex i subs ps qs).info = i from rfl, h]; rfl, rawDoc_raw i _ _,
      .inr ⟨i, subs, ps, qs, ds, rfl, rfl, hd, rfl⟩⟩

/-- Every sub-attribute accepts what the representation says, unchanged. -/
theorem raw_quiet {i : AttrInfo} {t : Str} {so : Option (List Val)} {x : Val} (h : RawDoc i t so x) (ht : t ∈ documentTypes) :
    ∀ s ∈ attributesSubs, ∃ z, x.getItem s.rep = .ok z ∧ (z.isMissing = false → s.process .dump z = .ok (z, {})) := by
  intro s hs
  simp only [attributesSubs, List.mem_cons, List.not_mem_nil, or_false] at hs
  rcases hs with rfl | rfl | rfl | rfl | rfl | rfl | rfl | rfl | rfl | rfl | rfl | rfl
  · exact ⟨_, h.name, fun _ => string_quiet rfl rfl rfl (fun e => by cases e)⟩
  · refine ⟨_, h.type, fun _ => string_quiet rfl rfl rfl (fun _ => ?_)⟩
    exact (words_canonical (ws := documentTypes) rfl rfl t).mpr ⟨t, ht, rfl⟩
  · exact ⟨_, h.subs, fun _ => unknown_quiet rfl rfl rfl rfl _⟩
  · exact ⟨_, h.multi, fun _ => bool_quiet rfl rfl rfl rfl _⟩
  · exact ⟨_, h.description, fun _ => string_quiet rfl rfl rfl (fun e => by cases e)⟩
  · exact ⟨_, h.required, fun _ => bool_quiet rfl rfl rfl rfl _⟩
  · refine ⟨_, h.canonical, fun hm => ?_⟩
    rcases hc : i.canonical with _ | (_ | ⟨c, r⟩)
    · rw [hc] at hm; cases hm
    · rw [hc] at hm; cases hm
    · exact multi_quiet rfl rfl rfl (fun z _ => conv_unknown _ _)
  · exact ⟨_, h.caseExact, fun _ => bool_quiet rfl rfl rfl rfl _⟩
  · refine ⟨_, h.mutability, fun _ => string_quiet rfl rfl rfl (fun _ => ?_)⟩
    exact (words_canonical (ws := ["readOnly".toList, "readWrite".toList, "immutable".toList, "writeOnly".toList]) rfl rfl _).mpr
      ⟨_, by cases i.mutability <;> decide, rfl⟩
  · refine ⟨_, h.returned, fun _ => string_quiet rfl rfl rfl (fun _ => ?_)⟩
    exact (words_canonical (ws := ["always".toList, "never".toList, "default".toList, "request".toList]) rfl rfl _).mpr
      ⟨_, by cases i.returned <;> decide, rfl⟩
  · refine ⟨_, h.uniqueness, fun _ => string_quiet rfl rfl rfl (fun _ => ?_)⟩
    exact (words_canonical (ws := ["none".toList, "server".toList, "global".toList]) rfl rfl _).mpr
      ⟨_, by cases i.uniqueness <;> decide, rfl⟩
  · refine ⟨_, h.refTypes, fun hm => ?_⟩
    by_cases hc : i.refTypes = []
    · rw [if_pos hc] at hm; cases hm
    · rw [if_neg hc]
      refine multi_quiet rfl rfl rfl (fun z hz => ?_)
      obtain ⟨r, -, rfl⟩ := List.mem_map.mp hz
      rfl

/-- The first stage keeps what the representation says. -/
theorem raw_mid {i : AttrInfo} {t : Str} {so : Option (List Val)} {x mid : Val} (h : RawDoc i t so x) (ht : t ∈ documentTypes)
    (hsub : SubResult .dump attributesSubs x mid) : RawDoc i t so mid := by
  have hread : ∀ s ∈ attributesSubs, mid.getItem s.rep = x.getItem s.rep := by
    intro s hs
    obtain ⟨z, hz, hq⟩ := raw_quiet h ht s hs
    by_cases hm : z.isMissing = true
    · have : z = .missing := by cases z <;> simp [Val.isMissing] at hm; rfl
      subst this
      rw [hz, hsub.absent s hs hz]
    · obtain ⟨y, k, hp, hg⟩ := hsub.present s hs z hz (by simpa using hm)
      rw [hq (by simpa using hm)] at hp
      cases hp
      rw [hz, hg]
  have hm : ∀ (k : Nat) s, attributesSubs[k]? = some s → mid.getItem s.rep = x.getItem s.rep :=
    fun k s hk => hread s (List.mem_of_getElem? hk)
  exact ⟨hsub.cont, has_same (hm 0 _ rfl) h.name, has_same (hm 1 _ rfl) h.type, has_same (hm 2 _ rfl) h.subs,
    has_same (hm 3 _ rfl) h.multi, has_same (hm 4 _ rfl) h.description, has_same (hm 5 _ rfl) h.required,
    has_same (hm 6 _ rfl) h.canonical, has_same (hm 7 _ rfl) h.caseExact, has_same (hm 8 _ rfl) h.mutability,
    has_same (hm 9 _ rfl) h.returned, has_same (hm 10 _ rfl) h.uniqueness, has_same (hm 11 _ rfl) h.refTypes⟩

omit [PyEnv] in
theorem mutability_word (i : AttrInfo) : i.mutability.value = i.mutability.documentName := by
  cases i.mutability <;> rfl

omit [PyEnv] in
theorem returned_word (i : AttrInfo) : i.returned.value = i.returned.documentName := by
  cases i.returned <;> rfl

omit [PyEnv] in
theorem uniqueness_word (i : AttrInfo) : i.uniqueness.value = i.uniqueness.documentName := by
  cases i.uniqueness <;> rfl

/-- The post-processor leaves the description of the attribute. -/
theorem described_of_done {nested : Val → PyM (Val × Issues)} {i : AttrInfo} {t : Str} {so : Option (List Val)} {mid y : Val}
    {is : Issues} (h : RawDoc i t so mid) (ht : i.type.documentName = some t) (hd : ItemDone nested mid y is) :
    i.DescribedBy y := by
  have hne : ∀ n, asciiStr n = true → lowAscii n ≠ lowAscii "subAttributes".toList → lowAscii n ≠ lowAscii "caseExact".toList →
      y.getItem { attr := n } = mid.getItem { attr := n } := fun n h1 h2 h3 =>
    hd.same n (lower_ne_ascii h1 (by decide) h2) (lower_ne_ascii h1 (by decide) h3)
  have hty : i.type = .string ↔ mid.Has "type".toList (.str "string".toList) := by
    have h1 := h.type
    unfold Val.Has at h1 ⊢
    rw [h1]
    have h2 : i.type = .string ↔ t = "string".toList := by
      cases hi : i.type <;> rw [hi] at ht <;> simp only [AttrType.documentName, reduceCtorEq, Option.some.injEq] at ht <;>
        subst ht <;> decide
    rw [h2]
    constructor
    · rintro rfl; rfl
    · intro e
      simpa [Val.str] using Except.ok.inj e
  refine ⟨hd.tidy.isCont, has_same (hne _ (by decide) (by decide) (by decide)) h.name,
    ⟨t, ht, has_same (hne _ (by decide) (by decide) (by decide)) h.type⟩,
    has_same (hne _ (by decide) (by decide) (by decide)) h.multi,
    has_same (hne _ (by decide) (by decide) (by decide)) h.description,
    has_same (hne _ (by decide) (by decide) (by decide)) h.required,
    has_same (hne _ (by decide) (by decide) (by decide)) h.canonical, ?_,
    has_same (hne _ (by decide) (by decide) (by decide)) (mutability_word i ▸ h.mutability),
    has_same (hne _ (by decide) (by decide) (by decide)) (returned_word i ▸ h.returned),
    has_same (hne _ (by decide) (by decide) (by decide)) (uniqueness_word i ▸ h.uniqueness),
    has_same (hne _ (by decide) (by decide) (by decide)) h.refTypes⟩
  by_cases e : i.type = .string
  · rw [if_pos e]
    obtain ⟨ce, h1, -, h2⟩ := hd.string (hty.mp e)
    have h3 := h.caseExact
    unfold Val.Has at h1 h3
    rw [h3] at h1
    cases h1
    exact h2
  · rw [if_neg e]
    exact hd.other (fun h => e (hty.mpr h))

/-- A name that is not declared is not in the result of the first stage. -/
theorem mid_undeclared {x mid : Val} (hsub : SubResult .dump attributesSubs x mid) (ht : mid.Tidy) {n : Str}
    (hn : asciiStr n = true) (hne : ∀ k ∈ docNames, lowAscii k ≠ lowAscii n) : mid.Has n .missing := by
  obtain ⟨d, lc, rfl, hi, h0⟩ := ht
  unfold Val.Has
  rw [getItem_noKey h0]
  cases hl : aget (lower n) lc with
  | none => rfl
  | some k =>
    exfalso
    have hs := hi.sound _ _ hl
    obtain ⟨s, hsm, rfl, -⟩ := hsub.declared k hs.2
    have hmem : s.rep.attr ∈ docNames := by
      have : attributesSubs.map (fun s => s.rep.attr) = docNames := rfl
      rw [← this]
      exact List.mem_map.mpr ⟨s, hsm, rfl⟩
    refine hne _ hmem ?_
    have ha : ∀ k ∈ docNames, asciiStr k = true := by decide
    rw [← lower_asciiStr (ha _ hmem), ← lower_asciiStr hn]
    exact hs.1.symm

theorem primaryEntries_none {ys : List Val} (h : ∀ y ∈ ys, y.isCont = true ∧ y.Has "primary".toList .missing) (k : Nat) :
    primaryEntries k ys = .ok [] := by
  induction ys generalizing k with
  | nil => rfl
  | cons y ys ih =>
    obtain ⟨hc, this⟩ := h y (by simp)
    unfold Val.Has at this
    have hg : y.getName "primary".toList = .ok .missing := by
      cases y <;> simp [Val.isCont] at hc
      simp only [Val.getName, primary_parse]
      exact this
    rw [primaryEntries]
    simp only [hg, ih (fun z hz => h z (List.mem_cons_of_mem _ hz))]
    rfl
theorem DocsOf.get {as : List Attr} {xs : List Val} (h : DocsOf as xs) : xs.length = as.length ∧
    ∀ (j : Nat) a, as[j]? = some a → ∃ x, xs[j]? = some x ∧ DocOf a x := by
  induction h with
  | nil => exact ⟨rfl, by intro j a h; simp at h⟩
  | cons a as x xs h r ih =>
    refine ⟨by simp [ih.1], ?_⟩
    intro j b hb
    cases j with
    | zero => simp only [List.getElem?_cons_zero, Option.some.injEq] at hb; subst hb; exact ⟨x, by simp, h⟩
    | succ j => simp only [List.getElem?_cons_succ] at hb ⊢; exact ih.2 j b hb

theorem allDescribedBy_of {as : List Attr} {ys : List Val} (hl : ys.length = as.length)
    (h : ∀ (j : Nat) a, as[j]? = some a → ∃ y, ys[j]? = some y ∧ a.DescribedBy y) : AllDescribedBy as ys := by
  induction as generalizing ys with
  | nil => cases ys with
    | nil => rfl
    | cons y ys => simp at hl
  | cons a as ih =>
    cases ys with
    | nil => simp at hl
    | cons y ys =>
      obtain ⟨y', hy, hd⟩ := h 0 a (by simp)
      simp only [List.getElem?_cons_zero, Option.some.injEq] at hy
      subst hy
      refine ⟨y, ys, rfl, hd, ih (by simpa using hl) ?_⟩
      intro j b hb
      obtain ⟨z, hz, hzd⟩ := h (j + 1) b (by simpa using hb)
      exact ⟨z, by simpa using hz, hzd⟩

omit [PyEnv] in
theorem nesting_get {as : List Attr} {j : Nat} {a : Attr} (h : as[j]? = some a) : a.nesting ≤ nestingAll as := by
  induction as generalizing j with
  | nil => simp at h
  | cons b as ih =>
    rw [nestingAll]
    cases j with
    | zero => simp only [List.getElem?_cons_zero, Option.some.injEq] at h; subst h; omega
    | succ j => simp only [List.getElem?_cons_succ] at h; have := ih h; omega

omit [PyEnv] in
theorem documentable_get {as : List Attr} (hd : DocumentableAll as) {j : Nat} {a : Attr} (h : as[j]? = some a) :
    a.Documentable := by
  induction as generalizing j with
  | nil => simp at h
  | cons b as ih =>
    cases j with
    | zero => simp only [List.getElem?_cons_zero, Option.some.injEq] at h; subst h; exact hd.1
    | succ j => simp only [List.getElem?_cons_succ] at h; exact ih hd.2 h

/-- One stage: representations pass, given that nested ones do. -/
theorem rep_stage {nested : Val → PyM (Val × Issues)} {as : List Attr} {xs : List Val} (hdoc : DocsOf as xs)
    (hnest : ∀ (j : Nat) i subs ps qs ds, as[j]? = some (.complex i subs ps qs) → attrDicts subs = .ok ds →
      ∃ ys, nested (.list (convItems ds)) = .ok (.list ys, {}) ∧ AllDescribedBy subs ys)
    {info : AttrInfo} {ps : List Proc} (hd : ComplexDecl .dump info) (hm : info.multi = true) :
    ∃ ys, (Attr.complex info attributesSubs ps [dumpAttributes nested, validateSinglePrimary]).process .dump (.list xs) =
        .ok (.list ys, {}) ∧ AllDescribedBy as ys := by
  obtain ⟨hlen, hget⟩ := hdoc.get
  have hraw : ∀ x ∈ xs, ∃ (j : Nat) (a : Attr), as[j]? = some a ∧ xs[j]? = some x ∧ DocOf a x := by
    intro x hx
    obtain ⟨j, hj, e⟩ := List.getElem_of_mem hx
    obtain ⟨x', hx', h⟩ := hget j as[j] (List.getElem?_eq_getElem (by omega))
    have : x' = x := by
      rw [List.getElem?_eq_getElem hj, e] at hx'
      exact (Option.some.inj hx').symm
    subst this
    exact ⟨j, _, List.getElem?_eq_getElem (by omega), hx', h⟩
  have hconts : ∀ x ∈ xs, x.isCont = true := by
    intro x hx
    obtain ⟨j, a, -, -, h⟩ := hraw x hx
    obtain ⟨t, so, -, h, -⟩ := h.raw
    exact h.object
  obtain ⟨mids, hmids⟩ := complexItems_quiet (m := .dump) attributesSubs_plain (xs := xs) (by
    intro x hx
    refine ⟨hconts x hx, ?_⟩
    intro s hs
    obtain ⟨j, a, -, -, h⟩ := hraw x hx
    obtain ⟨t, so, ht, h, -⟩ := h.raw
    obtain ⟨z, hz, hq⟩ := raw_quiet h (scimName_of ht).2 s hs
    exact ⟨z, hz, fun hm => ⟨z, hq hm⟩⟩) 0 {}
  have htidy := complexItems_tidy attributesSubs_plain hmids
  obtain ⟨hml, hmall, -, -⟩ := complexItems_spec attributesSubs_plain attributesSubs_sane hmids
  -- what each item is after the first stage
  have hmid : ∀ (j : Nat) a, as[j]? = some a → ∃ x mid, xs[j]? = some x ∧ mids[j]? = some mid ∧ DocOf a x ∧
      SubResult .dump attributesSubs x mid ∧ mid.Tidy := by
    intro j a ha
    obtain ⟨x, hx, h⟩ := hget j a ha
    obtain ⟨mid, hmid, hsub, -⟩ := hmall j x hx
    have hxt : x.toCont = x := by
      have := hconts x (List.mem_of_getElem? hx)
      cases x <;> simp [Val.isCont] at this
      rw [Val.toCont]
    rw [hxt] at hsub
    exact ⟨x, mid, hx, hmid, h, hsub, htidy mid (List.mem_of_getElem? hmid)⟩
  have hmem : ∀ mid ∈ mids, ∃ (j : Nat) (a : Attr) (x : Val), as[j]? = some a ∧ mids[j]? = some mid ∧ DocOf a x ∧
      SubResult .dump attributesSubs x mid ∧ mid.Tidy := by
    intro mid hmm
    obtain ⟨j, hj, e⟩ := List.getElem_of_mem hmm
    have hja : j < as.length := by omega
    obtain ⟨x, mid', -, h2, h3, h4, h5⟩ := hmid j as[j] (List.getElem?_eq_getElem hja)
    have : mid' = mid := by
      rw [List.getElem?_eq_getElem hj, e] at h2
      exact (Option.some.inj h2).symm
    subst this
    exact ⟨j, _, x, List.getElem?_eq_getElem hja, h2, h3, h4, h5⟩
  obtain ⟨ys, hys⟩ := dumpItems_total (nested := nested) (xs := mids) (by
    intro mid hmm
    obtain ⟨j, a, x, ha, -, hdoc, hsub, htd⟩ := hmem mid hmm
    obtain ⟨t, so, ht, hraw, hso⟩ := hdoc.raw
    have hr := raw_mid hraw (scimName_of ht).2 hsub
    refine ⟨htd, fun _ => ⟨_, hr.caseExact⟩, ?_⟩
    intro subs hsubs hset _
    have h1 := hr.subs
    unfold Val.Has at h1 hsubs
    rw [h1] at hsubs
    have hsubs := Except.ok.inj hsubs
    subst hsubs
    rcases hso with ⟨i, rfl, rfl⟩ | ⟨i, subs', ps', qs', ds, rfl, -, hds, rfl⟩
    · cases hset
    · obtain ⟨zs, hz, -⟩ := hnest j i subs' ps' qs' ds ha hds
      exact ⟨_, hz⟩) 0
  obtain ⟨-, hyl, hdone⟩ := dumpItems_clean htidy hys rfl
  have hprim : ∀ y ∈ ys, y.isCont = true ∧ y.Has "primary".toList .missing := by
    intro y hy
    obtain ⟨j, hj, e⟩ := List.getElem_of_mem hy
    have hjm : j < mids.length := by omega
    obtain ⟨y', i, hy', hdn, -⟩ := hdone j mids[j] (List.getElem?_eq_getElem hjm)
    have : y' = y := by
      rw [List.getElem?_eq_getElem hj, e] at hy'
      exact (Option.some.inj hy').symm
    subst this
    obtain ⟨-, -, x, -, -, -, hsub, htd⟩ := hmem _ (List.getElem_mem hjm)
    refine ⟨hdn.tidy.isCont, has_same (hdn.same _ (lower_ne_ascii (by decide) (by decide) (by decide))
      (lower_ne_ascii (by decide) (by decide) (by decide))) (mid_undeclared hsub htd (by decide) (by decide))⟩
  refine ⟨ys, ?_, allDescribedBy_of (by omega) ?_⟩
  · rw [multi_step hd hm hconts, hmids]
    simp only [has_empty, Bool.false_eq_true, if_false]
    show runProcs [dumpAttributes nested, validateSinglePrimary] (.list mids) {} = _
    simp only [runProcs, dumpAttributes, hys, validateSinglePrimary, primaryEntries_none hprim]
    rfl
  · intro j a ha
    obtain ⟨x, mid, -, hmj, hdoc, hsub, htd⟩ := hmid j a ha
    obtain ⟨y, i, hy, hdn, -⟩ := hdone j mid hmj
    obtain ⟨t, so, ht, hraw, hso⟩ := hdoc.raw
    have hr := raw_mid hraw (scimName_of ht).2 hsub
    have hdesc := described_of_done hr ht hdn
    refine ⟨y, hy, ?_⟩
    rcases hso with ⟨i, rfl, rfl⟩ | ⟨i, subs', ps', qs', ds, rfl, rfl, hds, rfl⟩
    · exact ⟨hdesc, (hdn.unset _ hr.subs rfl).1⟩
    · obtain ⟨zs, hz, hzd⟩ := hnest j i subs' ps' qs' ds ha hds
      obtain ⟨dumped, h1, h2⟩ := hdn.nested _ hr.subs rfl hr.type
      rw [hz] at h1
      cases h1
      exact ⟨hdesc, zs, h2, hzd⟩

/-- Representations of documentable attributes pass, when the nesting stays below the bound. -/
theorem rep_passes (d : Nat) : ∀ (as : List Attr), DocumentableAll as → nestingAll as ≤ d → ∀ ds, attrDicts as = .ok ds →
    ∀ (info : AttrInfo) (ps : List Proc), ComplexDecl .dump info → info.multi = true →
    ∃ ys, (Attr.complex info attributesSubs ps [dumpAttributes (nestedDump d), validateSinglePrimary]).process .dump
        (.list (convItems ds)) = .ok (.list ys, {}) ∧ AllDescribedBy as ys := by
  induction d with
  | zero =>
    intro as hdoc hnest ds hds info ps hd hm
    refine rep_stage (attrDicts_conv hdoc hds) ?_ hd hm
    intro j i subs ps' qs' ds' hj _
    have := nesting_get hj
    rw [Attr.nesting] at this
    omega
  | succ d ih =>
    intro as hdoc hnest ds hds info ps hd hm
    refine rep_stage (attrDicts_conv hdoc hds) ?_ hd hm
    intro j i subs ps' qs' ds' hj hds'
    have hn := nesting_get hj
    rw [Attr.nesting] at hn
    obtain ⟨info', e, hd', hm', -⟩ := attributesWith_eq (nestedDump d)
    rw [nestedDump, e]
    exact ih subs (documentable_get hdoc hj).2 (by omega) ds' hds' info' _ (hd' _) hm'

end Scim
