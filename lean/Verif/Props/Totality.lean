import Verif.Lemmas.Assets

/-! # C34: well-formed data is parsed without exceptions; concrete schemas -/

namespace Scim
variable [PyEnv]

/-- A value of `schemas` that is no list is rejected. -/
theorem schemas_rejects (m : Mode) (rep : AttrRep) {x : Val} (h1 : x.isNone = false) (h2 : ∀ xs, x ≠ .list xs) :
    (bindAttr schemasAttr rep).process m x = .ok (.invalid, blocking 2) := by
  obtain ⟨i, hi, hmu⟩ : ∃ i, bindAttr schemasAttr rep = .simple i ∧ i.multi = true := ⟨_, rfl, rfl⟩
  rw [hi, Attr.process]
  unfold AttrInfo.process
  simp only [h1, Bool.false_eq_true, if_false, hmu, if_true]

/-- Reading the declared attributes of an ordinary body. -/
theorem Ordinary.read {s : Schema} (hs : s.WF) {kvs : List (Str × Val)} (h : Ordinary s kvs) {a : Attr} (ha : a ∈ s.attrs.top) :
    ∃ x, (Val.dict kvs).toCont.getItem a.rep = .ok x ∧ x.TameC ∧ a.Handles x := by
  have hb := handlesAll_iff.mp h.handled a ha
  have htc : ((Val.dict kvs).toCont).TameC := by
    have := convVal_tame (.dict kvs) h.tame
    rwa [convVal] at this
  rw [Val.toCont] at htc hb ⊢
  obtain ⟨x, hx, ht⟩ := getItem_tame htc a.rep (hs.sub a ha) (by
    intro k v hk hv
    obtain ⟨h1, _⟩ := lcOf_sound _ _ _ hk
    rw [aget_convPairs, Option.map_eq_some_iff] at hv
    obtain ⟨w, hw, rfl⟩ := hv
    have := h.urns k w (mem_of_aget hw) a.rep.schema (hs.allSchema a (hs.top_all a ha)) h1.symm
    cases w <;> simp [Val.isDict] at this
    rfl)
  exact ⟨x, hx, ht, hb x hx⟩

/-- `schema.parse`, and `schema.dump` up to the check of the resource type, do not raise when no attribute does. -/
theorem process_total_of {m : Mode} {s : Schema} (hs : s.WF) {kvs : List (Str × Val)} (hord : Ordinary s kvs)
    (hproc : ∀ a ∈ s.attrs.top, ∀ x, (Val.dict kvs).toCont.getItem a.rep = .ok x → x.TameC → a.Handles x → x.isMissing = false →
      ∃ o, a.process m x = .ok o) :
    ∃ r is, s.process m (.dict kvs) = .ok (r, is) := by
  have hsch := hord.schemas
  have hread : ∀ a ∈ s.attrs.top, ∃ x, (Val.dict kvs).toCont.getItem a.rep = .ok x ∧
      (x.isMissing = false → ∃ o, a.process m x = .ok o) := by
    intro a ha
    obtain ⟨x, hx, hxt, hxb⟩ := hord.read hs ha
    exact ⟨x, hx, hproc a ha x hx hxt hxb⟩
  obtain ⟨⟨r0, is0⟩, hpt⟩ := processTop_total s.attrs.top (Val.dict kvs).toCont [] [] [] {} PInv.nil hs.sub hs.compat
    (by simp) hread
  obtain ⟨⟨d', lc', hr0, hinv⟩, h2, h3⟩ := processTop_spec s.attrs.top (Val.dict kvs).toCont [] [] [] {} r0 is0 PInv.nil hs.sub
      hs.compat (by simp) hpt
  subst hr0
  rw [List.nil_append] at hinv
  have htr := topResult_of_PInv hs hinv h3
  unfold Schema.process
  have hn : (Val.dict kvs).isNone = false := rfl
  have hd : ((Val.dict kvs).isCont || (Val.dict kvs).isDict) = true := rfl
  rw [hn, hd]
  simp only [Bool.false_eq_true, if_false, Bool.not_true]
  unfold Val.emptyCont
  rw [hpt, hs.getTop_schemas]
  simp only [bindAttr_rep]
  obtain ⟨x, hx, hpx⟩ := hread _ hs.schemas_mem
  rw [bindAttr_rep] at hx
  have hrep : (bindAttr schemasAttr { schema := s.urn, attr := "schemas".toList }).rep =
      { schema := s.urn, attr := "schemas".toList } := bindAttr_rep _ _
  have hcases : x = .missing ∨ x = .null ∨ (∃ strs : List Str, x = .list (strs.map Val.str)) ∨
      (x.isMissing = false ∧ x.isNone = false ∧ ∀ xs, x ≠ .list xs) := by
    cases x with
    | missing => exact .inl rfl
    | list xs =>
      obtain ⟨strs, rfl⟩ := hsch _ hx xs rfl
      exact .inr (.inr (.inl ⟨strs, rfl⟩))
    | prim p => cases p <;> first | exact .inr (.inl rfl) | exact .inr (.inr (.inr ⟨rfl, rfl, fun _ e => by cases e⟩))
    | _ => exact .inr (.inr (.inr ⟨rfl, rfl, fun _ e => by cases e⟩))
  rcases hcases with rfl | rfl | ⟨strs, rfl⟩ | ⟨hmis, hnon, hlist⟩
  · have := htr.absent _ hs.schemas_mem (by rw [hrep]) (by rw [hrep]; exact hx)
    rw [hrep] at this
    rw [this]
    simp [Val.truthy]
  · obtain ⟨y, i, hy, hg⟩ := htr.present _ hs.schemas_mem _ (by rw [hrep]; exact hx) rfl
    rw [C25_null] at hy
    cases hy
    rw [hrep] at hg
    rw [hg]
    simp [Val.truthy]
  · obtain ⟨y, i, hy, hg⟩ := htr.present _ hs.schemas_mem _ (by rw [hrep]; exact hx) rfl
    rw [schemas_process] at hy
    cases hy
    rw [hrep] at hg
    rw [hg]
    obtain ⟨is2, h2⟩ := C31_total (.cont d' lc') strs s.urn s.schemas
    simp only [h2]
    split <;> exact ⟨_, _, rfl⟩
  · obtain ⟨y, i, hy, hg⟩ := htr.present _ hs.schemas_mem _ (by rw [hrep]; exact hx) hmis
    rw [schemas_rejects _ _ hnon hlist] at hy
    cases hy
    rw [hrep] at hg
    rw [hg]
    have hstop : (Issues.empty.merge is0).canProceed [schemasLoc] = false := by
      have hk : (aget schemasLoc is0.issues).isSome = true := by
        rw [h2]
        apply mergeAll_isSome
        refine .inr ⟨(schemasLoc, blocking 2), ?_, [], by decide +kernel, rfl⟩
        refine List.mem_map.mpr ⟨(_, .invalid, blocking 2), List.mem_filterMap.mpr ⟨_, hs.schemas_mem,
          topOut_of (by rw [hrep]; exact hx) hmis (schemas_rejects _ _ hnon hlist)⟩, ?_⟩
        simp only [Attr.topLoc, hrep]; rfl
      cases hc : (Issues.empty.merge is0).canProceed [schemasLoc] with
      | false => rfl
      | true =>
        simp only [Issues.canProceed, List.all_cons, List.all_nil, Bool.and_true] at hc
        have := (Issues.canProceedAt_iff _ _).1 hc schemasLoc (List.prefix_refl _)
        rw [← Option.not_isSome_iff_eq_none, Issues.stop_merge_isSome] at this
        exact absurd (.inr ⟨schemasLoc, aget_isSome_iff.mp hk, rfl⟩) this
    simp [hstop]

/-- **C34** `schema.parse` of an ordinary JSON object does not raise. -/
theorem C34_total (s : Schema) (hs : s.WF) (hstd : StandardAll .parse s.attrs.top) (kvs : List (Str × Val)) (h : Ordinary s kvs) :
    ∃ r is, s.parse (.dict kvs) = .ok (r, is) :=
  process_total_of hs h (fun a ha x _ hx hb _ => process_total a (standardAll_iff.mp hstd a ha) x hx hb)

/-- **C34** for the shipped schemas. -/
theorem C34_user (kvs : List (Str × Val)) (h : Ordinary userSchema kvs) : ∃ r is, userSchema.parse (.dict kvs) = .ok (r, is) :=
  C34_total userSchema user_wf (standardAll_iff.mpr (fun a ha => (user_top_good a ha).1 _)) kvs h

/-- **C34** for the shipped schemas. -/
theorem C34_group (kvs : List (Str × Val)) (h : Ordinary GroupA.schema kvs) : ∃ r is, GroupA.schema.parse (.dict kvs) = .ok (r, is) :=
  C34_total GroupA.schema group_wf (standardAll_iff.mpr (fun a ha => (group_top_good a ha).1 _)) kvs h

end Scim

/-! ## Concrete cases (ASCII run-time library) -/

namespace Scim.Examples
open Scim
local instance : PyEnv := asciiEnv

/-- A user as JSON. -/
def exUser : List (Str × Val) :=
  [("schemas".toList, .list [.str "URN:ietf:params:scim:schemas:core:2.0:User".toList]),
   ("USERNAME".toList, .str "bjensen".toList),
   ("unknown".toList, .int 1),
   ("active".toList, .str "yes".toList),
   ("emails".toList, .list [.dict [("value".toList, .str "a@b".toList), ("primary".toList, .bool true), ("x".toList, .null)],
      .dict [("primary".toList, .bool true)]]),
   (UserA.enterpriseUrn, .dict [("costcenter".toList, .str "1".toList), ("y".toList, .int 2)])]

/-- The hypotheses of C34 are met. -/
theorem exUser_ordinary : Ordinary userSchema exUser := by
  refine ⟨?_, ?_, ?_, handlesAll_of_test _ _ (by decide +kernel)⟩
  · simp only [exUser, Val.Tame, TamePairs, TameList, Val.str, Val.int, Val.bool, Val.null]
    refine ⟨by decide +kernel, by decide +kernel, ?_⟩
    decide +kernel
  · have h : exUser.all (fun p => userSchema.schemas.all (fun u => !(lower p.1 == lower u) || p.2.isDict)) = true := by
      decide +kernel
    intro k v hm u hu e
    have := List.all_eq_true.mp (List.all_eq_true.mp h (k, v) hm) u hu
    simpa [e] using this
  · intro x hx
    have h : (Val.dict exUser).toCont.getItem { schema := userSchema.urn, attr := "schemas".toList } =
        .ok (.list [.str "URN:ietf:params:scim:schemas:core:2.0:User".toList]) := by decide +kernel
    rw [h] at hx
    cases hx
    intro xs e
    cases e
    exact ⟨["URN:ietf:params:scim:schemas:core:2.0:User".toList], rfl⟩

/-- A user with letters outside ASCII, NaN and a very large number. -/
def exForeign : List (Str × Val) :=
  [("schemas".toList, .list [.str UserA.urn]), ("userName".toList, .str "Jörg Øst 李".toList),
   ("title".toList, .prim (.flt .nan)), ("emails".toList, .list [.dict [("value".toList, .int (2 ^ 2000)), ("é".toList, .null)]]),
   ("x509Certificates".toList, .list [.dict [("value".toList, .str "YQ==".toList), ("display".toList, .str "ß".toList)]])]

/-- The hypotheses of C34 are met by all texts and numbers that are not for binary, decimal and integer attributes. -/
theorem exForeign_ordinary : Ordinary userSchema exForeign := by
  refine ⟨?_, ?_, ?_, handlesAll_of_test _ _ (by decide +kernel)⟩
  · simp only [exForeign, Val.Tame, TamePairs, TameList, Val.str, Val.int, Val.null]
    refine ⟨by decide +kernel, by decide +kernel, ?_⟩
    decide +kernel
  · have h : exForeign.all (fun p => userSchema.schemas.all (fun u => !(lower p.1 == lower u) || p.2.isDict)) = true := by
      decide +kernel
    intro k v hm u hu e
    have := List.all_eq_true.mp (List.all_eq_true.mp h (k, v) hm) u hu
    simpa [e] using this
  · intro x hx
    have h : (Val.dict exForeign).toCont.getItem { schema := userSchema.urn, attr := "schemas".toList } =
        .ok (.list [.str UserA.urn]) := by decide +kernel
    rw [h] at hx
    cases hx
    intro xs e
    cases e
    exact ⟨[UserA.urn], rfl⟩

/-- **C34** is sharp: a binary text that is not ASCII raises. -/
theorem C34_certificate_raises :
    userSchema.parse (.dict [("x509Certificates".toList, .list [.dict [("value".toList, .str "é".toList)]])]) =
      .error .unicodeEncodeError := by decide +kernel

/-- Something else than a list under `schemas` is reported and does not raise. -/
example : (GroupA.schema.parse (.dict [("schemas".toList, .int 1)])).toOption.map (fun r => r.2.codesAt [.name "schemas".toList]) =
    some [2] := by decide +kernel

/-- A group as JSON. -/
def exGroup : List (Str × Val) :=
  [("schemas".toList, .list [.str "URN:ietf:params:scim:schemas:core:2.0:GROUP".toList, .str "x".toList]),
   ("DISPLAYNAME".toList, .str "g".toList),
   ("unknown".toList, .int 1),
   ("members".toList, .list [.dict [("value".toList, .str "1".toList), ("x".toList, .null)], .dict [("VALUE".toList, .int 1)]])]

/-- Undeclared attributes are dropped, declared ones found in any spelling, issues stand at their places. -/
example : (GroupA.schema.parse (.dict exGroup)).toOption.map (fun r =>
      (r.1, r.2.codesAt [.name "members".toList, .idx 1, .name "value".toList], r.2.codesAt [.name "schemas".toList])) =
    some (Val.toCont (.dict [
        ("schemas".toList, .list [.str "URN:ietf:params:scim:schemas:core:2.0:GROUP".toList, .str "x".toList]),
        ("displayName".toList, .str "g".toList),
        ("members".toList, .list [.dict [("value".toList, .str "1".toList)], .dict [("value".toList, .invalid)]])]),
      [2], [27]) := by
  decide +kernel

/-- **C34** is sharp: a number among the schemas raises. -/
theorem C34_schemas_number_raises :
    GroupA.schema.parse (.dict [("schemas".toList, .list [.int 123])]) = .error .attributeError := by decide +kernel

/-- **C34** is sharp: a value that is no object under a URN key raises. -/
theorem C34_urn_key_raises :
    GroupA.schema.parse (.dict [("urn:ietf:params:scim:schemas:core:2.0:group".toList, .int 1)]) = .error .typeError := by
  decide +kernel

/-- **C34** is sharp: an empty key raises. -/
theorem C34_empty_key_raises :
    GroupA.schema.parse (.dict [("members".toList, .list [.dict [([], .int 1)]])]) = .error .typeError := by decide +kernel

/-- **C28** -/
example : idAttr.process .parse (.str "xbulkIdy".toList) = .ok (.invalid, Issues.empty.merge (blocking 7)) := by decide +kernel
example : idAttr.process .dump (.str "bulkid".toList) = .ok (.str "bulkid".toList, {}) := by decide +kernel

/-- **C30** -/
example : GroupA.schema.parse (.list []) = .ok (.invalid, blocking 2) := by decide +kernel
example : GroupA.schema.dump .null = .ok (.invalid, blocking 15) := by decide +kernel

/-- **C31** all three issues. -/
example : (validateSchemasField (Val.toCont (.dict [("URN:E".toList, .dict [])])) [.str "b".toList, .str "c".toList] "urn:a".toList
    ["urn:a".toList, "urn:e".toList]).toOption.map (·.codesAt schemasLoc) = some [27, 28, 29] := by decide +kernel

/-- **C32** any spelling; extension attributes are found by their short name. -/
example : (userSchema.attrs.get { attr := "EMAILS".toList, sub := "Value".toList }).isSome = true := by decide +kernel
example : (userSchema.attrs.get { attr := "COSTcenter".toList }).map (·.rep.ext) = some true := by decide +kernel
example : (userSchema.attrs.get { attr := "nothing".toList }).isSome = false := by decide +kernel

/-- **C33** the extension may be added once only when its URN is lower-case … -/
example : ((GroupA.schema.withExtension { urn := "urn:e".toList, attrs := Attributes.ofList [] }).toOption.map (fun s =>
    match s.withExtension { urn := "urn:e".toList, attrs := Attributes.ofList [] } with | .error e => some e | .ok _ => none)) =
      some (some .valueError) := by decide +kernel

/-- **C33** … with upper-case letters the repetition is not detected (finding). -/
theorem C33_repetition_undetected :
    ∃ s1 s2 : Schema, ∃ e : Extension, GroupA.schema.withExtension e = .ok s1 ∧ s1.withExtension e = .ok s2 ∧
      e.urn ∈ s1.schemas := by
  generalize he : ({ urn := "urn:E".toList, attrs := Attributes.ofList [] } : Extension) = e
  have h : (match GroupA.schema.withExtension e with
      | .error _ => false
      | .ok s1 => match s1.withExtension e with
        | .error _ => false
        | .ok _ => decide (e.urn ∈ s1.schemas)) = true := by subst he; decide +kernel
  split at h
  · cases h
  · rename_i s1 h1
    split at h
    · cases h
    · rename_i s2 h2
      exact ⟨s1, s2, e, h1, h2, by simpa using h⟩

/-- **C35** -/
example : (GroupA.schema.dump (.dict [("meta".toList, .dict [("resourceType".toList, .str "User".toList)])])).toOption.map
    (fun r => r.2.errorsAt resourceTypeLoc) = some [⟨17, []⟩] := by decide +kernel
example : (GroupA.schema.dump (.dict [("meta".toList, .dict [("resourceType".toList, .str "Group".toList)])])).toOption.map
    (fun r => r.2.errorsAt resourceTypeLoc) = some [] := by decide +kernel

/-- **C82** an issue in an extension stands under the URN of the extension, one in the schema itself does not. -/
example : (userSchema.parse (.dict [(UserA.enterpriseUrn, .dict [("costCenter".toList, .int 1)]), ("title".toList, .int 2)])).toOption.map
    (fun r => (r.2.codesAt [.name UserA.enterpriseUrn, .name "costCenter".toList], r.2.codesAt [.name "costCenter".toList],
      r.2.codesAt [.name "title".toList])) = some ([2], [], [2]) := by decide +kernel

/-- **C24** binding an attribute to a schema drops the enforcement of its canonical values (finding): the check is
effective for sub-attributes and free-standing attributes only. -/
theorem C24_bound_not_enforced :
    (mkAttr exKind).process .parse (.str "other".toList) = .ok (.invalid, blocking 14) ∧
    (bindAttr (mkAttr exKind) { schema := "urn:a".toList, attr := "kind".toList }).process .parse (.str "other".toList) =
      .ok (.str "other".toList, {}) := by
  constructor <;> decide +kernel

end Scim.Examples
