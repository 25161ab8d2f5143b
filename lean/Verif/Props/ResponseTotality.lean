import Verif.Props.RequestTotality
import Verif.Props.Responses

/-! # C97: responses made from ordinary values are checked without an exception -/

namespace Scim
open Issues V
variable [PyEnv]

theorem pyEq_prim_right (v : Val) (p : Prim) : ∃ b, v.pyEq (.prim p) = .ok b := by
  unfold Val.pyEq
  cases v with
  | obj o => cases o <;> (unfold Val.pyEqN; exact ⟨_, rfl⟩)
  | _ => unfold Val.pyEqN; exact ⟨_, rfl⟩

theorem pyEq_prim_left (p : Prim) (v : Val) : ∃ b, (Val.prim p).pyEq v = .ok b := by
  unfold Val.pyEq
  cases v with
  | obj o => cases o <;> (unfold Val.pyEqN; exact ⟨_, rfl⟩)
  | _ => unfold Val.pyEqN; exact ⟨_, rfl⟩

theorem process_rejects {m : Mode} {s : Schema} {body : Val} (ht : body.Tame) (hd : body.isDict = false) :
    ∃ c, s.process m body = .ok (.invalid, blocking c) := by
  unfold Schema.process
  split
  · exact ⟨_, rfl⟩
  · split
    · exact ⟨_, rfl⟩
    · cases body <;> simp_all [Val.isCont, Val.isDict, Val.Tame]

/-- A declared attribute can be read from every processed body. -/
theorem IsFine.get {s : Schema} (hs : s.WF) (ho : s.Owned) {b : Val} (hb : IsFine s b) {a : Attr} (ha : a ∈ s.attrs.all) :
    ∃ x, b.getItem a.rep = .ok x := by
  obtain ⟨d, lc, rfl, hf⟩ := hb
  exact hf.get hs ho ha

theorem resourceType_mem {s : Schema} (hs : s.WF) (hmeta : ∀ a ∈ bindWithSubs s.urn false metaAttr, a ∈ s.attrs.all) :
    ∃ b ∈ s.attrs.all, s.attrs.getSub "meta".toList "resourcetype".toList = some b ∧
      b.rep = { schema := s.urn, attr := "meta".toList, sub := "resourceType".toList } := by
  obtain ⟨b, h1, h2⟩ := getSub_resourceType hs hmeta
  refine ⟨b, ?_, h1, h2⟩
  unfold Attributes.getSub at h1
  exact List.mem_of_find?_eq_some h1

/-- **C97** `schema.dump` of ordinary values does not raise; an object gives a body whose attributes can be read. -/
theorem C97_dump (s : Schema) (hs : s.WF) (hns : s.NoShadow) (ho : s.Owned) (hstd : StandardAll .dump s.attrs.top)
    (hmeta : s.isResource = true → ∀ a ∈ bindWithSubs s.urn false metaAttr, a ∈ s.attrs.all)
    (body : Val) (hb : JsonBody s body) :
    ∃ r is, s.dump body = .ok (r, is) ∧ (body.isDict = true → IsFine s r) ∧
      (body.isDict = false → ∃ c, is = blocking c) := by
  by_cases hd : body.isDict = true
  · obtain ⟨kvs, rfl⟩ : ∃ kvs, body = .dict kvs := by cases body <;> simp [Val.isDict] at hd; exact ⟨_, rfl⟩
    obtain ⟨r, is, hp⟩ := process_total_of (m := .dump) hs (hb.2 kvs rfl)
      (fun a ha x _ hx hb _ => process_total a (standardAll_iff.mp hstd a ha) x hx hb)
    have hf := process_fine hs hns (fun a ha _ => standardAll_iff.mp hstd a ha) (by rfl) hp
    have hno : ∀ is : Issues, ((Val.dict kvs).isDict = false → ∃ c, is = blocking c) := fun _ h => by cases h
    unfold Schema.dump
    rw [hp]
    dsimp only
    split
    · exact ⟨_, _, rfl, fun _ => hf, hno _⟩
    · rename_i hres
      split
      · exact ⟨_, _, rfl, fun _ => hf, hno _⟩
      · split
        · obtain ⟨a, ha, h1, h2⟩ := resourceType_mem hs (hmeta (by simpa using hres))
          obtain ⟨x, hx⟩ := IsFine.get hs ho hf ha
          rw [h1]
          simp only [hx]
          obtain ⟨b, hb⟩ := pyEq_prim_right x (.str s.name)
          have hv : ∃ is2, validateResourceType x s.name = .ok is2 := by
            unfold validateResourceType
            rw [show x.pyEq (Val.str s.name) = .ok b from hb]
            exact ⟨_, rfl⟩
          obtain ⟨is2, hv⟩ := hv
          cases x <;> simp only [hv] <;> exact ⟨_, _, rfl, fun _ => hf, hno _⟩
        · exact ⟨_, _, rfl, fun _ => hf, hno _⟩
  · obtain ⟨c, hp⟩ := process_rejects (m := .dump) (s := s) hb.1 (by simpa using hd)
    refine ⟨.invalid, blocking c, ?_, fun h => absurd h hd, fun _ => ⟨c, rfl⟩⟩
    unfold Schema.dump
    rw [hp]
    dsimp only
    split
    · rfl
    · rw [if_pos (by rfl)]

theorem HeadersOk.location {headers : Val} (h : HeadersOk headers) : ∃ p, getLocation (orDict headers) = .ok (.prim p) := by
  unfold orDict
  split
  · rename_i ht
    obtain ⟨kvs, rfl, hl⟩ := h ht
    unfold getLocation
    cases hk : aget locationWord kvs with
    | none => exact ⟨.none, by simp only [hk]; rfl⟩
    | some v =>
      obtain ⟨p, rfl⟩ := hl v hk
      exact ⟨p, by simp only [hk]; rfl⟩
  · exact ⟨.none, rfl⟩

omit [PyEnv] in
/-- What is blocked stays blocked, with everything below it. -/
theorem blocked_below {is : Issues} {l l' : Loc} {ls : List Loc} (h : is.canProceed [l] = false) (hp : l <+: l') (hm : l' ∈ ls) :
    is.canProceed ls = false := by
  cases hc : is.canProceed ls with
  | false => rfl
  | true =>
    exfalso
    have : is.canProceed [l] = true := by
      obtain ⟨x, xs, rfl⟩ : ∃ x xs, ls = x :: xs := by
        cases ls with
        | nil => cases hm
        | cons x xs => exact ⟨x, xs, rfl⟩
      unfold Issues.canProceed at hc ⊢
      dsimp only at hc ⊢
      rw [List.all_eq_true] at hc
      have := (canProceedAt_iff _ _).1 (hc l' hm)
      simp only [List.all_cons, List.all_nil, Bool.and_true]
      exact (canProceedAt_iff _ _).2 (fun k hk => this k (hk.trans hp))
    rw [h] at this; cases this

omit [PyEnv] in
theorem blocked_merge {is o : Issues} {l loc : Loc} (h : is.canProceed [l] = false) : (is.merge o loc).canProceed [l] = false := by
  cases hc : (is.merge o loc).canProceed [l] with
  | false => rfl
  | true =>
    exfalso
    have : is.canProceed [l] = true := by
      unfold Issues.canProceed at hc ⊢
      simp only [List.all_cons, List.all_nil, Bool.and_true] at hc ⊢
      refine (canProceedAt_iff _ _).2 (fun k hk => ?_)
      have := (canProceedAt_iff _ _).1 hc k hk
      rw [← Option.not_isSome_iff_eq_none, stop_merge_isSome] at this
      rw [← Option.not_isSome_iff_eq_none]
      exact fun h => this (.inl h)
    rw [h] at this; cases this

omit [PyEnv] in
theorem blocked_blocking (c : Nat) (loc : Loc) : (Issues.empty.merge (blocking c) loc).canProceed [loc] = false := by
  cases hc : (Issues.empty.merge (blocking c) loc).canProceed [loc] with
  | false => rfl
  | true =>
    simp only [Issues.canProceed, List.all_cons, List.all_nil, Bool.and_true] at hc
    have := (Issues.canProceedAt_iff _ _).1 hc loc (List.prefix_refl _)
    rw [← Option.not_isSome_iff_eq_none, Issues.stop_merge_isSome] at this
    exact absurd (.inr ⟨[], by simp [blocking, Issues.add, extendAt, aset], by simp⟩) this

/-- **C97** the response with a resource. -/
theorem C97_resource (s : Schema) (hs : s.WF) (hns : s.NoShadow) (ho : s.Owned) (hstd : StandardAll .dump s.attrs.top)
    (hmeta : ∀ a ∈ bindWithSubs s.urn false metaAttr, a ∈ s.attrs.all)
    (required : Bool) (expected status : Int) (body headers : Val) (c : Option Checker) (hb : JsonBody s body)
    (hh : HeadersOk headers) :
    ∃ resp is, dumpResource s required expected status body headers c = .ok (resp, is) := by
  obtain ⟨r, is, h1, h2, h3⟩ := C97_dump s hs hns ho hstd (fun _ => hmeta) body hb
  obtain ⟨p, hp⟩ := hh.location
  have hloc := hs.getSub_of_mem (location_bound hmeta) (by rw [bindAttr_rep]) (name := "meta".toList)
    (sub := "location".toList) (by rw [bindAttr_rep]) (by rw [bindAttr_rep])
  unfold dumpResource
  rw [h1]
  dsimp only
  generalize hI : ((Issues.empty.merge is bodyLoc).merge (locationInHeader (orDict headers) required) headersLoc).merge
    (statusIs expected status) statusLoc = I
  by_cases hd : body.isDict = true
  · have hf := h2 hd
    obtain ⟨o, hc⟩ := checker_total hs ho hf (c.getD {}) .response
    obtain ⟨x, hx⟩ := IsFine.get hs ho hf (location_bound hmeta)
    have hcb : ∃ I', checkBody (c.getD {}) s.attrs .response r I = .ok I' := by
      unfold checkBody
      split
      · rw [hc]; exact ⟨_, rfl⟩
      · exact ⟨_, rfl⟩
    obtain ⟨I', hcb⟩ := hcb
    rw [hcb]
    dsimp only
    unfold checkLocations
    simp only [hloc, hp, hx]
    obtain ⟨b, hb⟩ := pyEq_prim_right x p
    unfold locationsMatch
    simp only [hb]
    split
    · rename_i h; split at h <;> cases h
    · exact ⟨_, _, rfl⟩
  · obtain ⟨k, rfl⟩ := h3 (by simpa using hd)
    have hblock : I.canProceed [bodyLoc] = false := by
      rw [← hI]
      exact blocked_merge (blocked_merge (blocked_blocking k bodyLoc))
    unfold checkBody
    rw [hblock]
    simp only [Bool.false_eq_true, if_false]
    unfold checkLocations
    simp only [hloc, hp]
    rw [blocked_below hblock (List.prefix_append bodyLoc _) (List.mem_cons_self)]
    simp only [Bool.false_and, Bool.false_eq_true, if_false]
    exact ⟨_, _, rfl⟩

/-- **C97** the responses to reading, replacing, creating and changing a resource. -/
theorem C97_responses (s : Schema) (hs : s.WF) (hns : s.NoShadow) (ho : s.Owned) (hstd : StandardAll .dump s.attrs.top)
    (hmeta : ∀ a ∈ bindWithSubs s.urn false metaAttr, a ∈ s.attrs.all)
    (status : Int) (body headers : Val) (c : Option Checker) (hb : JsonBody s body) (hh : HeadersOk headers) :
    (∃ resp is, dumpGet s status body headers c = .ok (resp, is)) ∧
    (∃ resp is, dumpPost s status body headers c = .ok (resp, is)) ∧
    ∃ resp is, dumpPatch s status body headers c = .ok (resp, is) := by
  have key := fun r e => C97_resource s hs hns ho hstd hmeta r e status body headers c hb hh
  refine ⟨key _ _, ?_, ?_⟩
  · unfold dumpPost
    split
    · exact key _ _
    · exact ⟨_, _, rfl⟩
  · unfold dumpPatch
    split
    · exact ⟨_, _, rfl⟩
    · exact key _ _

/-- **C97** users. -/
theorem C97_user (status : Int) (body headers : Val) (c : Option Checker) (hb : JsonBody userSchema body)
    (hh : HeadersOk headers) :
    (∃ resp is, dumpGet userSchema status body headers c = .ok (resp, is)) ∧
    (∃ resp is, dumpPost userSchema status body headers c = .ok (resp, is)) ∧
    ∃ resp is, dumpPatch userSchema status body headers c = .ok (resp, is) :=
  C97_responses _ user_wf user_noShadow user_owned user_standard user_meta_mem status body headers c hb hh

theorem group_meta_mem : ∀ a ∈ bindWithSubs GroupA.schema.urn false metaAttr, a ∈ GroupA.schema.attrs.all :=
  meta_mem group_decl

attribute [local irreducible] GroupA.schema in
/-- **C97** groups. -/
theorem C97_group (status : Int) (body headers : Val) (c : Option Checker) (hb : JsonBody GroupA.schema body)
    (hh : HeadersOk headers) :
    (∃ resp is, dumpGet GroupA.schema status body headers c = .ok (resp, is)) ∧
    (∃ resp is, dumpPost GroupA.schema status body headers c = .ok (resp, is)) ∧
    ∃ resp is, dumpPatch GroupA.schema status body headers c = .ok (resp, is) :=
  C97_responses _ group_wf group_noShadow group_owned group_standard group_meta_mem status body headers c hb hh

theorem good_idLike {i : AttrInfo} (ht : i.type = .string) (hm : i.multi = false) (h1 : i.parsers = [bulkIdValidator])
    (h2 : i.dumpers = [bulkIdValidator]) : (∀ m, (mkAttr i).Standard m) ∧ (mkAttr i).Sane := by
  constructor
  · intro m; cases m
    · exact .inr ⟨ht, hm, h1⟩
    · exact .inr ⟨ht, hm, h2⟩
  · intro p hp
    have : p = bulkIdValidator := by
      rcases hp with hp | hp
      · exact List.mem_singleton.mp (h1 ▸ hp)
      · exact List.mem_singleton.mp (h2 ▸ hp)
    subst this
    exact procSane_bulkId

theorem config_good : Good (schemasAttr :: ConfigA.idA :: externalIdAttr :: metaAttr ::
    [ConfigA.documentationUriA, ConfigA.patchA, ConfigA.bulkA, ConfigA.filterA,
     ConfigA.changePasswordA, ConfigA.sortA, ConfigA.etagA, ConfigA.authenticationSchemesA]) := by
  have hp := config_decl.subs
  simp only [List.mem_cons, forall_eq_or_imp] at hp
  obtain ⟨_, _, _, h0, _, h1, h2, h3, h4, h5, h6, h7, _⟩ := hp
  refine good_cons (good_simple rfl rfl) (good_cons (good_idLike rfl rfl rfl rfl) (good_cons (good_simple rfl rfl)
    (good_cons (good_complex rfl rfl h0 ?_) (good_cons (good_simple rfl rfl)
    (good_cons (good_complex rfl rfl h1 ?_) (good_cons (good_complex rfl rfl h2 ?_) (good_cons (good_complex rfl rfl h3 ?_)
    (good_cons (good_complex rfl rfl h4 ?_) (good_cons (good_complex rfl rfl h5 ?_) (good_cons (good_complex rfl rfl h6 ?_)
    (good_cons (good_complex rfl rfl h7 ?_) good_nil)))))))))))
  all_goals good_list

theorem config_standard {m : Mode} : StandardAll m ConfigA.schema.attrs.top :=
  standardAll_iff.mpr (fun a ha => (good_schema (urn := ConfigA.urn) config_good a ha).1 m)

theorem config_owned : ConfigA.schema.Owned := by
  apply owned_of config_wf
  have hall : ConfigA.schema.attrs.all = (schemasAttr :: ConfigA.idA :: externalIdAttr :: metaAttr ::
      [ConfigA.documentationUriA, ConfigA.patchA, ConfigA.bulkA, ConfigA.filterA,
       ConfigA.changePasswordA, ConfigA.sortA, ConfigA.etagA, ConfigA.authenticationSchemesA]).flatMap (bindWithSubs ConfigA.urn false) := by
    obtain ⟨_, h2⟩ := bind_facts (urn := ConfigA.urn) (ext := false) config_decl
    exact ofList_all (keys_of_lnames h2)
  rw [hall]
  exact owned_bind (named_of configNames_eq (by decide +kernel))

theorem config_noShadow : ConfigA.schema.NoShadow := noShadow_of_noExt config_wf rfl

theorem config_meta_mem : ∀ a ∈ bindWithSubs ConfigA.schema.urn false metaAttr, a ∈ ConfigA.schema.attrs.all :=
  meta_mem config_decl

attribute [local irreducible] ConfigA.schema in
/-- **C97** the configuration of the service provider. -/
theorem C97_config (status : Int) (body headers : Val) (c : Option Checker) (hb : JsonBody ConfigA.schema body)
    (hh : HeadersOk headers) : ∃ resp is, dumpGet ConfigA.schema status body headers c = .ok (resp, is) :=
  (C97_responses _ config_wf config_noShadow config_owned config_standard config_meta_mem status body headers c hb hh).1

theorem ErrorA.standard : StandardAll .dump ErrorA.schema.attrs.top := by
  rw [standardAll_iff]
  intro a ha
  obtain ⟨d, hd, rfl⟩ := mkSchema_top (by
    intro d hd
    simp only [List.mem_cons, List.not_mem_nil, or_false] at hd
    rcases hd with rfl | rfl | rfl <;> rfl) ha
  apply bind_standard
  simp only [List.mem_cons, List.not_mem_nil, or_false] at hd
  rcases hd with rfl | rfl | rfl | rfl <;> exact .inl rfl

theorem ErrorA.owned : ErrorA.schema.Owned := by
  apply owned_of ErrorA.wf
  have hall : ErrorA.schema.attrs.all =
      (schemasAttr :: [ErrorA.statusA, ErrorA.scimTypeA, ErrorA.detailA]).flatMap (bindWithSubs ErrorA.urn false) := by
    obtain ⟨_, h2⟩ := bind_facts (urn := ErrorA.urn) (ext := false) (declarations_of ErrorA.names_eq (by decide +kernel))
    exact ofList_all (keys_of_lnames h2)
  rw [hall]
  exact owned_bind (named_of ErrorA.names_eq (by decide +kernel))

/-- **C97** the response with an error, whatever the headers are. -/
theorem C97_error (status : Int) (body headers : Val) (hb : JsonBody ErrorA.schema body) :
    ∃ resp is, dumpError status body headers = .ok (resp, is) := by
  obtain ⟨r, is, h1, h2, h3⟩ := C97_dump ErrorA.schema ErrorA.wf (noShadow_of_noExt ErrorA.wf rfl) ErrorA.owned ErrorA.standard
    (fun h => by cases h) body hb
  unfold dumpError
  rw [h1]
  dsimp only
  by_cases hd : body.isDict = true
  · have hf := h2 hd
    obtain ⟨o, hc⟩ := checker_total ErrorA.wf ErrorA.owned hf {} .response
    have hx : ∃ x, r.getItem ErrorA.status.rep = .ok x := by
      obtain ⟨d, lc, rfl, hf⟩ := hf
      exact hf.get ErrorA.wf ErrorA.owned (ErrorA.wf.top_all _ ErrorA.status_mem)
    obtain ⟨x, hx⟩ := hx
    have hcb : ∃ I', checkBody {} ErrorA.schema.attrs .response r (Issues.empty.merge is bodyLoc) = .ok I' := by
      unfold checkBody
      split
      · rw [hc]; exact ⟨_, rfl⟩
      · exact ⟨_, rfl⟩
    obtain ⟨I', hcb⟩ := hcb
    rw [hcb]
    dsimp only
    unfold errorStatus
    rw [ErrorA.getTop_status]
    obtain ⟨b, hb⟩ := pyEq_prim_left (.str (intText status)) x
    have hm : ∃ is2, errorStatusMatches ErrorA.status.rep.attr x status = .ok is2 := by
      unfold errorStatusMatches
      rw [show (Val.str (intText status)).pyEq x = .ok b from hb]
      exact ⟨_, rfl⟩
    obtain ⟨is2, hm⟩ := hm
    simp only [hx, hm]
    split
    · rename_i h; split at h <;> cases h
    · exact ⟨_, _, rfl⟩
  · obtain ⟨k, rfl⟩ := h3 (by simpa using hd)
    have hblock := blocked_blocking k bodyLoc
    unfold checkBody
    rw [hblock]
    simp only [Bool.false_eq_true, if_false]
    unfold errorStatus
    rw [ErrorA.getTop_status]
    simp only
    rw [blocked_below hblock (List.prefix_append bodyLoc _) (List.mem_cons_self)]
    simp only [Bool.false_eq_true, if_false]
    exact ⟨_, _, rfl⟩

end Scim

/-! ## Concrete cases (ASCII run-time library) -/

namespace Scim.Examples.ResponseTotality
open Scim.Examples

local instance responseTotalityEnv : PyEnv := asciiEnv

/-- A group with a date, and with parts that will be reported. -/
def exDated : List (Str × Val) :=
  [("schemas".toList, .list [.str GroupA.urn]), ("id".toList, .str "1".toList), ("displayName".toList, .int 5),
   ("members".toList, .list [.dict [("value".toList, .str "2".toList)], .str "x".toList]),
   ("meta".toList, .dict [("resourceType".toList, .str "User".toList), ("location".toList, .str "here".toList),
      ("created".toList, .dt { wall := 0, off := some 0 })])]

/-- The hypotheses of C97 are met. -/
theorem exDated_json : JsonBody GroupA.schema (.dict exDated) := by
  have ht : (Val.dict exDated).Tame := by
    simp only [exDated, Val.Tame, TamePairs, TameList, Val.str, Val.int]
    refine ⟨by decide +kernel, by decide +kernel, ?_⟩
    decide +kernel
  refine ⟨ht, ?_⟩
  intro kvs e
  cases e
  refine ⟨ht, ?_, ?_, handlesAll_of_easy _ (by decide +kernel) _⟩
  · have h : exDated.all (fun p => GroupA.schema.schemas.all (fun u => !(lower p.1 == lower u) || p.2.isDict)) = true := by
      decide +kernel
    intro k v hm u hu e
    have := List.all_eq_true.mp (List.all_eq_true.mp h (k, v) hm) u hu
    simpa [e] using this
  · intro x hx
    have h : (Val.dict exDated).toCont.getItem { schema := GroupA.schema.urn, attr := "schemas".toList } =
        .ok (.list [.str GroupA.urn]) := by decide +kernel
    rw [h] at hx
    cases hx
    intro xs e
    cases e
    exact ⟨[GroupA.urn], rfl⟩

theorem exHeaders_ok : HeadersOk (.dict [("Location".toList, .str "there".toList), ("X".toList, .list [])]) := by
  intro _
  refine ⟨_, rfl, ?_⟩
  intro v hv
  have : some (Val.str "there".toList) = some v := hv
  cases this
  exact ⟨_, rfl⟩

/-- The response is answered with issues about the name, the members, the resource type and the location. -/
example : (match V.dumpPost GroupA.schema 200 (.dict exDated)
      (.dict [("Location".toList, .str "there".toList), ("X".toList, .list [])]) none with
    | .ok (_, is) => is.issues.map (fun e => (e.1, e.2.map (·.code)))
    | .error _ => []) =
    [([.name "body".toList, .name "displayName".toList], [2]),
     ([.name "body".toList, .name "members".toList, .idx 1], [2]),
     ([.name "body".toList, .name "meta".toList, .name "resourceType".toList], [17]),
     ([.name "status".toList], [16]),
     ([.name "body".toList, .name "meta".toList, .name "location".toList], [11]),
     ([.name "headers".toList, .name "Location".toList], [11])] := by decide +kernel

/-- An error that is no object. -/
theorem exError_json : JsonBody ErrorA.schema (.list [.int 1]) :=
  ⟨by simp only [Val.Tame, TameList, Val.int]; decide +kernel, fun _ e => by cases e⟩

/-! ### What the hypotheses exclude -/

/-- **C97** headers that are a list raise. -/
theorem C97_headers_raise : V.dumpGet GroupA.schema 200 (.dict exDated) (.list [.int 1]) none = .error .attributeError := by
  have h : (match V.dumpGet GroupA.schema 200 (.dict exDated) (.list [.int 1]) none with
      | .ok _ => false
      | .error e => decide (e = .attributeError)) = true := by decide +kernel
  split at h
  · cases h
  · rename_i e he; rw [he, of_decide_eq_true h]

/-- **C97** a number among the schemas raises, as do letters that are not ASCII in binary values. -/
theorem C97_schemas_raise :
    (V.dumpGet GroupA.schema 200 (.dict [("schemas".toList, .list [.int 1])]) .null none).toOption.isNone = true ∧
      (V.dumpGet userSchema 200 (.dict [("x509Certificates".toList, .list [.dict [("value".toList, .str "é".toList)]])])
        .null none).toOption.isNone = true := by
  constructor <;> decide +kernel

end Scim.Examples.ResponseTotality
