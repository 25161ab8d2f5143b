import Verif.Props.Responses

/-! Single endpoints: C74 (missing status), C75 (POST, GET, PUT, PATCH), C94. -/

namespace Scim
open Issues V
variable [PyEnv]

/-! ### C74 -/

/-- **C74** an error that is valid otherwise but has no `status` is told that it is missing. -/
theorem C74_missing (st : Int) (body headers : Val) (resp : Response) (is : Issues)
    (h : dumpError st body headers = .ok (resp, is)) (b v : Val) (hd : ErrorA.schema.dump body = .ok (b, {}))
    (hv : b.getItem { schema := ErrorA.urn, attr := "status".toList } = .ok v) (he : v.Empty) :
    15 ∈ is.codesAt [.name "body".toList, .name "status".toList] := by
  unfold dumpError at h
  rw [hd] at h
  simp only at h
  split at h
  · cases h
  rename_i is2 hc
  split at h
  · cases h
  rename_i is3 hs
  have e1 : is3.merge (errorStatusRange st) = is := congrArg Prod.snd (Except.ok.inj h)
  have hwr : (errorStatusRange st).WF := by
    unfold errorStatusRange
    split
    · exact WF.empty
    · exact WF.empty.add _ _ _
  rw [← e1, mem_codesAt_merge hwr]
  left
  obtain ⟨i, rfl, hwi, hcase⟩ := checkBody_mono hc
  rw [show Issues.empty.merge {} bodyLoc = {} from rfl, canProceed_empty] at hcase
  rcases hcase with ⟨-, hcall⟩ | ⟨hf, -⟩
  case inr => cases hf
  have hall : ErrorA.status ∈ ErrorA.schema.attrs.all := ErrorA.wf.top_all _ ErrorA.status_mem
  have h15 := C36_simple {} (by intro e; cases e) b ErrorA.schema.attrs .response i hcall ErrorA.status hall
    (.inl (by rw [ErrorA.status_rep])) v (by rw [ErrorA.status_rep]; exact hv) he rfl (by rintro ⟨_, h, _⟩; cases h)
  rw [ErrorA.status_rep] at h15
  have h15 : 15 ∈ i.codesAt [.name ErrorA.statusWord] := h15
  have key : 15 ∈ ((Issues.empty.merge {} bodyLoc).merge i bodyLoc).codesAt
      [.name "body".toList, .name "status".toList] := by
    rw [mem_codesAt_merge hwi]
    exact .inr ⟨⟨_, rfl⟩, h15⟩
  unfold errorStatus at hs
  rw [ErrorA.getTop_status] at hs
  simp only at hs
  split at hs
  · split at hs
    · cases hs
    · split at hs
      · cases hs
      · rename_i j hj
        cases hs
        have hwj : j.WF := by
          unfold errorStatusMatches at hj
          split at hj
          · cases hj
          · cases hj
            split
            · exact WF.empty
            · exact (WF.empty.add _ _ _).add _ _ _
        rw [mem_codesAt_merge hwj]
        exact .inl key
  · cases hs; exact key

/-! ### C75 -/

/-- **C75** a response to POST with a body must have the header, -/
theorem C75_post_header (s : Schema) (st : Int) (body headers : Val) (hb : body.truthy = true) (c : Option Checker)
    (resp : Response) (is : Issues) (h : dumpPost s st body headers c = .ok (resp, is))
    (hh : headerLocation headers = none) : 10 ∈ is.codesAt [.name "headers".toList, .name "Location".toList] := by
  unfold dumpPost at h
  rw [if_pos hb] at h
  exact C75_header s _ _ body headers c resp is h hh

/-- **C75** and status 201. -/
theorem C75_post_status (s : Schema) (st : Int) (body headers : Val) (hb : body.truthy = true) (c : Option Checker)
    (resp : Response) (is : Issues) (h : dumpPost s st body headers c = .ok (resp, is)) (hst : st ≠ 201) :
    16 ∈ is.codesAt [.name "status".toList] := by
  unfold dumpPost at h
  rw [if_pos hb] at h
  exact C75_status s _ _ _ body headers c resp is h hst

theorem not_required (s : Schema) (hs : s.WF) (hsane : SaneAll s.attrs.top) (ex st : Int) (body headers : Val)
    (c : Option Checker) (resp : Response) (is : Issues) (h : dumpResource s false ex st body headers c = .ok (resp, is)) :
    10 ∉ is.codesAt [.name "headers".toList, .name "Location".toList] := by
  obtain ⟨b, is1, is2, i3, is3, hd, rfl, rfl, hw, hcase, hl, _, _⟩ := dumpResource_split h
  have hw1 := schema_dump_wf hs hsane hd
  have hne : ¬ bodyLoc <+: [.name "headers".toList, .name "Location".toList] := by decide
  have hbase : 10 ∉ (((((Issues.empty.merge is1 bodyLoc).merge (locationInHeader (orDict headers) false) headersLoc).merge
      (statusIs ex st) statusLoc).merge is3 bodyLoc).codesAt [.name "headers".toList, .name "Location".toList]) := by
    rw [mem_codesAt_merge hw, mem_codesAt_merge statusIs_wf, mem_codesAt_merge locationInHeader_wf, mem_codesAt_merge hw1]
    rintro ((((h | ⟨h, _⟩) | ⟨_, h⟩) | ⟨h, _⟩) | ⟨h, _⟩)
    · cases h
    · exact hne h
    · simp only [locationInHeader, Bool.and_false, Bool.false_eq_true, if_false] at h; cases h
    · exact absurd h (by decide)
    · exact hne h
  obtain ⟨a, loc, _, _, ⟨_, v, j, _, hj, rfl⟩ | ⟨_, rfl⟩⟩ := checkLocations_split hl
  · rw [mem_codesAt_merge (locationsMatch_wf hj)]
    rintro (h | ⟨_, h⟩)
    · exact hbase h
    · unfold locationsMatch at hj
      split at hj
      · cases hj
      · cases hj
        split at h
        · cases h
        · exact absurd h (by decide)
  · exact hbase

/-- **C75** responses to GET and PUT must have status 200; the header is not needed. -/
theorem C75_get (s : Schema) (hs : s.WF) (hsane : SaneAll s.attrs.top) (st : Int) (body headers : Val) (c : Option Checker)
    (resp : Response) (is : Issues) (h : dumpGet s st body headers c = .ok (resp, is)) :
    (st ≠ 200 → 16 ∈ is.codesAt [.name "status".toList]) ∧
    10 ∉ is.codesAt [.name "headers".toList, .name "Location".toList] :=
  ⟨C75_status s _ _ _ body headers c resp is h, not_required s hs hsane _ _ _ _ _ _ _ h⟩

/-- **C75** so it is with responses to PATCH, which may also have status 204. -/
theorem C75_patch (s : Schema) (hs : s.WF) (hsane : SaneAll s.attrs.top) (st : Int) (body headers : Val)
    (c : Option Checker) (resp : Response) (is : Issues) (h : dumpPatch s st body headers c = .ok (resp, is)) :
    (st ≠ 200 → st ≠ 204 → 16 ∈ is.codesAt [.name "status".toList]) ∧
    10 ∉ is.codesAt [.name "headers".toList, .name "Location".toList] := by
  unfold dumpPatch at h
  split at h
  · rename_i h204
    cases h
    refine ⟨fun _ hh => absurd h204 hh, ?_⟩
    split
    · decide
    · decide
  · exact ⟨fun h1 _ => C75_status s _ _ _ body headers c resp is h h1, not_required s hs hsane _ _ _ _ _ _ _ h⟩

/-! ### C94 -/

omit [PyEnv] in
/-- **C94** a request for the schemas or resource types is answered in full: its query string and its body are dropped,
the headers are kept. -/
theorem C94_dropped (headers query : Val) :
    (parseConfigQuery headers query).1 = { headers, query := .null, body := .null } := rfl

omit [PyEnv] in
/-- **C94** a filter is reported as not supported, and nothing else is ever reported. -/
theorem C94_filter (headers query : Val) (l : Loc) (c : Nat) :
    c ∈ (parseConfigQuery headers query).2.codesAt l ↔
      c = 39 ∧ l = [.name "query_string".toList, .name "filter".toList] ∧
        ∃ q v, query = .dict q ∧ aget "filter".toList q = some v := by
  unfold parseConfigQuery
  simp only
  split
  · rename_i q
    split
    · rename_i hf
      obtain ⟨v, hv⟩ := Option.isSome_iff_exists.mp hf
      have hex : ∃ q' v, Val.dict q = .dict q' ∧ aget "filter".toList q' = some v := ⟨q, v, rfl, hv⟩
      simp only [hex, and_true]
      unfold Issues.codesAt
      rw [errorsAt_add]
      by_cases hl : l = [.name "query_string".toList, .name "filter".toList]
      · subst hl
        show c ∈ [39] ↔ _
        simp
      · rw [if_neg (fun e => hl e.symm)]
        simp only [hl, and_false, iff_false]
        intro h; cases h
    · rename_i hf
      constructor
      · intro h; cases h
      · rintro ⟨_, _, q', v, e, hv⟩
        cases e
        exact absurd (by rw [show filterWord = "filter".toList from rfl, hv]; rfl) hf
  · rename_i hq
    constructor
    · intro h; cases h
    · rintro ⟨_, _, q', v, e, _⟩
      exact absurd e (hq _)

omit [PyEnv] in
/-- **C94** so a request is accepted exactly when it has no filter. -/
theorem C94_accepted (headers query : Val) :
    (parseConfigQuery headers query).2.hasIssues = false ↔ ∀ q, query = .dict q → aget "filter".toList q = none := by
  have hw : (parseConfigQuery headers query).2.WF := by
    unfold parseConfigQuery
    simp only
    split
    · split
      · exact WF.empty.add _ _ _
      · exact WF.empty
    · exact WF.empty
  constructor
  · intro h q hq
    cases hg : aget "filter".toList q with
    | none => rfl
    | some v =>
      have := (C94_filter headers query _ 39).mpr ⟨rfl, rfl, q, v, hq, hg⟩
      rw [eq_empty_codes h] at this
      cases this
  · intro h
    cases hb : (parseConfigQuery headers query).2.hasIssues with
    | false => rfl
    | true =>
      exfalso
      obtain ⟨l, hl⟩ := (hasIssues_iff_errors hw).mp hb
      obtain ⟨e, he⟩ := List.exists_mem_of_ne_nil _ hl
      obtain ⟨_, _, q, v, hq, hv⟩ := (C94_filter headers query l e.code).mp (List.mem_map.mpr ⟨e, he, rfl⟩)
      rw [h q hq] at hv; cases hv

end Scim

namespace Scim.Examples.Endpoints

local instance endpointsEnv : PyEnv := asciiEnv

/-- An error without `status`. -/
def noStatus : Val := .dict [("schemas".toList, .list [.str ErrorA.urn]), ("detail".toList, .str "gone".toList)]

def statusOf (r : PyM (Response × Issues)) (l : Loc) : Option (List Nat) :=
  match r with
  | .ok (_, is) => some (is.codesAt l)
  | .error _ => none

/-- **C74** the missing status is reported together with the mismatch. -/
example : statusOf (V.dumpError 404 noStatus .null) [.name "body".toList, .name "status".toList] = some [15] := by
  decide +kernel

/-- **C75** a created user without the header. -/
example : statusOf (V.dumpPost userSchema 200 (.dict [("schemas".toList, .list [.str "urn:ietf:params:scim:schemas:core:2.0:User".toList]),
    ("userName".toList, .str "bj".toList)]) .null none) [.name "headers".toList, .name "Location".toList] = some [10] := by
  decide +kernel

/-- **C94** -/
example : (V.parseConfigQuery .null (.dict [("filter".toList, .str "name eq 1".toList)])).2.hasIssues = true ∧
    (V.parseConfigQuery .null (.dict [("count".toList, .str "1".toList)])).2.hasIssues = false := by
  decide +kernel

end Scim.Examples.Endpoints
