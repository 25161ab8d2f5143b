import Verif.Spec.Validators
import Verif.Lemmas.Messages
import Verif.Props.Requests

/-! Responses: C74, C75. -/

namespace Scim
open Issues V
variable [PyEnv]

omit [PyEnv] in
theorem mem_codesAt_merge {o : Issues} (ho : o.WF) (s : Issues) (loc l : Loc) (c : Nat) :
    c ∈ (s.merge o loc).codesAt l ↔ c ∈ s.codesAt l ∨ (loc <+: l ∧ c ∈ o.codesAt (l.drop loc.length)) := by
  unfold Issues.codesAt
  rw [errorsAt_merge ho, List.map_append, List.mem_append]
  split
  · rename_i h; simp [h]
  · rename_i h; simp [h]

omit [PyEnv] in
theorem noIssues_iff_empty {is : Issues} (h : is.WF) : is.hasIssues = false ↔ is = {} :=
  ⟨eq_empty_of_noIssues h, fun e => by rw [e]; rfl⟩

omit [PyEnv] in
theorem eq_empty_codes {is : Issues} (h : is.hasIssues = false) (l : Loc) : is.codesAt l = [] := by
  have := (hasIssues_false_iff is).mp h
  unfold Issues.codesAt Issues.errorsAt
  rw [this]; rfl

/-! ### C74 -/

theorem errorStatusMatches_clean {n : Str} {v : Val} {st : Int} {is : Issues} (h : errorStatusMatches n v st = .ok is) :
    is.hasIssues = false ↔ v = .str (toString st).toList := by
  unfold errorStatusMatches at h
  cases hp : (Val.str (intText st)).pyEq v with
  | error e => rw [hp] at h; cases h
  | ok b =>
    rw [hp] at h
    cases h
    cases b with
    | true =>
      simp only [if_true]
      exact ⟨fun _ => pyEq_str_left hp, fun _ => rfl⟩
    | false =>
      simp only [Bool.false_eq_true, if_false, hasIssues_add, reduceCtorEq, false_iff]
      rintro rfl
      rw [show intText st = (toString st).toList from rfl, pyEq_str_str] at hp
      simp at hp

theorem errorStatus_clean {b : Val} {st : Int} {is : Issues} (h : errorStatus b st {} = .ok is) :
    is.hasIssues = false ↔ b.getItem { schema := ErrorA.urn, attr := "status".toList } = .ok (.str (toString st).toList) := by
  unfold errorStatus at h
  rw [ErrorA.getTop_status] at h
  simp only [canProceed_empty, if_true, ErrorA.status_rep] at h
  cases hg : b.getItem { schema := ErrorA.urn, attr := ErrorA.statusWord } with
  | error e => rw [hg] at h; cases h
  | ok v =>
    rw [hg] at h
    simp only at h
    split at h
    · cases h
    · rename_i i hi
      cases h
      rw [hasIssues_merge_false, errorStatusMatches_clean hi]
      show _ ↔ b.getItem { schema := ErrorA.urn, attr := ErrorA.statusWord } = _
      rw [hg]
      simp [show Issues.hasIssues {} = false from rfl]

/-- **C74** an error response is accepted exactly when its body is valid and complete, its `status` is the decimal text
of the HTTP status, and the HTTP status is in the permitted range. -/
theorem C74_accepted_iff (st : Int) (body headers : Val) (resp : Response) (is : Issues)
    (h : dumpError st body headers = .ok (resp, is)) :
    is.hasIssues = false ↔
      (∃ b i, ErrorA.schema.dump body = .ok (b, {}) ∧ Checker.call {} b ErrorA.schema.attrs .response = .ok i ∧
        i.hasIssues = false ∧
        b.getItem { schema := ErrorA.urn, attr := "status".toList } = .ok (.str (toString st).toList)) ∧
      200 ≤ st ∧ st < 600 := by
  unfold dumpError at h
  split at h
  · cases h
  rename_i b is1 hd
  split at h
  · cases h
  rename_i is2 hc
  split at h
  · cases h
  rename_i is3 hs
  have e1 : is3.merge (errorStatusRange st) = is := congrArg Prod.snd (Except.ok.inj h)
  have hw := schema_dump_wf ErrorA.wf ErrorA.sane hd
  have hr : (errorStatusRange st).hasIssues = false ↔ 200 ≤ st ∧ st < 600 := by
    unfold errorStatusRange
    split
    · rename_i h; simp [h, show Issues.hasIssues {} = false from rfl]
    · rename_i h; simp [h, hasIssues_add]
  rw [← e1, hasIssues_merge_false, hr]
  refine and_congr_left fun _ => ?_
  constructor
  · intro hn
    have hn2 := errorStatus_mono hs hn
    obtain ⟨i, rfl, hwi, hcase⟩ := checkBody_mono hc
    simp only [hasIssues_merge_false] at hn2
    obtain ⟨⟨-, hn1⟩, hni⟩ := hn2
    have := (noIssues_iff_empty hw).mp hn1
    subst this
    rw [show Issues.empty.merge {} bodyLoc = {} from rfl, canProceed_empty] at hcase
    rw [(noIssues_iff_empty hwi).mp hni, show Issues.merge (Issues.empty.merge {} bodyLoc) {} bodyLoc = {} from rfl] at hs
    rcases hcase with ⟨-, hcall⟩ | ⟨hf, -⟩
    · exact ⟨b, i, hd, hcall, hni, (errorStatus_clean hs).mp hn⟩
    · cases hf
  · rintro ⟨b', i, hd', hcall, hni, hg⟩
    rw [hd] at hd'; cases hd'
    obtain ⟨i', rfl, hwi, hcase⟩ := checkBody_mono hc
    rw [show Issues.empty.merge {} bodyLoc = {} from rfl, canProceed_empty] at hcase
    rcases hcase with ⟨-, hcall'⟩ | ⟨hf, -⟩
    · rw [hcall] at hcall'; cases hcall'
      rw [(noIssues_iff_empty hwi).mp hni, show Issues.merge (Issues.empty.merge {} bodyLoc) {} bodyLoc = {} from rfl] at hs
      exact (errorStatus_clean hs).mpr hg
    · cases hf

/-- **C74** the body that is sent carries this status. -/
theorem C74_status (st : Int) (body headers : Val) (resp : Response) (is : Issues)
    (h : dumpError st body headers = .ok (resp, is)) (hn : is.hasIssues = false) :
    200 ≤ st ∧ st < 600 ∧
      ∃ kvs, resp.body = .dict kvs ∧ aget "status".toList kvs = some (.str (toString st).toList) := by
  obtain ⟨⟨b, i, hd, -, -, hg⟩, h1, h2⟩ := (C74_accepted_iff st body headers resp is h).mp hn
  refine ⟨h1, h2, ?_⟩
  obtain ⟨hobj, -, hp⟩ := dump_noIssues hd rfl
  obtain ⟨d, lc, rfl, hv⟩ := process_view ErrorA.wf hobj hp
  have hgd := hv.get ErrorA.wf ErrorA.status_mem (by rw [ErrorA.status_rep])
  rw [ErrorA.status_rep] at hgd
  rw [show "status".toList = ErrorA.statusWord from rfl, hgd] at hg
  have hs : aget ErrorA.statusWord d = some (.str (toString st).toList) := by
    cases ha : aget ErrorA.statusWord d with
    | none => rw [ha] at hg; cases hg
    | some v => rw [ha] at hg; cases hg; rfl
  refine ⟨dictPairs d, ?_, ?_⟩
  · unfold dumpError at h
    rw [hd] at h
    simp only at h
    split at h
    · cases h
    split at h
    · cases h
    have hfin := Except.ok.inj h
    have e0 := congrArg Prod.fst hfin
    have e1 := congrArg Prod.snd hfin
    simp only [finish] at e0 e1
    rw [← e0, e1, hn]; rfl
  · rw [aget_dictPairs, show "status".toList = ErrorA.statusWord from rfl, hs]; rfl

/-- **C74** an HTTP status outside the range is reported as such. -/
theorem C74_range (st : Int) (body headers : Val) (resp : Response) (is : Issues)
    (h : dumpError st body headers = .ok (resp, is)) (hst : ¬ (200 ≤ st ∧ st < 600)) :
    12 ∈ is.codesAt [.name "status".toList] := by
  unfold dumpError at h
  split at h
  · cases h
  split at h
  · cases h
  split at h
  · cases h
  have e1 := congrArg Prod.snd (Except.ok.inj h)
  rw [← show _ = is from e1]
  simp only [finish, errorStatusRange, if_neg hst]
  rw [mem_codesAt_merge (WF.empty.add _ _ _)]
  right
  exact ⟨⟨_, rfl⟩, by decide⟩

/-! ### C75 -/

omit [PyEnv] in
theorem locationInHeader_clean {headers : Val} {lr : Bool} :
    (locationInHeader headers lr).hasIssues = false ↔ (lr = true → hasLocation (orDict headers) = true) := by
  unfold locationInHeader
  cases lr <;> cases hasLocation (orDict headers) <;> simp [hasIssues_add, show Issues.hasIssues {} = false from rfl]

omit [PyEnv] in
theorem locationInHeader_wf {headers : Val} {lr : Bool} : (locationInHeader headers lr).WF := by
  unfold locationInHeader
  split
  · exact WF.empty.add _ _ _
  · exact WF.empty

omit [PyEnv] in
theorem statusIs_clean {ex st : Int} : (statusIs ex st).hasIssues = false ↔ ex = st := by
  unfold statusIs
  split
  · rename_i h; simp [h, show Issues.hasIssues {} = false from rfl]
  · rename_i h; simp [h, hasIssues_add]

omit [PyEnv] in
theorem statusIs_wf {ex st : Int} : (statusIs ex st).WF := by
  unfold statusIs
  split
  · exact WF.empty
  · exact WF.empty.add _ _ _

omit [PyEnv] in
theorem orDict_orDict (v : Val) : orDict (orDict v) = orDict v := by
  unfold orDict
  by_cases h : v.truthy = true
  · simp [h]
  · simp [h]

/-- The value of the `Location` header, if there is one. -/
def headerLocation (headers : Val) : Option Val :=
  match headers with
  | .dict kvs => aget "Location".toList kvs
  | _ => none

theorem locationsMatch_wf {v l : Val} {j : Issues} (h : locationsMatch v l = .ok j) : j.WF := by
  unfold locationsMatch at h
  split at h
  · cases h
  · cases h
    split
    · exact WF.empty
    · exact (WF.empty.add _ _ _).add _ _ _

theorem checkLocations_le {s : Schema} {headers body : Val} {is r : Issues}
    (h : checkLocations s headers body is = .ok r) {c : Nat} {l : Loc} (hc : c ∈ is.codesAt l) : c ∈ r.codesAt l := by
  obtain ⟨a, loc, _, _, ⟨_, v, j, _, hj, rfl⟩ | ⟨_, rfl⟩⟩ := checkLocations_split h
  · rw [mem_codesAt_merge (locationsMatch_wf hj)]; exact .inl hc
  · exact hc

/-- **C75** a status other than the expected one is reported. -/
theorem C75_status (s : Schema) (lr : Bool) (ex st : Int) (body headers : Val) (c : Option Checker) (resp : Response)
    (is : Issues) (h : dumpResource s lr ex st body headers c = .ok (resp, is)) (hst : st ≠ ex) :
    16 ∈ is.codesAt [.name "status".toList] := by
  obtain ⟨b, is1, is2, i3, is3, hd, rfl, rfl, hw, hcase, hl, _, _⟩ := dumpResource_split h
  apply checkLocations_le hl
  rw [mem_codesAt_merge hw, mem_codesAt_merge statusIs_wf]
  left; right
  refine ⟨⟨[], rfl⟩, ?_⟩
  rw [statusIs, if_neg (Ne.symm hst)]
  decide

/-- **C75** a response to POST without the header is reported. -/
theorem C75_header (s : Schema) (ex st : Int) (body headers : Val) (c : Option Checker) (resp : Response)
    (is : Issues) (h : dumpResource s true ex st body headers c = .ok (resp, is))
    (hh : headerLocation headers = none) : 10 ∈ is.codesAt [.name "headers".toList, .name "Location".toList] := by
  obtain ⟨b, is1, is2, i3, is3, hd, rfl, rfl, hw, hcase, hl, _, _⟩ := dumpResource_split h
  apply checkLocations_le hl
  rw [mem_codesAt_merge hw, mem_codesAt_merge statusIs_wf, mem_codesAt_merge locationInHeader_wf]
  left; left; right
  refine ⟨⟨_, rfl⟩, ?_⟩
  have : hasLocation (orDict (orDict headers)) = false := by
    rw [orDict_orDict]
    unfold orDict
    split
    · unfold headerLocation at hh
      unfold hasLocation
      split at hh
      · show (aget "Location".toList _).isSome = false
        rw [hh]; rfl
      · rename_i hne
        split
        · exact absurd rfl (hne _)
        · rfl
    · rfl
  rw [locationInHeader, this]
  decide

/-- The declaration of `meta.location`. -/
def locationSub : Attr :=
  mkAttr { rep := { attr := "location".toList }, type := .uriRef, issuer := .server, mutability := .readOnly }

theorem location_isName : isAttrName "location".toList = true :=
  isAttrName_ascii _ (by decide) (by decide)

omit [PyEnv] in
theorem getLocation_orDict {headers v loc : Val} (hh : headerLocation headers = some v)
    (h : getLocation (orDict headers) = .ok loc) : loc = v := by
  unfold headerLocation at hh
  split at hh
  · rename_i kvs
    cases kvs with
    | nil => cases hh
    | cons p ps =>
      rw [show orDict (.dict (p :: ps)) = .dict (p :: ps) from rfl] at h
      simp only [getLocation] at h
      rw [show locationWord = "Location".toList from rfl, hh] at h
      cases h; rfl
  · cases hh

omit [PyEnv] in
theorem hasLocation_orDict {headers v : Val} (ht : headerLocation headers = some v) : hasLocation (orDict headers) = true := by
  unfold headerLocation at ht
  split at ht
  · rename_i kvs
    cases kvs with
    | nil => cases ht
    | cons p ps =>
      rw [show orDict (.dict (p :: ps)) = .dict (p :: ps) from rfl]
      show (aget "Location".toList _).isSome = true
      rw [ht]; rfl
  · cases ht

theorem location_bound {s : Schema} (hmeta : ∀ a ∈ bindWithSubs s.urn false metaAttr, a ∈ s.attrs.all) :
    bindAttr locationSub { schema := s.urn, attr := "meta".toList, sub := "location".toList } ∈ s.attrs.all := by
  obtain ⟨j, hj, _, _, _, _, _, hrep⟩ := metaAttr_eq
  have hname : metaAttr.rep.attr = "meta".toList := by rw [hj]; exact hrep
  apply hmeta
  rw [mem_bindWithSubs, hname]
  right
  refine ⟨locationSub, ?_, rfl⟩
  rw [hj]
  show locationSub ∈ metaSubs
  simp [metaSubs, locationSub]

/-- What a dumped resource holds as its location stands under `meta` and `location` in the dictionary. -/
theorem location_in_dict {s : Schema} (hs : s.WF) (hmeta : ∀ a ∈ bindWithSubs s.urn false metaAttr, a ∈ s.attrs.all)
    {m : Mode} {data r : Val} {is : Issues} (hobj : (data.isCont || data.isDict) = true)
    (h : s.process m data = .ok (r, is)) {t : Str}
    (ht : r.getItem { schema := s.urn, attr := "meta".toList, sub := "location".toList } = .ok (.str t)) :
    ∃ kvs mkvs, r.toDict = .dict kvs ∧ aget "meta".toList kvs = some (.dict mkvs) ∧
      aget "location".toList mkvs = some (.str t) := by
  obtain ⟨htr, -, -⟩ := process_spec hs hobj h
  obtain ⟨d, lc, rfl, hv⟩ := process_view hs hobj h
  have hmtop := boundMeta_mem hs hmeta
  have hmrep : (boundMeta s.urn).rep = { schema := s.urn, attr := "meta".toList } := boundMeta_rep _
  have hme : (boundMeta s.urn).rep.ext = false := by rw [hmrep]
  have hgs := hv.getSub hs hmtop hme (sub := "location".toList) (by decide)
  have hg := hv.get hs hmtop hme
  rw [hmrep] at hgs
  simp only at hgs
  rw [ht] at hgs
  rw [hmrep] at hg
  simp only at hg
  obtain ⟨x, hx⟩ := htr.read _ hmtop
  cases ha : aget "meta".toList d with
  | none => rw [ha] at hgs; cases hgs
  | some y =>
    rw [ha] at hgs hg
    simp only [Option.getD_some] at hgs hg
    have hy : ∃ dm lcm, y = .cont dm lcm ∧ SubView metaSubs dm lcm := by
      by_cases hxm : x.isMissing = true
      · have : x = .missing := by cases x <;> simp [Val.isMissing] at hxm; rfl
        subst this
        have hab := htr.absent _ hmtop hme hx
        rw [hmrep, hg] at hab
        cases hab
        cases hgs
      · obtain ⟨y', i, hp, hy'⟩ := htr.present _ hmtop x hx (by simpa using hxm)
        rw [hmrep, hg] at hy'
        cases hy'
        obtain ⟨hnc, hc⟩ := meta_process m _ x y i hp
        cases hxc : x.isCont with
        | false =>
          rcases hnc hxc with rfl | rfl <;> cases hgs
        | true => exact processSubs_view metaSubs_plain (hc hxc)
    obtain ⟨dm, lcm, rfl, hvm⟩ := hy
    have hgl := hvm.getX metaSubs_plain (a := locationSub) (by simp [metaSubs, locationSub])
      location_isName
    have hlr : locationSub.rep = { attr := "location".toList } := rfl
    rw [hlr] at hgl
    rw [hgl] at hgs
    refine ⟨dictPairs d, dictPairs dm, rfl, ?_, ?_⟩
    · rw [aget_dictPairs, ha]; rfl
    · rw [aget_dictPairs]
      simp only at hgs
      cases hl : aget "location".toList dm with
      | none => rw [hl] at hgs; cases hgs
      | some w => rw [hl] at hgs; cases hgs; rfl

/-- **C75** an accepted response has the expected status, the header where it is required, and when the header is
there the body that is sent carries the same location. -/
theorem C75_accepted (s : Schema) (hs : s.WF) (hsane : SaneAll s.attrs.top)
    (hmeta : ∀ a ∈ bindWithSubs s.urn false metaAttr, a ∈ s.attrs.all)
    (lr : Bool) (ex st : Int) (body headers : Val) (c : Option Checker) (resp : Response) (is : Issues)
    (h : dumpResource s lr ex st body headers c = .ok (resp, is)) (hn : is.hasIssues = false) :
    st = ex ∧ (lr = true → ∃ v, headerLocation headers = some v) ∧
    ∀ t, headerLocation headers = some (.str t) →
      ∃ kvs mkvs, resp.body = .dict kvs ∧ aget "meta".toList kvs = some (.dict mkvs) ∧
        aget "location".toList mkvs = some (.str t) := by
  refine ⟨?_, ?_, ?_⟩
  · by_cases e : st = ex
    · exact e
    · have := C75_status s lr ex st body headers c resp is h e
      rw [eq_empty_codes hn] at this
      simp at this
  · rintro rfl
    cases hh : headerLocation headers with
    | some v => exact ⟨v, rfl⟩
    | none =>
      have := C75_header s ex st body headers c resp is h hh
      rw [eq_empty_codes hn] at this
      simp at this
  · intro t ht
    obtain ⟨b, is1, is2, i3, is3, hd, hi3, hi2, hw, hcase, hl, _, hb⟩ := dumpResource_split h
    have hn2 := checkLocations_noIssues hl hn
    have hempty : is2 = {} := by
      rw [hi2, hi3] at hn2 ⊢
      simp only [hasIssues_merge_false] at hn2
      obtain ⟨⟨⟨⟨-, h1⟩, h2⟩, h3⟩, h4⟩ := hn2
      rw [(noIssues_iff_empty (schema_dump_wf hs hsane hd)).mp h1, (noIssues_iff_empty locationInHeader_wf).mp h2,
        (noIssues_iff_empty statusIs_wf).mp h3, (noIssues_iff_empty hw).mp h4]
      rfl
    have hd1 : is1 = {} := by
      rw [hi2, hi3] at hn2
      simp only [hasIssues_merge_false] at hn2
      exact (noIssues_iff_empty (schema_dump_wf hs hsane hd)).mp hn2.1.1.1.2
    obtain ⟨a, loc, ha, hloc, hc⟩ := checkLocations_split hl
    have := getLocation_orDict ht hloc
    subst this
    rw [hempty, canProceed_empty] at hc
    rcases hc with ⟨-, v, j, hv, hj, rfl⟩ | ⟨hf, -⟩
    · have hja : a = bindAttr locationSub { schema := s.urn, attr := "meta".toList, sub := "location".toList } := by
        have := hs.getSub_of_mem (location_bound hmeta) (by rw [bindAttr_rep]) (name := "meta".toList)
          (sub := "location".toList) (by rw [bindAttr_rep]) (by rw [bindAttr_rep])
        rw [ha] at this
        exact Option.some.inj this
      rw [hja, bindAttr_rep] at hv
      have hve : v = .str t := by
        unfold locationsMatch at hj
        split at hj
        · cases hj
        · rename_i bb hbb
          cases bb with
          | true => exact pyEq_str_right hbb
          | false =>
            cases hj
            rw [hasIssues_merge_false] at hn
            simp [hasIssues_add] at hn
      subst hve
      obtain ⟨hobj, -, hp⟩ := dump_noIssues hd (by rw [hd1]; rfl)
      obtain ⟨kvs, mkvs, e1, e2, e3⟩ := location_in_dict hs hmeta hobj hp hv
      refine ⟨kvs, mkvs, ?_, e2, e3⟩
      rw [hb, hn, e1]; rfl
    · cases hf

/-- **C75** a response wrong in nothing but its location is reported at both places. -/
theorem C75_mismatch (s : Schema) (hs : s.WF) (hmeta : ∀ a ∈ bindWithSubs s.urn false metaAttr, a ∈ s.attrs.all)
    (lr : Bool) (ex : Int) (body headers b : Val) (c : Option Checker) (resp : Response) (is : Issues)
    (h : dumpResource s lr ex ex body headers c = .ok (resp, is)) (hd : s.dump body = .ok (b, {}))
    (hc : (c.getD {}).call b s.attrs .response = .ok {}) (t : Str) (ht : headerLocation headers = some (.str t)) (v : Val)
    (hv : b.getItem { schema := s.urn, attr := "meta".toList, sub := "location".toList } = .ok v) (hne : v ≠ .str t) :
    11 ∈ is.codesAt [.name "body".toList, .name "meta".toList, .name "location".toList] ∧
      11 ∈ is.codesAt [.name "headers".toList, .name "Location".toList] := by
  obtain ⟨b', is1, is2, i3, is3, hd', hi3, hi2, hw, hcase, hl, _, hb⟩ := dumpResource_split h
  rw [hd] at hd'
  cases hd'
  have hloc1 : locationInHeader (orDict headers) lr = {} := by
    refine (noIssues_iff_empty locationInHeader_wf).mp (locationInHeader_clean.mpr fun _ => ?_)
    rw [orDict_orDict]
    exact hasLocation_orDict ht
  have hs1 : statusIs ex ex = {} := by simp [statusIs]
  have h3 : i3 = {} := by rw [hi3, hloc1, hs1]; rfl
  rw [h3, canProceed_empty] at hcase
  rcases hcase with ⟨-, hc'⟩ | ⟨hf, -⟩
  case inr => cases hf
  rw [hc] at hc'
  cases hc'
  have h2 : is2 = {} := by rw [hi2, h3]; rfl
  obtain ⟨a, loc, ha, hloc, hcl⟩ := checkLocations_split hl
  have := getLocation_orDict ht hloc
  subst this
  rw [h2, canProceed_empty] at hcl
  rcases hcl with ⟨-, v', j, hv', hj, rfl⟩ | ⟨hf, -⟩
  case inr => cases hf
  have hja : a = bindAttr locationSub { schema := s.urn, attr := "meta".toList, sub := "location".toList } := by
    have := hs.getSub_of_mem (location_bound hmeta) (by rw [bindAttr_rep]) (name := "meta".toList)
      (sub := "location".toList) (by rw [bindAttr_rep]) (by rw [bindAttr_rep])
    rw [ha] at this
    exact Option.some.inj this
  rw [hja, bindAttr_rep, hv] at hv'
  cases hv'
  have hj2 : j = (Issues.empty.add ⟨11, []⟩ true metaLocationLoc).add ⟨11, []⟩ true headerLocationLoc := by
    unfold locationsMatch at hj
    split at hj
    · cases hj
    · rename_i bb hbb
      cases bb with
      | true => exact absurd (pyEq_str_right hbb) hne
      | false => cases hj; rfl
  rw [hj2]
  decide

end Scim

namespace Scim.Examples.Responses
open Issues V
local instance responsesEnv : PyEnv := asciiEnv

/-- The outcome of an error response: what is sent and what is reported. -/
def outcome (r : PyM (Response × Issues)) : Option (Val × List (Loc × List Nat)) :=
  match r with
  | .error _ => none
  | .ok (resp, is) => some (resp.body, is.issues.map fun p => (p.1, p.2.map (·.code)))

def schemasOf (u : String) : Str × Val := ("schemas".toList, .list [.str u.toList])

def errorBody (status : String) : Val :=
  .dict [schemasOf "urn:ietf:params:scim:api:messages:2.0:Error", ("status".toList, .str status.toList)]

-- C74: the hypotheses are met, and a different status is reported
example : outcome (dumpError 404 (errorBody "404") .null) = some (errorBody "404", []) := by decide +kernel
example : (outcome (dumpError 404 (errorBody "409") .null)).map (·.2) =
    some [([.name "body".toList, .name "status".toList], [13]), ([.name "status".toList], [13])] := by decide +kernel
example : ((outcome (dumpError 700 (errorBody "404") .null)).map (·.2)).isSome = true := by decide +kernel

def location (t : String) : Val := .dict [("Location".toList, .str t.toList)]

def group (loc : String) : Val :=
  .dict [schemasOf "urn:ietf:params:scim:schemas:core:2.0:Group", ("id".toList, .str "1".toList),
    ("displayName".toList, .str "staff".toList),
    ("meta".toList, .dict [("resourceType".toList, .str "Group".toList), ("location".toList, .str loc.toList)])]

-- C75: the same location is accepted, a different one or none is reported
example : (outcome (dumpResource GroupA.schema true 201 201 (group "https://a.b/Groups/1") (location "https://a.b/Groups/1") none)).map
    (·.2) = some [] := by decide +kernel
example : (outcome (dumpResource GroupA.schema true 201 201 (group "https://a.b/Groups/1") (location "https://a.b/Groups/2") none)).map
    (·.2) = some [([.name "body".toList, .name "meta".toList, .name "location".toList], [11]),
      ([.name "headers".toList, .name "Location".toList], [11])] := by decide +kernel
example : (outcome (dumpResource GroupA.schema true 201 200 (group "https://a.b/Groups/1") .null none)).map
    (·.2) = some [([.name "headers".toList, .name "Location".toList], [10]), ([.name "status".toList], [16])] := by decide +kernel

end Scim.Examples.Responses
