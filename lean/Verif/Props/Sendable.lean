import Verif.Lemmas.Sendable
import Verif.Props.Valid

/-! # C113: which responses with a resource are accepted, said about the response itself -/

namespace Scim
open Issues V Valid Declared
variable [PyEnv]

omit [PyEnv] in
theorem hasLocation_iff {headers : Val} : hasLocation (orDict headers) = true ↔ HasLocation headers := by
  constructor
  · intro h
    unfold orDict at h
    split at h
    · unfold hasLocation at h
      split at h
      · rename_i kvs _
        obtain ⟨v, hv⟩ := Option.isSome_iff_exists.mp h
        exact ⟨kvs, v, rfl, hv⟩
      · cases h
    · cases h
  · rintro ⟨kvs, loc, rfl, h⟩
    exact hasLocation_orDict (v := loc) h

omit [PyEnv] in
/-- What is compared with the location of the body. -/
theorem getLocation_cases {headers loc : Val} (h : getLocation (orDict headers) = .ok loc) :
    loc = .null ∨ ∃ kvs, headers = .dict kvs ∧ aget "Location".toList kvs = some loc := by
  unfold orDict at h
  split at h
  · unfold getLocation at h
    split at h
    · rename_i kvs _
      cases hl : aget "Location".toList kvs with
      | none =>
        rw [show locationWord = "Location".toList from rfl, hl] at h
        cases h; exact .inl rfl
      | some v =>
        rw [show locationWord = "Location".toList from rfl, hl] at h
        cases h; exact .inr ⟨kvs, rfl, hl⟩
    · cases h
  · cases h; exact .inl rfl

/-- The comparison of the locations, nothing having been reported before. -/
theorem checkLocations_ok {s : Schema} (hp : Proper s) (hmeta : ∀ a ∈ bindWithSubs s.urn false metaAttr, a ∈ s.attrs.all)
    {D : List (Str × Val)} (hD : Ordinary s D) (hv : ValidIn .dump s.attrs.top D) {r : Val} {is0 is : Issues}
    (h0 : s.process .dump (.dict D) = .ok (r, is0)) {headers : Val} (hh : HeadersOk headers)
    (h : checkLocations s (orDict headers) r {} = .ok is) :
    is.hasIssues = false ↔ LocationAgrees s headers D := by
  obtain ⟨a, loc, ha, hloc, hc⟩ := checkLocations_split h
  have hja : a.rep = { schema := s.urn, attr := "meta".toList, sub := "location".toList } := by
    have := hp.wf.getSub_of_mem (location_bound hmeta) (by rw [bindAttr_rep]) (name := "meta".toList)
      (sub := "location".toList) (by rw [bindAttr_rep]) (by rw [bindAttr_rep])
    rw [ha] at this
    rw [Option.some.inj this, bindAttr_rep]
  obtain ⟨hk, hkt⟩ := meta_kept (b := { rep := { attr := "location".toList }, type := .uriRef, issuer := .server, mutability := .readOnly })
    hp hmeta hD hv h0 (by simp [metaSubs]) location_isName (.inr rfl) rfl rfl rfl
  change r.getItem { schema := s.urn, attr := "meta".toList, sub := "location".toList } =
      .ok ((inMeta s "location".toList D).getD .missing) at hk
  change ∀ x, inMeta s "location".toList D = some x → x = .null ∨ ∃ t, x = .str t at hkt
  rw [canProceed_empty, hja] at hc
  by_cases hnull : loc = .null
  · subst hnull
    rcases hc with ⟨hc, -⟩ | ⟨-, rfl⟩
    · cases hc
    · refine ⟨fun _ kvs l e hl hn => ?_, fun _ => rfl⟩
      exact absurd (getLocation_orDict (headers := headers) (v := l) (by rw [e]; exact hl) hloc).symm hn
  · have hnn : loc.isNone = false := by
      cases loc with
      | prim p => cases p <;> first | rfl | exact absurd rfl hnull
      | _ => rfl
    rw [hnn] at hc
    obtain ⟨kvs, rfl, hl⟩ := (getLocation_cases hloc).resolve_left hnull
    have hag : LocationAgrees s (.dict kvs) D ↔ inMeta s "location".toList D = some loc := by
      constructor
      · intro hg
        exact hg kvs loc rfl hl hnull
      · intro hg kvs' l e hl' _
        cases e
        rw [hl] at hl'
        cases hl'
        exact hg
    have hprim : ∃ p, loc = .prim p := by
      cases kvs with
      | nil => cases hl
      | cons p ps =>
        obtain ⟨kvs', e, hx⟩ := hh rfl
        cases e
        exact hx loc hl
    rw [hag]
    rcases hc with ⟨-, v, j, hv', hj, rfl⟩ | ⟨hc, -⟩
    · rw [hk] at hv'
      cases hv'
      unfold locationsMatch at hj
      split at hj
      · cases hj
      · rename_i b hb
        have key := pyEq_text (x := (inMeta s "location".toList D).getD .missing) (by
          cases hm : inMeta s "location".toList D with
          | none => exact .inl rfl
          | some x => exact .inr (hkt x hm)) hprim hnull hb
        have hiff : (inMeta s "location".toList D).getD .missing = loc ↔ inMeta s "location".toList D = some loc := by
          cases inMeta s "location".toList D with
          | none =>
            obtain ⟨p, rfl⟩ := hprim
            simp
          | some x => simp
        rw [← hiff, ← key]
        cases b with
        | true => cases hj; exact ⟨fun _ => rfl, fun _ => rfl⟩
        | false => cases hj; exact ⟨fun e => (nomatch (show (true : Bool) = false from e)), fun e => (by cases e)⟩
    · cases hc

/-- **C113** a response with a resource is always answered, and accepted exactly when the status is the expected one, the header
`Location` is there if it must be, and the body is a document that may be sent whose location is that of the header. -/
theorem C113_resource {s : Schema} (hp : Proper s) (hres : s.isResource = true)
    (hmeta : ∀ a ∈ bindWithSubs s.urn false metaAttr, a ∈ s.attrs.all) {required : Bool} {expected status : Int}
    {body headers : Val} {c : Option Checker} (hb : JsonBody s body) (hh : HeadersOk headers) :
    ∃ resp is, dumpResource s required expected status body headers c = .ok (resp, is) ∧
      (is.hasIssues = false ↔ status = expected ∧ (required = true → HasLocation headers) ∧
        ∃ D, body = .dict D ∧ Sendable s (c.getD {}) D ∧ LocationAgrees s headers D) := by
  obtain ⟨resp, is, h⟩ := C97_resource s hp.wf hp.noShadow hp.owned (hp.standard _) hmeta required expected status body headers c
    hb hh
  refine ⟨resp, is, h, ?_⟩
  obtain ⟨b, is1, is2, i3, is3, hd, hi3, hi2, hw, hcase, hl, -, -⟩ := dumpResource_split h
  have hi3n : i3.hasIssues = false ↔ is1.hasIssues = false ∧ (required = true → HasLocation headers) ∧ expected = status := by
    rw [hi3]
    simp only [hasIssues_merge_false, locationInHeader_clean, statusIs_clean, orDict_orDict, hasLocation_iff]
    simp [show Issues.empty.hasIssues = false from rfl, and_assoc]
  cases hdict : body.isDict with
  | false =>
    obtain ⟨cc, hc⟩ := process_rejects (m := .dump) (s := s) hb.1 hdict
    obtain ⟨is0, is1', h0, he, -⟩ := dump_split hd
    rw [hc] at h0
    cases h0
    refine ⟨fun hn => ?_, fun ⟨_, _, D, e, _⟩ => by subst e; cases hdict⟩
    have hn2 := checkLocations_noIssues hl hn
    rw [hi2, hasIssues_merge_false, hi3n, he, hasIssues_merge_false] at hn2
    exact nomatch (show (true : Bool) = false from hn2.1.1.1)
  | true =>
    obtain ⟨D, rfl⟩ : ∃ D, body = .dict D := by cases body <;> first | exact ⟨_, rfl⟩ | cases hdict
    have hD := hb.2 D rfl
    have hdo := dump_ok hp hres hmeta hD hd
    obtain ⟨is0, h0⟩ := C29_dump s _ _ _ hd
    have hi3w : i3.WF := by
      rw [hi3]
      exact ((WF.empty.merge (schema_dump_wf hp.wf hp.sane hd) _).merge locationInHeader_wf _).merge statusIs_wf _
    -- the presence checks
    have hchk : ∀ (hv : ValidIn .dump s.attrs.top D), (c.getD {}).call b s.attrs .response = .ok is3 →
        (is3.hasIssues = false ↔ (∀ a ∈ s.attrs.all, Demanded (c.getD {}) a → Given s D a) ∧
          (∀ a ∈ s.attrs.all, Withheld (c.getD {}) a → ¬ Shown s D a)) := by
      intro hv hc
      rw [checker_ok hp.wf hp.noShadow hp.owned hp.sane (hp.usual _) hp.regular hD hv h0 hc]
      constructor
      · intro hall
        refine ⟨fun a ha hdm => (hall a ha).1 hdm.1 hdm.2.1 (fun e => (hdm.2.2 e).imp id fun e => ⟨rfl, e⟩), ?_⟩
        rintro a ha hwh hsh
        rcases hwh with hnv | ⟨hna, hwh⟩
        · exact (hall a ha).2 hsh rfl (by rw [hnv]; simp) (.inl hnv)
        · exact (hall a ha).2 hsh rfl hna (.inr hwh)
      · rintro ⟨h1, h2⟩ a ha
        refine ⟨fun hr hi hx => h1 a ha ⟨hr, hi, fun e => (hx e).imp id fun e => e.2⟩, fun hsh _ hna hbad => ?_⟩
        rcases hbad with hnv | hbad
        · exact h2 a ha (.inl hnv) hsh
        · exact h2 a ha (.inr ⟨hna, hbad⟩) hsh
    constructor
    · intro hn
      have hn2 := checkLocations_noIssues hl hn
      have hn2' := hn2
      rw [hi2, hasIssues_merge_false] at hn2
      obtain ⟨e1, e2, e3⟩ := hi3n.mp hn2.1
      obtain ⟨hv, hty⟩ := hdo.mp e1
      have hz := eq_empty_of_noIssues hi3w hn2.1
      rw [hz, canProceed_empty] at hcase
      rcases hcase with ⟨-, hc⟩ | ⟨hc, -⟩
      · obtain ⟨h1, h2⟩ := (hchk hv.1 hc).mp hn2.2
        have hz2 : is2 = {} := eq_empty_of_noIssues (by rw [hi2]; exact hi3w.merge hw _) hn2'
        rw [hz2] at hl
        exact ⟨e3.symm, e2, D, rfl, ⟨hv, hty, h1, h2⟩, (checkLocations_ok hp hmeta hD hv.1 h0 hh hl).mp hn⟩
      · cases hc
    · rintro ⟨e3, e2, D', e, hsend, hag⟩
      cases e
      have hn1 := hdo.mpr ⟨hsend.valid, hsend.type⟩
      have hn3 := hi3n.mpr ⟨hn1, e2, e3.symm⟩
      have hz := eq_empty_of_noIssues hi3w hn3
      rw [hz, canProceed_empty] at hcase
      rcases hcase with ⟨-, hc⟩ | ⟨hc, -⟩
      · have hn2 : is2.hasIssues = false := by
          rw [hi2, hasIssues_merge_false]
          exact ⟨hn3, (hchk hsend.valid.1 hc).mpr ⟨hsend.demanded, hsend.withheld⟩⟩
        have hz2 : is2 = {} := eq_empty_of_noIssues (by rw [hi2]; exact hi3w.merge hw _) hn2
        rw [hz2] at hl
        exact (checkLocations_ok hp hmeta hD hsend.valid.1 h0 hh hl).mpr hag
      · cases hc

/-- **C113** the responses to requests that read, replace and change a resource: accepted exactly when the status is 200 and the
body may be sent; after a change also without a body when the status is 204 and no attributes were asked for. -/
theorem C113_read_change {s : Schema} (hp : Proper s) (hres : s.isResource = true)
    (hmeta : ∀ a ∈ bindWithSubs s.urn false metaAttr, a ∈ s.attrs.all) {status : Int}
    {body headers : Val} {c : Option Checker} (hb : JsonBody s body) (hh : HeadersOk headers) :
    (∃ resp is, dumpGet s status body headers c = .ok (resp, is) ∧
      (is.hasIssues = false ↔ status = 200 ∧ ∃ D, body = .dict D ∧ Sendable s (c.getD {}) D ∧ LocationAgrees s headers D)) ∧
    (∃ resp is, dumpPatch s status body headers c = .ok (resp, is) ∧
      (is.hasIssues = false ↔
        (status = 204 ∧ ∀ c', c = some c' → c'.reps = []) ∨
        (status = 200 ∧ ∃ D, body = .dict D ∧ Sendable s (c.getD {}) D ∧ LocationAgrees s headers D))) := by
  obtain ⟨resp, is, h, hi⟩ := C113_resource hp hres hmeta (required := false) (expected := 200) (status := status) (c := c) hb hh
  simp only [Bool.false_eq_true, false_implies, true_and] at hi
  refine ⟨⟨resp, is, h, hi⟩, ?_⟩
  unfold dumpPatch
  by_cases hs : status = 204
  · subst hs
    rw [if_pos rfl]
    refine ⟨_, _, rfl, ?_⟩
    simp only [show ((204 : Int) = 200) = False from by simp, false_and, or_false, true_and]
    cases c with
    | none => simp [show Issues.hasIssues {} = false from rfl]
    | some c =>
      cases hr : c.reps with
      | nil => simp [hr, show Issues.hasIssues {} = false from rfl]
      | cons x xs => simp [hr, hasIssues_add]
  · rw [if_neg hs]
    refine ⟨resp, is, h, ?_⟩
    rw [hi]
    simp [hs]

/-- **C113** the response to a request that creates a resource: without a body it is accepted; with one, exactly when the status
is 201, the header `Location` is there, and the body may be sent and has that location. -/
theorem C113_create {s : Schema} (hp : Proper s) (hres : s.isResource = true)
    (hmeta : ∀ a ∈ bindWithSubs s.urn false metaAttr, a ∈ s.attrs.all) {status : Int}
    {body headers : Val} {c : Option Checker} (hb : JsonBody s body) (hh : HeadersOk headers) :
    ∃ resp is, dumpPost s status body headers c = .ok (resp, is) ∧
      (is.hasIssues = false ↔ body.truthy = false ∨ (status = 201 ∧ HasLocation headers ∧
        ∃ D, body = .dict D ∧ Sendable s (c.getD {}) D ∧ LocationAgrees s headers D)) := by
  unfold dumpPost
  by_cases ht : body.truthy = true
  · obtain ⟨resp, is, h, hi⟩ := C113_resource hp hres hmeta (required := true) (expected := 201) (status := status) (c := c) hb hh
    refine ⟨resp, is, by rw [if_pos ht]; exact h, ?_⟩
    rw [hi]
    simp [ht]
  · refine ⟨_, _, by rw [if_neg ht], ?_⟩
    simp [ht, show Issues.hasIssues {} = false from rfl]

theorem user_isResource : userSchema.isResource = true := by
  unfold userSchema UserA.core
  rfl

/-- **C113** users and groups are resources the above speaks about. -/
theorem C113_assets :
    (Proper userSchema ∧ userSchema.isResource = true ∧ ∀ a ∈ bindWithSubs userSchema.urn false metaAttr, a ∈ userSchema.attrs.all) ∧
    (Proper GroupA.schema ∧ GroupA.schema.isResource = true ∧
      ∀ a ∈ bindWithSubs GroupA.schema.urn false metaAttr, a ∈ GroupA.schema.attrs.all) :=
  ⟨⟨user_proper, user_isResource, user_meta_mem⟩, ⟨group_proper, rfl, group_meta_mem⟩⟩

end Scim

namespace Scim.Examples.Sendable
open Scim.Examples Scim.Valid Scim.Declared Scim.Examples.Valid

local instance sendableEnv : PyEnv := asciiEnv

/-- A user as the application gives it, dates included. -/
def sentUser : List (Str × Val) :=
  [("schemas".toList, .list [.str UserA.urn]), ("id".toList, .str "1".toList), ("userName".toList, .str "bjensen".toList),
   ("META".toList, .dict [("resourcetype".toList, .str "User".toList), ("location".toList, .str "https://x/Users/1".toList),
      ("created".toList, .dt { wall := 5, off := none })])]

/-- The same with the password. -/
def leakyUser : List (Str × Val) := ("password".toList, .str "secret".toList) :: sentUser

/-- The headers with the location of the user. -/
def sentHeaders : Val := .dict [("Location".toList, .str "https://x/Users/1".toList)]

/-- The headers with another location. -/
def otherHeaders : Val := .dict [("Location".toList, .str "https://x/Users/2".toList)]

theorem sent_json : JsonBody userSchema (.dict sentUser) := by
  refine json_body (strs := [UserA.urn]) ?_ (by decide +kernel) (by decide +kernel)
  simp only [sentUser, Val.Tame, TamePairs, TameList, Val.str]
  decide +kernel

theorem leaky_json : JsonBody userSchema (.dict leakyUser) := by
  refine json_body (strs := [UserA.urn]) ?_ (by decide +kernel) (by decide +kernel)
  simp only [leakyUser, sentUser, Val.Tame, TamePairs, TameList, Val.str]
  decide +kernel

theorem sentHeaders_ok : HeadersOk sentHeaders := by
  intro _
  refine ⟨_, rfl, fun v hv => ?_⟩
  cases hv
  exact ⟨_, rfl⟩

theorem otherHeaders_ok : HeadersOk otherHeaders := by
  intro _
  refine ⟨_, rfl, fun v hv => ?_⟩
  cases hv
  exact ⟨_, rfl⟩

/-- Whether the response was answered without issues. -/
def sent (r : PyM (Response × Issues)) : Bool :=
  match r with
  | .ok (_, is) => !is.hasIssues
  | .error _ => false

theorem sent_post : sent (V.dumpPost userSchema 201 (.dict sentUser) sentHeaders none) = true := by decide +kernel
theorem other_post : sent (V.dumpPost userSchema 201 (.dict sentUser) otherHeaders none) = false := by decide +kernel
theorem leaky_post : sent (V.dumpPost userSchema 201 (.dict leakyUser) sentHeaders none) = false := by decide +kernel

/-- So the words hold of the first response. -/
theorem sent_sendable : Sendable userSchema {} sentUser ∧ LocationAgrees userSchema sentHeaders sentUser := by
  obtain ⟨resp, is, h, hi⟩ := C113_create user_proper user_isResource user_meta_mem (status := 201) (c := none) sent_json sentHeaders_ok
  have := sent_post
  rw [h] at this
  rcases hi.mp (by simpa [sent] using this) with hf | ⟨-, -, D, e, h1, h2⟩
  · cases hf
  · cases e
    exact ⟨h1, h2⟩

/-- The location of the second one is not that of the header. -/
theorem other_disagrees : ¬ LocationAgrees userSchema otherHeaders sentUser := by
  intro hag
  obtain ⟨resp, is, h, hi⟩ := C113_create user_proper user_isResource user_meta_mem (status := 201) (c := none) sent_json otherHeaders_ok
  have := other_post
  rw [h] at this
  have hn := hi.mpr (.inr ⟨rfl, ⟨_, _, rfl, rfl⟩, _, rfl, sent_sendable.1, hag⟩)
  simp [sent, hn] at this

/-- A password is not to be sent. -/
theorem leaky_unsendable : ¬ (Sendable userSchema {} leakyUser ∧ LocationAgrees userSchema sentHeaders leakyUser) := by
  rintro ⟨h1, h2⟩
  obtain ⟨resp, is, h, hi⟩ := C113_create user_proper user_isResource user_meta_mem (status := 201) (c := none) leaky_json sentHeaders_ok
  have := leaky_post
  rw [h] at this
  have hn := hi.mpr (.inr ⟨rfl, ⟨_, _, rfl, rfl⟩, _, rfl, h1, h2⟩)
  simp [sent, hn] at this

end Scim.Examples.Sendable
