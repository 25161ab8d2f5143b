import Verif.Lemmas.ValidAssets
import Verif.Props.Requests

/-! # C112: which requests are accepted, said about the request itself -/

namespace Scim
open Issues V Valid Declared
variable [PyEnv]

omit [PyEnv] in
theorem queryOk_of {query : Val} (h : QueryShape query) : QueryOk query := by
  intro q hq incl xs hx x hxm
  obtain ⟨names, hn⟩ := h q hq incl
  rw [hx] at hn
  cases hn with
  | list _ => exact (List.mem_map.mp hxm).imp fun _ h => h.2.symm

omit [PyEnv] in
theorem errorsAt_noIssues {is : Issues} (h : is.hasIssues = false) (l : Loc) : is.errorsAt l = [] := by
  rw [hasIssues_false_iff] at h
  unfold Issues.errorsAt
  rw [h]
  rfl

/-- The names given by a parameter are determined by it. -/
theorem namesIn_unique {v : Option Val} {a b : List Str} (ha : NamesIn v a) (hb : NamesIn v b) : a = b := by
  have h := (splitNames_of ha).symm.trans (splitNames_of hb)
  simp only [Val.list.injEq] at h
  refine List.map_inj_right (fun x y e => ?_) |>.mp h
  simpa [Val.str] using e

/-- **C112** the query string: no issue exactly when the names of attributes are fine. -/
theorem C112_query {query : Val} (hq : QueryShape query) {r : Val} {is : Issues} (h : parseQuery query = .ok (r, is)) :
    is.hasIssues = false ↔ QueryFine query := by
  by_cases hd : ∃ q, query = .dict q
  · obtain ⟨q, rfl⟩ := hd
    obtain ⟨a, ha⟩ := hq q rfl true
    obtain ⟨b, hb⟩ := hq q rfl false
    have hfine : QueryFine (.dict q) ↔ ((a = [] ∨ b = []) ∧ ∀ n ∈ a ++ b, ∃ r, AttrRep.parse n = some r) := by
      simp only [parse_eq_some_iff]
      constructor
      · intro hf
        exact hf q rfl a b ha hb
      · intro hf q' e a' b' ha' hb'
        cases e
        rw [namesIn_unique ha' ha, namesIn_unique hb' hb]
        exact hf
    rw [hfine]
    unfold parseQuery at h
    simp only at h
    split at h
    · cases h
    rename_i c i hc
    have h2 : is = Issues.empty.merge i queryLoc := by cases h; rfl
    have h3 : is.hasIssues = false ↔ i.hasIssues = false := by
      rw [h2, hasIssues_merge_false]
      exact ⟨fun h => h.2, fun h => ⟨rfl, h⟩⟩
    rw [h3]
    by_cases hboth : a = [] ∨ b = []
    · have key : ∀ incl names, NamesIn (aget (namesParam incl) q) names → names ≠ [] →
          NamesIn (aget (namesParam (!incl)) q) [] →
          (i.hasIssues = false ↔ ∀ n ∈ names, ∃ r, AttrRep.parse n = some r) := by
        intro incl names h1 hn h2
        constructor
        · intro hi n hnm
          cases hp : AttrRep.parse n with
          | some r => exact ⟨r, rfl⟩
          | none =>
            obtain ⟨is', he, hl⟩ := C76_bad_names q incl names h1 h2 n hnm hp
            rw [hc] at he
            cases he
            have := ((hl [.name (namesParam incl), .name n]).1.mpr ⟨n, hnm, hp, rfl⟩)
            exact absurd (by unfold Issues.codesAt; rw [errorsAt_noIssues hi]; rfl) this
        · intro hok
          obtain ⟨reps, _, he⟩ := C76_checker q incl names h1 hn h2 hok
          rw [hc] at he
          cases he
          rfl
      by_cases ha0 : a = []
      · subst ha0
        by_cases hb0 : b = []
        · subst hb0
          rw [C76_none q ha hb] at hc
          cases hc
          exact ⟨fun _ => ⟨.inl rfl, fun _ h => by cases h⟩, fun _ => rfl⟩
        · rw [key false b hb hb0 ha]
          exact ⟨fun h => ⟨.inl rfl, h⟩, fun h => h.2⟩
      · have hb0 : b = [] := hboth.resolve_left ha0
        subst hb0
        rw [key true a ha ha0 hb, List.append_nil]
        exact ⟨fun h => ⟨.inr rfl, h⟩, fun h => h.2⟩
    · obtain ⟨is', he, hl⟩ := C76_both q a b ha hb (fun e => hboth (.inl e)) (fun e => hboth (.inr e))
      rw [hc] at he
      cases he
      refine ⟨fun hi => ?_, fun h => absurd h.1 hboth⟩
      have := hl [.name "attributes".toList]
      rw [if_pos (.inl rfl)] at this
      unfold Issues.codesAt at this
      rw [errorsAt_noIssues hi] at this
      cases this
  · have : is = {} := by
      unfold parseQuery at h
      split at h
      · exact absurd ⟨_, rfl⟩ hd
      · cases h; rfl
    subst this
    exact ⟨fun _ q e => absurd ⟨q, e⟩ hd, fun _ => rfl⟩

/-- The body of a request is accepted exactly when it is an object that holds acceptable values only and all that is
required. -/
theorem parseBody_accepts {s : Schema} (hp : Proper s) {body : Val} (hb : JsonBody s body) {ig : List AttrRep} {b : Val} {is : Issues}
    (h : parseBody s.parse s.attrs body ig = .ok (b, is)) :
    is.hasIssues = false ↔ ∃ D, body = .dict D ∧ ValidDoc .parse s D ∧ Complete s (fun a => Listed a.rep ig) D := by
  obtain ⟨is1, is2, h1, he, hw, hcase⟩ := parseBody_split h
  cases hd : body.isDict with
  | false =>
    obtain ⟨c, hc⟩ := rejects_noObject (s := s) hb.1 hd
    rw [hc] at h1
    cases h1
    refine ⟨fun hn => ?_, fun ⟨D, e, _⟩ => by subst e; cases hd⟩
    rw [he, hasIssues_merge_false, hasIssues_merge_false] at hn
    exact nomatch (show (true : Bool) = false from hn.1.2)
  | true =>
    obtain ⟨D, rfl⟩ : ∃ D, body = .dict D := by cases body <;> first | exact ⟨_, rfl⟩ | cases hd
    have hD := hb.2 D rfl
    have hv := process_valid (m := .parse) hp.wf hp.sane (hp.usual _) hD h1
    constructor
    · intro hn
      rw [he, hasIssues_merge_false, hasIssues_merge_false] at hn
      have hv := hv.mp hn.1.2
      rw [merge_empty_clean _ hn.1.2, canProceed_empty] at hcase
      rcases hcase with ⟨_, hc⟩ | ⟨hc, _⟩
      · exact ⟨D, rfl, hv, (presence_ok hp.wf hp.noShadow hp.owned hp.sane (hp.usual _) hp.regular hD hv.1 h1 hc).mp hn.2⟩
      · cases hc
    · rintro ⟨D', e, hd, hcm⟩
      cases e
      have hn1 := hv.mpr hd
      rw [he, hasIssues_merge_false, hasIssues_merge_false]
      rw [merge_empty_clean _ hn1, canProceed_empty] at hcase
      rcases hcase with ⟨_, hc⟩ | ⟨hc, _⟩
      · exact ⟨⟨rfl, hn1⟩, (presence_ok hp.wf hp.noShadow hp.owned hp.sane (hp.usual _) hp.regular hD hd.1 h1 hc).mpr hcm⟩
      · cases hc

/-- **C112** creating a resource: the request is always answered, and accepted exactly when the query string is fine and the
body is a valid resource with all required attributes but those the server issues. -/
theorem C112_post {s : Schema} (hp : Proper s) {body headers query : Val} (hb : JsonBody s body) (hq : QueryShape query) :
    ∃ req is, parsePost s body headers query = .ok (req, is) ∧
      (is.hasIssues = false ↔ QueryFine query ∧
        ∃ D, body = .dict D ∧ ValidDoc .parse s D ∧ Complete s (fun a => a.info.issuer = .server) D) := by
  obtain ⟨req, is, h⟩ := C96_post s hp.wf hp.noShadow hp.owned (hp.standard _) body headers query hb (queryOk_of hq)
  refine ⟨req, is, h, ?_⟩
  obtain ⟨q, iq, b, ib, h1, h2, he, -⟩ := parsePost_split h
  rw [he, hasIssues_merge_false, C112_query hq h1, parseBody_accepts hp hb h2]
  have : ∀ D, Complete s (fun a => Listed a.rep (serverRequired s.attrs.all)) D ↔ Complete s (fun a => a.info.issuer = .server) D := by
    intro D
    unfold Complete
    constructor
    · intro hc a ha hr hi
      exact hc a ha hr (fun hl => hi ((mem_serverRequired hp.wf ha).mp hl).2)
    · intro hc a ha hr hi
      exact hc a ha hr (fun e => hi ((mem_serverRequired hp.wf ha).mpr ⟨hr, e⟩))
  simp only [this]

/-- **C112** replacing a resource: the request is always answered, and accepted exactly when the query string is fine and the
body is a valid resource with all required attributes. -/
theorem C112_put {s : Schema} (hp : Proper s) {body headers query : Val} (hb : JsonBody s body) (hq : QueryShape query) :
    ∃ req is, parsePut s body headers query = .ok (req, is) ∧
      (is.hasIssues = false ↔ QueryFine query ∧
        ∃ D, body = .dict D ∧ ValidDoc .parse s D ∧ Complete s (fun _ => False) D) := by
  obtain ⟨req, is, h⟩ := C96_put s hp.wf hp.noShadow hp.owned (hp.standard _) body headers query hb (queryOk_of hq)
  refine ⟨req, is, h, ?_⟩
  obtain ⟨q, iq, b, ib, h1, h2, he, -⟩ := parsePut_split h
  rw [he, hasIssues_merge_false, C112_query hq h1, parseBody_accepts hp hb h2]
  have : ∀ r : AttrRep, Listed r [] ↔ False := fun r => ⟨fun ⟨_, h, _⟩ => (by cases h), False.elim⟩
  simp only [this]

/-- **C112** the schemas of users and groups are proper. -/
theorem C112_assets : Proper userSchema ∧ Proper GroupA.schema := ⟨user_proper, group_proper⟩

end Scim

namespace Scim.Examples.Valid
open Scim.Examples Scim.Valid Scim.Declared

local instance validEnv : PyEnv := asciiEnv

/-- A user with addresses, one of them primary, and with the enterprise extension; the names are in other letter case. -/
def goodUser : List (Str × Val) :=
  [("schemas".toList, .list [.str UserA.urn, .str UserA.enterpriseUrn]), ("USERNAME".toList, .str "bjensen".toList),
   ("active".toList, .bool true), ("emails".toList, .list [
      .dict [("value".toList, .str "b@x".toList), ("primary".toList, .bool true)],
      .dict [("value".toList, .str "b@y".toList)]]),
   (UserA.enterpriseUrn, .dict [("costCenter".toList, .str "4130".toList)]), ("unknown".toList, .int 1)]

/-- The same with two primary addresses. -/
def twoPrimary : List (Str × Val) :=
  [("schemas".toList, .list [.str UserA.urn]), ("userName".toList, .str "bjensen".toList),
   ("emails".toList, .list [
      .dict [("value".toList, .str "b@x".toList), ("primary".toList, .bool true)],
      .dict [("value".toList, .str "b@y".toList), ("Primary".toList, .bool true)]])]

theorem json_body {D : List (Str × Val)} {strs : List Str} (ht : (Val.dict D).Tame)
    (hk : D.all (fun p => userSchema.schemas.all (fun u => !(lower p.1 == lower u) || p.2.isDict)) = true)
    (h : (Val.dict D).toCont.getItem { schema := userSchema.urn, attr := "schemas".toList } = .ok (.list (strs.map Val.str)))
    (hb : handlesAllB userSchema.attrs.top (Val.dict D).toCont = true := by decide +kernel) :
    JsonBody userSchema (.dict D) := by
  refine ⟨ht, fun kvs e => ?_⟩
  cases e
  refine ⟨ht, ?_, ?_, handlesAll_of_test _ _ hb⟩
  · intro k v hm u hu e
    have := List.all_eq_true.mp (List.all_eq_true.mp hk (k, v) hm) u hu
    simpa [e] using this
  · intro x hx
    rw [h] at hx
    cases hx
    intro xs e
    cases e
    exact ⟨strs, rfl⟩

/-- The hypotheses of C112 are met: an accepted body. -/
theorem good_json : JsonBody userSchema (.dict goodUser) := by
  refine json_body (strs := [UserA.urn, UserA.enterpriseUrn]) ?_ (by decide +kernel) (by decide +kernel)
  simp only [goodUser, Val.Tame, TamePairs, TameList, Val.str, Val.int]
  decide +kernel

/-- The hypotheses of C112 are met: a rejected body. -/
theorem twoPrimary_json : JsonBody userSchema (.dict twoPrimary) := by
  refine json_body (strs := [UserA.urn]) ?_ (by decide +kernel) (by decide +kernel)
  simp only [twoPrimary, Val.Tame, TamePairs, TameList, Val.str]
  decide +kernel

/-- The hypotheses of C112 are met: a query string. -/
def goodQuery : Val := .dict [("attributes".toList, .str "userName,name.familyName".toList)]

theorem goodQuery_shape : QueryShape goodQuery := by
  intro q e incl
  cases e
  cases incl
  · exact ⟨[], .absent⟩
  · exact ⟨["userName".toList, "name.familyName".toList],
      NamesIn.text (parts := ["userName".toList, "name.familyName".toList]) (by decide) (by decide) (by decide)⟩

/-- Whether the request was answered without issues. -/
def accepted (r : PyM (Request × Issues)) : Bool :=
  match r with
  | .ok (_, is) => !is.hasIssues
  | .error _ => false

theorem good_post : accepted (V.parsePost userSchema (.dict goodUser) .null goodQuery) = true := by decide +kernel
theorem twoPrimary_post : accepted (V.parsePost userSchema (.dict twoPrimary) .null goodQuery) = false := by decide +kernel

/-- For a new user the identifier is not required; to replace one it is. -/
theorem good_put : accepted (V.parsePut userSchema (.dict goodUser) .null goodQuery) = false := by decide +kernel

/-- So the words hold of the first body. -/
theorem good_valid : QueryFine goodQuery ∧ ValidDoc .parse userSchema goodUser ∧
    Complete userSchema (fun a => a.info.issuer = .server) goodUser ∧ ¬ Complete userSchema (fun _ => False) goodUser := by
  obtain ⟨req, is, h, hiff⟩ := C112_post user_proper (headers := .null) good_json goodQuery_shape
  have := good_post
  rw [h] at this
  obtain ⟨h1, D, e, h2, h3⟩ := hiff.mp (by simpa [accepted] using this)
  cases e
  refine ⟨h1, h2, h3, fun hc => ?_⟩
  obtain ⟨req, is, h, hiff⟩ := C112_put user_proper (headers := .null) good_json goodQuery_shape
  have := good_put
  rw [h] at this
  have hi := hiff.mpr ⟨h1, _, rfl, h2, hc⟩
  rw [accepted, hi] at this
  cases this

/-- And the words do not hold of the second, though it is complete. -/
theorem twoPrimary_invalid : ¬ (ValidDoc .parse userSchema twoPrimary ∧
    Complete userSchema (fun a => a.info.issuer = .server) twoPrimary) := by
  rintro ⟨h2, h3⟩
  obtain ⟨req, is, h, hiff⟩ := C112_post user_proper (headers := .null) twoPrimary_json goodQuery_shape
  have := twoPrimary_post
  rw [h] at this
  rw [accepted, hiff.mpr ⟨good_valid.1, _, rfl, h2, h3⟩] at this
  cases this

/-- The words by themselves: a user whose name is a number is not valid. -/
example (D : List (Str × Val)) (h : found "userName".toList D = some (.int 1)) (hu : found UserA.urn D = none) :
    ¬ ValidDoc .parse userSchema D := by
  rintro ⟨hv, -⟩
  have hm : (bindAttr UserA.userNameA { schema := UserA.urn, attr := "userName".toList }) ∈ userSchema.attrs.top := by
    rw [user_wf.topAll]
    refine List.mem_filter.mpr ⟨?_, by rw [bindAttr_rep]; rfl⟩
    rw [user_all, user_core_all]
    refine List.mem_append_left _ (List.mem_flatMap.mpr ⟨UserA.userNameA, ?_, mem_bindWithSubs.mpr (.inl rfl)⟩)
    unfold UserA.attrs
    simp only [List.mem_cons, true_or, or_true]
  have := (validIn_iff.mp hv) _ hm (.int 1) (by rw [bindAttr_rep]; unfold look; simp only [hu]; exact h)
  unfold bindAttr UserA.userNameA mkAttr ValidFor OneOk TypeOk at this
  simp [Val.int, Val.str, Val.null] at this

end Scim.Examples.Valid
