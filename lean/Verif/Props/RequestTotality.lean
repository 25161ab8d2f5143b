import Verif.Lemmas.SearchTotality
import Verif.Props.Filter

/-! # C96: requests with ordinary JSON are answered, never with an exception -/

namespace Scim
open Issues V
variable [PyEnv]

/-- A body that is no object is rejected. -/
theorem rejects_noObject {s : Schema} {body : Val} (ht : body.Tame) (hd : body.isDict = false) :
    ∃ c, s.parse body = .ok (.invalid, blocking c) := by
  unfold Schema.parse Schema.process
  split
  · exact ⟨_, rfl⟩
  · split
    · exact ⟨_, rfl⟩
    · cases body <;> simp_all [Val.isCont, Val.isDict, Val.Tame]

theorem parseBody_total {s : Schema} (hs : s.WF) (hns : s.NoShadow) (ho : s.Owned) (hstd : StandardAll .parse s.attrs.top)
    (body : Val) (hb : JsonBody s body) (ig : List AttrRep) :
    ∃ b is, parseBody s.parse s.attrs body ig = .ok (b, is) ∧ (body.isDict = true → IsFine s b) ∧
      (body.isDict = false → is.hasIssues = true) := by
  by_cases hd : body.isDict = true
  · obtain ⟨kvs, rfl⟩ : ∃ kvs, body = .dict kvs := by cases body <;> simp [Val.isDict] at hd; exact ⟨_, rfl⟩
    obtain ⟨r, is, hp⟩ := C34_total s hs hstd kvs (hb.2 kvs rfl)
    have hf := process_fine hs hns (fun a ha _ => standardAll_iff.mp hstd a ha) (by rfl) hp
    obtain ⟨o, hc⟩ := checker_total hs ho hf { ignore := ig } .request
    unfold parseBody checkBody
    rw [hp]
    dsimp only
    split
    · rename_i h
      split at h
      · rw [hc] at h; cases h
      · cases h
    · exact ⟨_, _, rfl, fun _ => hf, fun h => by rw [hd] at h; cases h⟩
  · obtain ⟨c, hp⟩ := rejects_noObject hb.1 (by simpa using hd) (s := s)
    have hblock : (Issues.empty.merge (blocking c) bodyLoc).canProceed [bodyLoc] = false := by
      cases hc : (Issues.empty.merge (blocking c) bodyLoc).canProceed [bodyLoc] with
      | false => rfl
      | true =>
        simp only [Issues.canProceed, List.all_cons, List.all_nil, Bool.and_true] at hc
        have := (Issues.canProceedAt_iff _ _).1 hc bodyLoc (List.prefix_refl _)
        rw [← Option.not_isSome_iff_eq_none, Issues.stop_merge_isSome] at this
        exact absurd (.inr ⟨[], by simp [blocking, Issues.add, extendAt, aset], by simp⟩) this
    unfold parseBody checkBody
    rw [hp]
    simp only [hblock, Bool.false_eq_true, if_false]
    refine ⟨_, _, rfl, fun h => absurd h hd, fun _ => ?_⟩
    rw [hasIssues_merge]
    right
    rfl

/-- **C96** replacing a resource. -/
theorem C96_put (s : Schema) (hs : s.WF) (hns : s.NoShadow) (ho : s.Owned) (hstd : StandardAll .parse s.attrs.top)
    (body headers query : Val) (hb : JsonBody s body) (hq : QueryOk query) :
    ∃ req is, parsePut s body headers query = .ok (req, is) := by
  obtain ⟨⟨q, iq⟩, h1⟩ := parseQuery_total hq
  obtain ⟨b, is, h2, h3, h4⟩ := parseBody_total hs hns ho hstd body hb []
  unfold parsePut
  rw [h1]
  simp only [h2]
  split
  · exact ⟨_, _, rfl⟩
  · rename_i hi
    have hd : body.isDict = true := by
      cases hd : body.isDict with
      | true => rfl
      | false => exact absurd ((hasIssues_merge _ _ _).2 (.inr (h4 hd))) hi
    obtain ⟨r, hr⟩ := dropReadOnly_total hs ho s.attrs.all (fun _ h => h) (h3 hd)
    rw [hr]
    exact ⟨_, _, rfl⟩

/-- **C96** creating a resource. -/
theorem C96_post (s : Schema) (hs : s.WF) (hns : s.NoShadow) (ho : s.Owned) (hstd : StandardAll .parse s.attrs.top)
    (body headers query : Val) (hb : JsonBody s body) (hq : QueryOk query) :
    ∃ req is, parsePost s body headers query = .ok (req, is) := by
  obtain ⟨⟨q, iq⟩, h1⟩ := parseQuery_total hq
  obtain ⟨b, is, h2, _⟩ := parseBody_total hs hns ho hstd body hb (serverRequired s.attrs.all)
  unfold parsePost
  rw [h1]
  simp only [h2]
  exact ⟨_, _, rfl⟩

theorem user_standard {m : Mode} : StandardAll m userSchema.attrs.top := standardAll_iff.mpr (fun a ha => (user_top_good a ha).1 m)
theorem group_standard {m : Mode} : StandardAll m GroupA.schema.attrs.top := standardAll_iff.mpr (fun a ha => (group_top_good a ha).1 m)
theorem group_noShadow : GroupA.schema.NoShadow := noShadow_of_noExt group_wf rfl

/-- **C96** users. -/
theorem C96_user (body headers query : Val) (hb : JsonBody userSchema body) (hq : QueryOk query) :
    (∃ req is, parsePut userSchema body headers query = .ok (req, is)) ∧
      ∃ req is, parsePost userSchema body headers query = .ok (req, is) :=
  ⟨C96_put _ user_wf user_noShadow user_owned user_standard body headers query hb hq,
    C96_post _ user_wf user_noShadow user_owned user_standard body headers query hb hq⟩

attribute [local irreducible] GroupA.schema in
/-- **C96** groups. -/
theorem C96_group (body headers query : Val) (hb : JsonBody GroupA.schema body) (hq : QueryOk query) :
    (∃ req is, parsePut GroupA.schema body headers query = .ok (req, is)) ∧
      ∃ req is, parsePost GroupA.schema body headers query = .ok (req, is) :=
  ⟨C96_put _ group_wf group_noShadow group_owned group_standard body headers query hb hq,
    C96_post _ group_wf group_noShadow group_owned group_standard body headers query hb hq⟩

/-- **C96** reading a resource. -/
theorem C96_get (body headers query : Val) (hq : QueryOk query) : ∃ req is, parseGet body headers query = .ok (req, is) := by
  obtain ⟨⟨q, is⟩, h⟩ := parseQuery_total hq
  exact ⟨_, _, by unfold parseGet; rw [h]⟩

/-- **C96** reading many resources: with a query string of texts (the filter may be anything), the only exception is
the one of the filter, for a number too large to be finite. -/
theorem C96_list (body headers query : Val)
    (hq : ∀ q, query = .dict q → ∀ k v, k ≠ filterWord → aget k q = some v → ∃ t, v = .str t) :
    (∃ req is, parseListRequest body headers query = .ok (req, is)) ∨
      ∃ q text, query = .dict q ∧ aget filterWord q = some (.str text) ∧ Filter.parse text = .error .overflowError := by
  unfold parseListRequest
  split
  · rename_i q
    by_cases hf : ∀ t, aget filterWord q = some (.str t) → ∃ o, Filter.parse t = .ok o
    · obtain ⟨⟨q', is⟩, h⟩ := parseListQuery_total (hq q rfl) hf
      rw [h]
      exact .inl ⟨_, _, rfl⟩
    · right
      obtain ⟨s, hs⟩ := Classical.not_forall.mp hf
      obtain ⟨h1, h2⟩ := Classical.not_imp.mp hs
      refine ⟨q, s, rfl, h1, ?_⟩
      cases h : Filter.parse s with
      | ok o => exact absurd ⟨o, h⟩ h2
      | error e => rw [(C53_only_overflow s e h).1]
  · exact .inl ⟨_, _, rfl⟩
  · exact .inl ⟨_, _, rfl⟩

/-- **C96** searching: the only exception is the one of the filter, for a number too large to be finite. -/
theorem C96_search (body headers query : Val) (hb : JsonBody SearchA.schema body) :
    (∃ req is, parseSearch body headers query = .ok (req, is)) ∨
      ∃ text, body.toCont.getItem (SearchA.rep "filter".toList) = .ok (.str text) ∧
        Filter.parse text = .error .overflowError := by
  have hsearch : (∃ r is, SearchA.parse body = .ok (r, is)) → ∃ req is, parseSearch body headers query = .ok (req, is) := by
    rintro ⟨r, is, h⟩
    exact ⟨_, _, by unfold parseSearch; rw [h]⟩
  cases hd : body.isDict with
  | false =>
    obtain ⟨c, hp⟩ := rejects_noObject hb.1 hd (s := SearchA.schema)
    refine .inl (hsearch ⟨_, _, by unfold SearchA.parse; rw [hp]; rfl⟩)
  | true =>
    obtain ⟨kvs, rfl⟩ : ∃ kvs, body = .dict kvs := by cases body <;> simp [Val.isDict] at hd; exact ⟨_, rfl⟩
    by_cases hf : ∀ s, (Val.dict kvs).toCont.getItem (SearchA.rep "filter".toList) = .ok (.str s) →
        ∃ o, Filter.parse s = .ok o
    · exact .inl (hsearch (SearchA.parse_total (hb.2 kvs rfl) hf))
    · right
      obtain ⟨s, hs⟩ := Classical.not_forall.mp hf
      obtain ⟨h1, h2⟩ := Classical.not_imp.mp hs
      refine ⟨s, h1, ?_⟩
      cases h : Filter.parse s with
      | ok o => exact absurd ⟨o, h⟩ h2
      | error e => rw [(C53_only_overflow s e h).1]

end Scim

namespace Scim.Examples.RequestTotality
open Scim.Examples

local instance requestTotalityEnv : PyEnv := asciiEnv

/-- The hypotheses of C96 are met: a user. -/
theorem exUser_json : JsonBody userSchema (.dict exUser) :=
  ⟨exUser_ordinary.tame, fun _ e => by cases e; exact exUser_ordinary⟩

/-- The hypotheses of C96 are met: a query. -/
theorem exQuery_ok : QueryOk (.dict [("attributes".toList, .list [.str "userName".toList]), ("excludeAttributes".toList, .int 1)]) := by
  intro q e incl xs hx
  cases e
  cases incl
  · have : (some (Val.int 1)) = some (.list xs) := hx
    cases this
  · have : (some (Val.list [.str "userName".toList])) = some (.list xs) := hx
    cases this
    intro x hx
    exact ⟨_, List.mem_singleton.mp hx⟩

/-- Both requests are answered with issues: `userName` is accepted, `active` is not a boolean, two primary items. -/
example : (match V.parsePost userSchema (.dict exUser) .null .null with
    | .ok (_, is) => is.hasIssues
    | .error _ => false) = true := by decide +kernel

/-- Bodies that are no objects. -/
theorem exNoObject_json (body : Val) (h : body ∈ [.null, .int 1, .list [], .str "x".toList, .list [.dict []]]) :
    JsonBody userSchema body := by
  simp only [List.mem_cons, List.not_mem_nil, or_false] at h
  rcases h with rfl | rfl | rfl | rfl | rfl <;> refine ⟨?_, fun _ e => by cases e⟩ <;>
    simp [Val.Tame, TameList, TamePairs]

example : (match V.parsePut userSchema (.list [.dict []]) .null .null with
    | .ok (_, is) => is.hasIssues
    | .error _ => false) = true := by decide +kernel

/-- A search request. -/
def exSearch : List (Str × Val) :=
  [("schemas".toList, .list [.str SearchA.urn]), ("attributes".toList, .list [.str "userName".toList, .str "?".toList]),
   ("sortBy".toList, .int 1), ("filter".toList, .str "userName eq 1 and".toList), ("count".toList, .str "x".toList)]

theorem exSearch_json : JsonBody SearchA.schema (.dict exSearch) := by
  have ht : (Val.dict exSearch).Tame := by
    simp only [exSearch, Val.Tame, TamePairs, TameList, Val.str, Val.int]
    refine ⟨by decide +kernel, by decide +kernel, ?_⟩
    decide +kernel
  refine ⟨ht, ?_⟩
  intro kvs e
  cases e
  refine ⟨ht, ?_, ?_, handlesAll_of_test _ _ (by decide +kernel)⟩
  · have h : exSearch.all (fun p => SearchA.schema.schemas.all (fun u => !(lower p.1 == lower u) || p.2.isDict)) = true := by
      decide +kernel
    intro k v hm u hu e
    have := List.all_eq_true.mp (List.all_eq_true.mp h (k, v) hm) u hu
    simpa [e] using this
  · intro x hx
    have h : (Val.dict exSearch).toCont.getItem { schema := SearchA.schema.urn, attr := "schemas".toList } =
        .ok (.list [.str SearchA.urn]) := by decide +kernel
    rw [h] at hx
    cases hx
    intro xs e
    cases e
    exact ⟨[SearchA.urn], rfl⟩

example : (match V.parseSearch (.dict exSearch) .null .null with
    | .ok (_, is) => is.hasIssues
    | .error _ => false) = true := by decide +kernel

/-! ### What the hypotheses exclude -/

/-- **C96** a filter with an infinite number raises: searching, and reading many resources. -/
theorem C96_filter_raises :
    V.parseSearch (.dict [("filter".toList, .str "a gt inf".toList)]) .null .null = .error .overflowError ∧
      V.parseListRequest .null .null (.dict [("filter".toList, .str "a gt inf".toList)]) = .error .overflowError := by
  constructor
  · have h : (match V.parseSearch (.dict [("filter".toList, .str "a gt inf".toList)]) .null .null with
      | .ok _ => false
      | .error e => decide (e = .overflowError)) = true := by decide +kernel
    split at h
    · cases h
    · rename_i e he; rw [he, of_decide_eq_true h]
  · have h : (match V.parseListRequest .null .null (.dict [("filter".toList, .str "a gt inf".toList)]) with
      | .ok _ => false
      | .error e => decide (e = .overflowError)) = true := by decide +kernel
    split at h
    · cases h
    · rename_i e he; rw [he, of_decide_eq_true h]

/-- **C96** names that are no texts raise. -/
theorem C96_names_raise :
    V.parseGet .null .null (.dict [("attributes".toList, .list [.int 1])]) = .error .typeError := rfl

/-- **C96** a list for a number raises. -/
theorem C96_number_raises :
    V.parseListRequest .null .null (.dict [("count".toList, .list [])]) = .error .typeError := rfl

/-- **C96** a number among the schemas raises, as does a text under the URN of an extension. -/
theorem C96_schemas_raise :
    (V.parsePost userSchema (.dict [("schemas".toList, .list [.int 1])]) .null .null).toOption.isNone = true ∧
      (V.parsePost userSchema (.dict [(UserA.enterpriseUrn, .str "x".toList)]) .null .null).toOption.isNone = true := by
  constructor <;> decide +kernel

end Scim.Examples.RequestTotality
