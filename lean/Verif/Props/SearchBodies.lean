import Verif.Lemmas.ListQuery
import Verif.Props.RequestTotality

/-! # C116: which searches and which requests for lists are accepted, said about the request itself -/

namespace Scim
open Issues V Valid
variable [PyEnv]

/-- **C116** a search: answered without issues exactly when the body is an object that is a search. -/
theorem C116_search {body : Val} (hb : JsonBody SearchA.schema body) (headers query : Val) :
    (∃ req is, parseSearch body headers query = .ok (req, is) ∧ is.hasIssues = false) ↔
      ∃ D, body = .dict D ∧ SearchDoc D := by
  have hs : (∃ req is, parseSearch body headers query = .ok (req, is) ∧ is.hasIssues = false) ↔
      ∃ v is, SearchA.parse body = .ok (v, is) ∧ is.hasIssues = false := by
    unfold parseSearch
    cases SearchA.parse body with
    | error e => exact ⟨fun ⟨_, _, h, _⟩ => (by cases h), fun ⟨_, _, h, _⟩ => (by cases h)⟩
    | ok p =>
      obtain ⟨v, is⟩ := p
      dsimp only
      constructor
      · rintro ⟨_, _, h, hn⟩
        cases h
        exact ⟨_, _, rfl, ((hasIssues_merge_false _ _ _).mp hn).2⟩
      · rintro ⟨_, _, h, hn⟩
        cases h
        exact ⟨_, _, rfl, (hasIssues_merge_false _ _ _).mpr ⟨rfl, hn⟩⟩
  rw [hs]
  cases hd : body.isDict with
  | false =>
    obtain ⟨c, hp⟩ := rejects_noObject hb.1 hd (s := SearchA.schema)
    constructor
    · rintro ⟨v, is, h, hn⟩
      unfold SearchA.parse at h
      rw [hp] at h
      cases h
      cases hn
    · rintro ⟨D, rfl, -⟩
      cases hd
  | true =>
    obtain ⟨D, rfl⟩ : ∃ D, body = .dict D := by cases body <;> first | exact ⟨_, rfl⟩ | cases hd
    have hD := hb.2 D rfl
    constructor
    · rintro ⟨v, is, h, hn⟩
      exact ⟨D, rfl, (SearchA.parse_iff hD h).mp hn⟩
    · rintro ⟨D', e, hdoc⟩
      cases e
      obtain ⟨v, is, h⟩ := SearchA.parse_total hD (by
        intro s hg
        replace hg := (SearchA.said_look hD "filter").symm.trans hg
        cases hl : searchHolds D "filter" with
        | none =>
          rw [hl] at hg
          cases hg
        | some x =>
          rw [hl] at hg
          injection hg with hg
          rcases hdoc.filter _ hl with h | ⟨t, h, o, ho⟩
          · subst h; cases hg
          · subst h; cases hg
            exact ⟨_, ho⟩)
      exact ⟨v, is, h, (SearchA.parse_iff hD h).mpr hdoc⟩

/-- **C116** a list of resources: answered without issues exactly when the query string is an object that asks for a list. -/
theorem C116_list {query : Val} (hq : QueryShape query) (body headers : Val) :
    (∃ req is, parseListRequest body headers query = .ok (req, is) ∧ is.hasIssues = false) ↔
      ∃ q, query = .dict q ∧ ListQuery q := by
  by_cases hd : ∃ q, query = .dict q
  · obtain ⟨q, rfl⟩ := hd
    rw [C110_in_place]
    have hc := touchList_clean hq
    have : (∃ q', Val.dict q = .dict q' ∧ ListQuery q') ↔ ListQuery q := ⟨fun ⟨_, e, h⟩ => (by cases e; exact h), fun h => ⟨q, rfl, h⟩⟩
    rw [this, ← hc]
    generalize touchList q = p
    obtain ⟨q', r⟩ := p
    cases r with
    | error e => exact ⟨fun ⟨_, _, h, _⟩ => (by cases h), fun ⟨_, h, _⟩ => (by cases h)⟩
    | ok is =>
      exact ⟨fun ⟨_, _, h, hn⟩ => (by cases h; exact ⟨_, rfl, hn⟩), fun ⟨_, h, hn⟩ => (by cases h; exact ⟨_, _, rfl, hn⟩)⟩
  · refine ⟨?_, fun ⟨q, e, _⟩ => absurd ⟨q, e⟩ hd⟩
    rintro ⟨req, is, h, hn⟩
    unfold parseListRequest at h
    split at h
    · exact absurd ⟨_, rfl⟩ hd
    · cases h; rw [hasIssues_add] at hn; cases hn
    · cases h; rw [hasIssues_add] at hn; cases hn

end Scim

namespace Scim.Examples.SearchBodies
open Scim V Valid Scim.Examples.Valid

local instance searchBodiesEnv : PyEnv := asciiEnv

/-- A search; the number of resources is negative, and the order is no order. -/
def search (extra : List (Str × Val)) : List (Str × Val) :=
  [("schemas".toList, .list [.str SearchA.urn]), ("attributes".toList, .list [.str "userName".toList, .str "name.familyName".toList]),
   ("filter".toList, .str "userName eq \"bjensen\" and active pr".toList), ("sortBy".toList, .str "userName".toList),
   ("sortOrder".toList, .str "up".toList), ("count".toList, .int (-3))] ++ extra

theorem search_json (extra : List (Str × Val)) (h0 : (Val.dict (search extra)).Tame)
    (h1 : (search extra).all (fun p => SearchA.schema.schemas.all (fun u => !(lower p.1 == lower u) || p.2.isDict)) = true)
    (h2 : (Val.dict (search extra)).toCont.getItem { schema := SearchA.schema.urn, attr := "schemas".toList } =
        .ok (.list [.str SearchA.urn]))
    (h3 : HandlesAll SearchA.schema.attrs.top (Val.dict (search extra)).toCont) : JsonBody SearchA.schema (.dict (search extra)) := by
  refine ⟨h0, ?_⟩
  intro kvs e
  cases e
  refine ⟨h0, ?_, ?_, h3⟩
  · intro k v hm u hu e
    have := List.all_eq_true.mp (List.all_eq_true.mp h1 (k, v) hm) u hu
    simpa [e] using this
  · intro x hx
    rw [h2] at hx
    cases hx
    intro xs e
    cases e
    exact ⟨[SearchA.urn], rfl⟩

/-- The hypotheses of C116 are met. -/
theorem json_good : JsonBody SearchA.schema (.dict (search [])) := by
  refine search_json [] ?_ (by decide +kernel) (by decide +kernel) (handlesAll_of_test _ _ (by decide +kernel))
  simp only [search, List.append_nil, Val.Tame, TamePairs, TameList, Val.str, Val.int]
  decide +kernel

/-- With attributes to be left out as well. -/
def both : List (Str × Val) := [("excludeAttributes".toList, .list [.str "title".toList])]

theorem json_both : JsonBody SearchA.schema (.dict (search both)) := by
  refine search_json both ?_ (by decide +kernel) (by decide +kernel) (handlesAll_of_test _ _ (by decide +kernel))
  simp only [search, both, List.cons_append, List.nil_append, Val.Tame, TamePairs, TameList, Val.str, Val.int]
  decide +kernel

theorem good_accepted : accepted (parseSearch (.dict (search [])) .null .null) = true := by decide +kernel
theorem both_rejected : accepted (parseSearch (.dict (search both)) .null .null) = false := by decide +kernel

theorem accepted_iff {r : PyM (Request × Issues)} : accepted r = true ↔ ∃ req is, r = .ok (req, is) ∧ is.hasIssues = false := by
  unfold accepted
  cases r with
  | error e => exact ⟨fun h => (by cases h), fun ⟨_, _, h, _⟩ => (by cases h)⟩
  | ok p =>
    constructor
    · intro h; exact ⟨p.1, p.2, rfl, by simpa using h⟩
    · rintro ⟨req, is, h, hn⟩; cases h; simp [hn]

/-- So the words hold of the first body and not of the second. -/
theorem good_doc : SearchDoc (search []) := by
  obtain ⟨D, e, h⟩ := (C116_search json_good .null .null).mp (accepted_iff.mp good_accepted)
  cases e; exact h

theorem both_not : ¬ SearchDoc (search both) := fun h =>
  nomatch both_rejected.symm.trans (accepted_iff.mpr ((C116_search json_both .null .null).mpr ⟨_, rfl, h⟩))

/-- Query strings for lists. -/
def query (count : Str) : List (Str × Val) :=
  [("filter".toList, .str "userName sw \"b\"".toList), ("sortBy".toList, .str "name.familyName".toList),
   ("attributes".toList, .str "userName,name.familyName".toList), ("count".toList, .str count)]

theorem query_shape (count : Str) : QueryShape (.dict (query count)) := by
  intro q e incl
  cases e
  cases incl
  · exact ⟨[], .absent⟩
  · exact ⟨["userName".toList, "name.familyName".toList],
      NamesIn.text (parts := ["userName".toList, "name.familyName".toList]) (by decide) (by decide) (by decide)⟩

theorem list_accepted : accepted (parseListRequest .null .null (.dict (query "10".toList))) = true := by decide +kernel
theorem list_rejected : accepted (parseListRequest .null .null (.dict (query "ten".toList))) = false := by decide +kernel

theorem list_query : ListQuery (query "10".toList) := by
  obtain ⟨D, e, h⟩ := (C116_list (query_shape _) .null .null).mp (accepted_iff.mp list_accepted)
  cases e; exact h

theorem list_query_not : ¬ ListQuery (query "ten".toList) := fun h =>
  nomatch list_rejected.symm.trans (accepted_iff.mpr ((C116_list (query_shape _) .null .null).mpr ⟨_, rfl, h⟩))

/-- Without a query string a list is not given, but with an empty one it is. -/
example : accepted (parseListRequest .null .null .null) = false ∧ accepted (parseListRequest .null .null (.dict [])) = true := by
  decide +kernel

end Scim.Examples.SearchBodies
