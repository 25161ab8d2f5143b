import Verif.Lemmas.BulkBody

/-! Totality of bulk requests: C104. -/

namespace Scim
open Issues
variable [PyEnv]

/-- **C104** A bulk request that is an ordinary object with a list of operations is answered exactly when none of the
operations makes the parser raise: a method that is not one of the five (in capital letters), a path without slash, or
data that makes the parser of single requests raise. -/
theorem C104_request (vs : List (Str × Schema)) (kvs : List (Str × Val)) (hord : Ordinary BulkA.requestSchema kvs) (xs : List Val)
    (hx : (Val.dict kvs).toCont.getItem { schema := BulkA.requestUrn, attr := "Operations".toList } = .ok (.list xs))
    (max : Int) (headers query : Val) :
    (∃ req is, V.parseBulk (some max) vs (.dict kvs) headers query = .ok (req, is)) ↔ ∀ x ∈ xs, ¬ BulkRaises vs xs x := by
  rcases V.parseBulk_exact (vs := vs) hord hx headers query with ⟨⟨x, h1, h2⟩, e, h3⟩ | ⟨h1, -, h2⟩
  · constructor
    · rintro ⟨req, is, h⟩
      rw [h3] at h; cases h
    · intro h
      exact absurd h2 (h x h1)
  · constructor
    · intro _; exact h1
    · intro _
      obtain ⟨r, hr⟩ := h2 max
      exact ⟨r.1, r.2, hr⟩

/-- **C104** Without a limit for the number of operations, the parser raises `TypeError` for the requests that are answered
with one. -/
theorem C104_unlimited (vs : List (Str × Schema)) (kvs : List (Str × Val)) (hord : Ordinary BulkA.requestSchema kvs) (xs : List Val)
    (hx : (Val.dict kvs).toCont.getItem { schema := BulkA.requestUrn, attr := "Operations".toList } = .ok (.list xs))
    (headers query : Val) (h : ∀ x ∈ xs, ¬ BulkRaises vs xs x) :
    V.parseBulk none vs (.dict kvs) headers query = .error .typeError := by
  rcases V.parseBulk_exact (vs := vs) hord hx headers query with ⟨⟨x, h1, h2⟩, e, h3⟩ | ⟨h1, h2, -⟩
  · exact absurd h2 (h x h1)
  · exact h2

/-- Nothing can be read from a body that is no object, so the presence checker raises. -/
theorem checker_invalid {c : Checker} {attrs : Attributes} {d : Direction} {is : Issues} (hne : attrs.all ≠ [])
    (h : c.call .invalid attrs d = .ok is) : False := by
  unfold Checker.call at h
  cases hall : attrs.all with
  | nil => exact hne hall
  | cons a as =>
    rw [hall] at h
    have key : ∀ is, ∃ e, c.checkAttr .invalid attrs d a is = .error e := by
      intro is
      have hr : ∀ r, (Val.invalid).getItem r = .error .typeError := fun r => rfl
      unfold Checker.checkAttr
      simp only [hr]
      repeat' split
      all_goals exact ⟨_, rfl⟩
    obtain ⟨e, he⟩ := key {}
    rw [Checker.checkAll, he] at h
    cases h

/-- **C104** Bodies that are no objects, and objects without a list for `Operations`, always make the parser raise. -/
theorem C104_no_list (maxOps : Option Int) (vs : List (Str × Schema)) (body headers query : Val)
    (h : (body.isCont || body.isDict) = false ∨
      ∀ xs, body.toCont.getItem { schema := BulkA.requestUrn, attr := "Operations".toList } ≠ .ok (.list xs)) :
    ∃ e, V.parseBulk maxOps vs body headers query = .error e := by
  cases hp : V.parseBulk maxOps vs body headers query with
  | error e => exact ⟨e, rfl⟩
  | ok r =>
    exfalso
    obtain ⟨req, is⟩ := r
    cases hc : (body.isCont || body.isDict) with
    | true =>
      obtain ⟨max, xs, -, h2, -⟩ := C80_request maxOps vs body headers query req is (by simpa using hc) hp
      rcases h with h | h
      · rw [hc] at h; cases h
      · exact h xs h2
    | false =>
      have hinv : ∃ c, BulkA.requestSchema.parse body = .ok (.invalid, blocking c) := by
        unfold Schema.parse Schema.process
        simp only [hc]
        cases body.isNone
        · exact ⟨_, rfl⟩
        · exact ⟨_, rfl⟩
      obtain ⟨c, hinv⟩ := hinv
      unfold V.parseBulk at hp
      rw [hinv] at hp
      dsimp only at hp
      split at hp
      · cases hp
      · rename_i is2 hcall
        exact checker_invalid (by rw [BulkA.request_all_eq]; simp [bindWithSubs]) hcall

/-- A schema reads data inside an operation as it reads the same data in a single request. -/
theorem singleRequest_toCont (method : Str) (s : Schema) (kvs : List (Str × Val)) :
    singleRequest method s (Val.dict kvs).toCont = singleRequest method s (.dict kvs) := by
  have h1 : s.parse (Val.dict kvs).toCont = s.parse (.dict kvs) := process_toCont .parse s kvs
  have h2 : PatchA.parse s (Val.dict kvs).toCont = PatchA.parse s (.dict kvs) := by
    unfold PatchA.parse
    rw [show PatchA.schema.parse (Val.dict kvs).toCont = PatchA.schema.parse (.dict kvs) from process_toCont .parse _ kvs]
  unfold singleRequest V.parsePost V.parsePut V.parsePatch V.parsePatchBody V.parseBody
  rw [h1, h2]

/-- **C104** A request whose operations are all written as they should be is answered, whatever the rest of it. -/
theorem C104_sound (vs : List (Str × Schema)) (kvs : List (Str × Val)) (hord : Ordinary BulkA.requestSchema kvs) (xs : List Val)
    (hx : (Val.dict kvs).toCont.getItem { schema := BulkA.requestUrn, attr := "Operations".toList } = .ok (.list xs))
    (hs : ∀ x ∈ xs, SoundOperation vs x) (max : Int) (headers query : Val) :
    ∃ req is, V.parseBulk (some max) vs (.dict kvs) headers query = .ok (req, is) := by
  refine (C104_request vs kvs hord xs hx max headers query).mpr (fun x hxm hb => ?_)
  obtain ⟨m, hm, hmr⟩ := (hs x hxm).method
  obtain ⟨t, ht, htr⟩ := (hs x hxm).path
  cases hb with
  | method h1 h2 h3 =>
    rw [hmr] at h2; cases h2
    exact h3 m hm rfl
  | path h1 h2 h3 h4 h5 =>
    have := h1.reads
    rw [htr] at this
    cases this
    exact h5 ht
  | request h1 h2 h3 h4 h5 h6 h7 =>
    obtain ⟨req, is, h⟩ := (hs x hxm).data _ _ _ _ _ h2 h3 h1.reads h4 h5 h6
    obtain ⟨e, h7⟩ := h7
    rw [h] at h7; cases h7

/-- **C104** The data of an operation that creates or replaces a user: a JSON object that is ordinary for users. -/
theorem C104_user_data (m : Str) (hm : m = "POST".toList ∨ m = "PUT".toList) (kvs : List (Str × Val))
    (hb : JsonBody userSchema (.dict kvs)) : ∃ req is, singleRequest m userSchema (Val.dict kvs).toCont = .ok (req, is) := by
  rw [singleRequest_toCont]
  have hq : QueryOk .null := by intro q h; cases h
  obtain ⟨h1, h2⟩ := C96_user (.dict kvs) .null .null hb hq
  rcases hm with rfl | rfl
  · exact h2
  · exact h1

attribute [local irreducible] GroupA.schema in
/-- **C104** The data of an operation that creates or replaces a group: a JSON object that is ordinary for groups. -/
theorem C104_group_data (m : Str) (hm : m = "POST".toList ∨ m = "PUT".toList) (kvs : List (Str × Val))
    (hb : JsonBody GroupA.schema (.dict kvs)) : ∃ req is, singleRequest m GroupA.schema (Val.dict kvs).toCont = .ok (req, is) := by
  rw [singleRequest_toCont]
  have hq : QueryOk .null := by intro q h; cases h
  obtain ⟨h1, h2⟩ := C96_group (.dict kvs) .null .null hb hq
  rcases hm with rfl | rfl
  · exact h2
  · exact h1

end Scim

/-! ### Concrete requests -/

namespace Scim.Examples.BulkTotality
local instance bulkTotalityEnv : PyEnv := asciiEnv
open Scim.Examples.BulkRequests

/-- operations on groups, one of them on resources that are not known -/
def ops : List Val := [create (.str "a".toList), delete, op "PUT" "/Users/2" [("data".toList, .int 3)], op "GET" "/Groups/1" []]

def doc : List (Str × Val) := [("schemas".toList, .list [.str BulkA.requestUrn]), ("Operations".toList, .list ops)]

theorem doc_ordinary : Ordinary BulkA.requestSchema doc := by
  refine ⟨?_, ?_, ?_, handlesAll_of_test _ _ (by decide +kernel)⟩
  · simp only [doc, ops, create, delete, op, data, List.cons_append, List.nil_append, List.map, Val.Tame, TamePairs, TameList,
      Val.str, Val.int]
    repeat' apply And.intro
    all_goals first | decide +kernel | trivial
  · have h : doc.all (fun p => BulkA.requestSchema.schemas.all (fun u => !(lower p.1 == lower u) || p.2.isDict)) = true := by
      decide +kernel
    intro k v hm u hu e
    have := List.all_eq_true.mp (List.all_eq_true.mp h (k, v) hm) u hu
    simpa [e] using this
  · intro x hx
    have h : (Val.dict doc).toCont.getItem { schema := BulkA.requestSchema.urn, attr := "schemas".toList } =
        .ok (.list [.str BulkA.requestUrn]) := by decide +kernel
    rw [h] at hx
    cases hx
    intro xs e
    cases e
    exact ⟨[BulkA.requestUrn], rfl⟩

theorem doc_ops : (Val.dict doc).toCont.getItem { schema := BulkA.requestUrn, attr := "Operations".toList } =
    .ok (.list (ops.map convVal)) := by decide +kernel

theorem group_json : JsonBody GroupA.schema (data (.str "a".toList)) := by
  have hd : data (.str "a".toList) = .dict [("schemas".toList, .list [.str GroupA.urn]), ("displayName".toList, .str "a".toList)] := rfl
  have ht : (data (.str "a".toList)).Tame := by
    simp only [data, Val.Tame, TamePairs, TameList, Val.str]
    repeat' apply And.intro
    all_goals first | trivial | decide +kernel
  refine ⟨ht, fun kvs e => ⟨by rw [← e]; exact ht, ?_, ?_, handlesAll_of_easy _ (by decide +kernel) _⟩⟩
  · rw [hd] at e
    cases e
    have h : [("schemas".toList, Val.list [.str GroupA.urn]), ("displayName".toList, .str "a".toList)].all
        (fun p => GroupA.schema.schemas.all (fun u => !(lower p.1 == lower u) || p.2.isDict)) = true := by decide +kernel
    intro k v hm u hu e
    have := List.all_eq_true.mp (List.all_eq_true.mp h (k, v) hm) u hu
    simpa [e] using this
  · rw [hd] at e
    cases e
    intro x hx
    have h : (Val.dict [("schemas".toList, .list [.str GroupA.urn]), ("displayName".toList, .str "a".toList)]).toCont.getItem
        { schema := GroupA.schema.urn, attr := "schemas".toList } = .ok (.list [.str GroupA.urn]) := by decide +kernel
    rw [h] at hx
    cases hx
    intro xs e
    cases e
    exact ⟨[GroupA.urn], rfl⟩

/-- An operation on resources that are not known, or without data to check. -/
theorem sound_of {x : Val} {m t : Str} (h1 : x.getItem { attr := "method".toList } = .ok (.str m)) (hm : m ∈ bulkMethods)
    (h2 : x.getItem { attr := "path".toList } = .ok (.str t)) (ht : '/' ∈ t)
    (h3 : m ∉ dataMethods ∨ ∃ name, Addressed m t name ∧ aget name known = none) : SoundOperation known x where
  method := ⟨m, hm, h1⟩
  path := ⟨t, ht, h2⟩
  data := by
    intro m' t' name s d e1 e2 e3 e4 e5 e6
    rw [h1] at e1; cases e1
    rw [h2] at e3; cases e3
    rcases h3 with h3 | ⟨n, h3, h4⟩
    · exact absurd e2 h3
    · have := BulkA.resourceName_iff.mpr h3
      rw [BulkA.resourceName_iff.mpr e4] at this
      cases this
      rw [h4] at e5; cases e5

/-- The hypotheses of `C104_sound` (and so of the others) are met. -/
theorem doc_sound : ∀ x ∈ ops.map convVal, SoundOperation known x := by
  intro x hx
  simp only [ops, List.map, List.mem_cons, List.not_mem_nil, or_false] at hx
  rcases hx with rfl | rfl | rfl | rfl
  · refine ⟨⟨"POST".toList, by decide, by decide +kernel⟩, ⟨"/Groups".toList, by decide, by decide +kernel⟩, ?_⟩
    intro m t name s d e1 e2 e3 e4 e5 e6
    have h1 : (convVal (create (.str "a".toList))).getItem { attr := "method".toList } = .ok (.str "POST".toList) := by decide +kernel
    have h2 : (convVal (create (.str "a".toList))).getItem { attr := "path".toList } = .ok (.str "/Groups".toList) := by decide +kernel
    have h3 : (convVal (create (.str "a".toList))).getItem { attr := "data".toList } = .ok (data (.str "a".toList)).toCont := by
      decide +kernel
    rw [h1] at e1; cases e1
    rw [h2] at e3; cases e3
    rw [h3] at e6; cases e6
    have hn : V.resourceName (.str "POST".toList) (.str "/Groups".toList) = .ok "Groups".toList := by decide +kernel
    rw [BulkA.resourceName_iff.mpr e4] at hn
    cases hn
    have hs : aget "Groups".toList known = some GroupA.schema := rfl
    rw [hs] at e5
    cases e5
    exact C104_group_data "POST".toList (.inl rfl) _ group_json
  · exact sound_of (m := "DELETE".toList) (t := "/Groups/1".toList) (by decide +kernel) (by decide) (by decide +kernel) (by decide)
      (.inl (by decide))
  · exact sound_of (m := "PUT".toList) (t := "/Users/2".toList) (by decide +kernel) (by decide) (by decide +kernel) (by decide)
      (.inr ⟨"Users".toList, BulkA.resourceName_iff.mp (by decide +kernel), rfl⟩)
  · exact sound_of (m := "GET".toList) (t := "/Groups/1".toList) (by decide +kernel) (by decide) (by decide +kernel) (by decide)
      (.inl (by decide))

example : ∃ req is, V.parseBulk (some 9) known (.dict doc) .null .null = .ok (req, is) :=
  C104_sound known doc doc_ordinary _ doc_ops doc_sound 9 .null .null

/-- the exception a request raises -/
def raised (maxOps : Option Int) (body : Val) : Option PyErr :=
  match V.parseBulk maxOps known body .null .null with
  | .ok _ => none
  | .error e => some e

/-- **C104** What raises: a method in small letters, no method at all, a path without slash next to an operation that is no
object, and data that makes the parser of a single PATCH request raise. -/
theorem C104_raises :
    raised (some 9) (bulk [op "delete" "/Groups/1" []]) = some .keyError ∧
    raised (some 9) (bulk [.dict [("path".toList, .str "/Groups/1".toList)]]) = some .keyError ∧
    raised (some 9) (bulk [op "GET" "Groups" [], .int 3]) = some .indexError ∧
    raised (some 9) (bulk [op "GET" "Groups" []]) = none ∧
    raised (some 9) (bulk [op "PATCH" "/Groups/1" [("data".toList, .dict [("schemas".toList, .list [.str PatchA.urn]),
      ("Operations".toList, .list [.dict [("op".toList, .str "remove".toList), ("path".toList, .str "unknown".toList)]])])]]) = some .typeError ∧
    raised none (bulk [delete]) = some .typeError ∧
    raised (some 9) (.dict [("schemas".toList, .list [.str BulkA.requestUrn])]) = some .typeError ∧
    raised (some 9) .null = some .typeError := by
  repeat' apply And.intro
  all_goals decide +kernel

end Scim.Examples.BulkTotality
