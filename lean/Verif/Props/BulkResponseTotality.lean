import Verif.Lemmas.BulkReply
import Verif.Props.BulkTotality

/-! Totality of bulk responses: C105. -/

namespace Scim
open Issues
variable [PyEnv]

/-- **C105** A bulk response that is an ordinary object with a list of operations is answered exactly when none of the
operations makes the dumper raise: a location next to a method that is not one of the five in capital letters, a response to
a successful deletion, a failure whose response makes the dumper of errors raise, or a success whose response makes the
dumper of single responses raise. -/
theorem C105_response (vs : List (Str × Schema)) (hvs : ∀ q ∈ vs, ServedSchema q.2) (kvs : List (Str × Val))
    (hord : Ordinary BulkA.responseSchema kvs) (xs : List Val)
    (hx : (Val.dict kvs).toCont.getItem { schema := BulkA.responseUrn, attr := "Operations".toList } = .ok (.list xs))
    (status : Int) (headers : Val) (fail : Option Int) :
    (∃ resp is, V.dumpBulk vs status (.dict kvs) headers fail = .ok (resp, is)) ↔ ∀ x ∈ xs, ¬ OutcomeRaises vs x := by
  rw [← V.dumpBulk_iff hvs hord hx status headers fail]
  exact ⟨fun ⟨a, b, h⟩ => ⟨_, h⟩, fun ⟨⟨a, b⟩, h⟩ => ⟨a, b, h⟩⟩

/-- **C105** An ordinary object without a list for `Operations` is answered, with issues and without body. -/
theorem C105_no_list (vs : List (Str × Schema)) (kvs : List (Str × Val)) (hord : Ordinary BulkA.responseSchema kvs)
    (hx : ∀ xs, (Val.dict kvs).toCont.getItem { schema := BulkA.responseUrn, attr := "Operations".toList } ≠ .ok (.list xs))
    (status : Int) (headers : Val) (fail : Option Int) :
    ∃ is, V.dumpBulk vs status (.dict kvs) headers fail = .ok ({ headers, body := .null }, is) ∧ is.hasIssues = true :=
  V.dumpBulk_noList hord hx status headers fail

/-- **C105** A body that is no object always makes the dumper raise. -/
theorem C105_no_object (vs : List (Str × Schema)) (status : Int) (body headers : Val) (fail : Option Int)
    (h : (body.isCont || body.isDict) = false) : ∃ e, V.dumpBulk vs status body headers fail = .error e := by
  have hinv : ∃ c, BulkA.responseSchema.dump body = .ok (.invalid, blocking c) := by
    rw [BulkA.response_dump_eq]
    unfold Schema.process
    simp only [h]
    cases body.isNone
    · exact ⟨_, rfl⟩
    · exact ⟨_, rfl⟩
  obtain ⟨c, hinv⟩ := hinv
  unfold V.dumpBulk
  rw [hinv]
  dsimp only
  cases hcall : Checker.call {} .invalid BulkA.responseSchema.attrs .response with
  | error e => exact ⟨e, rfl⟩
  | ok is2 => exact (checker_invalid (by rw [BulkA.response_all_eq]; simp [bindWithSubs]) hcall).elim

/-- The response to a single request does not raise for a resource inside an operation. -/
theorem singleResponse_inside (method : Str) (s : Schema) (hsv : ServedSchema s) (n : Int) (kvs : List (Str × Val))
    (hj : JsonBody s (.dict kvs)) (t : Str) : ∃ r, singleResponse method s n (Val.dict kvs).toCont t = .ok r := by
  have hh : HeadersOk (.dict [("Location".toList, .str t)]) := by
    intro _
    refine ⟨_, rfl, ?_⟩
    intro v hv
    have : some (Val.str t) = some v := by rw [← hv]; rfl
    cases this
    exact ⟨_, rfl⟩
  have key : ∀ req e, ∃ r, V.dumpResource s req e n (Val.dict kvs).toCont (.dict [("Location".toList, .str t)]) none = .ok r := by
    intro req e
    obtain ⟨a, b, h⟩ := C97_resource s hsv.wf hsv.noShadow hsv.owned hsv.standard hsv.hasMeta req e n (.dict kvs) _ none hj hh
    refine ⟨_, Eq.trans ?_ h⟩
    unfold V.dumpResource
    rw [dump_toCont]
  unfold singleResponse V.dumpPost V.dumpPatch V.dumpGet
  repeat' split
  all_goals first | exact key _ _ | exact ⟨_, rfl⟩

theorem dumpError_toCont (status : Int) (kvs : List (Str × Val)) (headers : Val) :
    V.dumpError status (Val.dict kvs).toCont headers = V.dumpError status (.dict kvs) headers := by
  unfold V.dumpError
  rw [dump_toCont]

/-- **C105** A response whose outcomes are all written as they should be is answered, whatever the rest of it. -/
theorem C105_sound (vs : List (Str × Schema)) (hvs : ∀ q ∈ vs, ServedSchema q.2) (kvs : List (Str × Val))
    (hord : Ordinary BulkA.responseSchema kvs) (xs : List Val)
    (hx : (Val.dict kvs).toCont.getItem { schema := BulkA.responseUrn, attr := "Operations".toList } = .ok (.list xs))
    (hs : ∀ x ∈ xs, SoundOutcome vs x) (status : Int) (headers : Val) (fail : Option Int) :
    ∃ resp is, V.dumpBulk vs status (.dict kvs) headers fail = .ok (resp, is) := by
  refine (C105_response vs hvs kvs hord xs hx status headers fail).mpr (fun x hxm hb => ?_)
  obtain ⟨m, hm, hmr⟩ := (hs x hxm).method
  cases hb with
  | method h1 h2 h3 =>
    have := h1.1
    rw [hmr] at this
    cases this
    exact h3 hm
  | failed h1 h2 h3 h4 =>
    obtain ⟨e, h4⟩ := h4
    obtain ⟨kvs', rfl, hj⟩ := (hs x hxm).failed _ _ h2 h3
    obtain ⟨resp, is, h⟩ := C97_error _ _ .null hj
    rw [dumpError_toCont, h] at h4
    cases h4
  | deleted h1 h2 h3 h4 h5 =>
    have := (hs x hxm).deleted h1.1 _ _ h4
    omega
  | @done m' t n r s h1 h2 h3 h4 h5 h6 h7 h8 =>
    obtain ⟨e, h8⟩ := h8
    obtain ⟨kvs', rfl, hj⟩ := (hs x hxm).done _ _ _ _ h6 h7 h4 h5
    have hsv : ServedSchema s := by
      obtain ⟨name, hq⟩ := V.answeredBy_mem h5
      exact hvs _ hq
    obtain ⟨r', h⟩ := singleResponse_inside m' s hsv n kvs' hj t
    rw [h] at h8
    cases h8

attribute [local irreducible] GroupA.schema in
/-- **C105** Users and groups are resources as a server needs them. -/
theorem C105_served : ServedSchema userSchema ∧ ServedSchema GroupA.schema :=
  ⟨⟨user_wf, user_noShadow, user_owned, user_top_good.sane, user_standard, user_meta_mem⟩,
    ⟨group_wf, group_noShadow, group_owned, group_top_good.sane, group_standard, group_meta_mem⟩⟩

end Scim

/-! ### Concrete responses -/

namespace Scim.Examples.BulkResponseTotality
local instance bulkResponseTotalityEnv : PyEnv := asciiEnv
open Scim.Examples.BulkResponses

theorem known_served : ∀ q ∈ known, ServedSchema q.2 := by
  intro q hq
  rw [show known = [("Groups".toList, GroupA.schema)] from rfl] at hq
  cases List.mem_singleton.mp hq
  exact C105_served.2

/-- a deletion, a failure and a replacement -/
def ops : List Val := [
  .dict [("method".toList, .str "DELETE".toList), ("location".toList, .str here.toList), ("status".toList, .str "204".toList)],
  op "PUT" here "404" (failure "404") [],
  op "PUT" here "200" (group here) []]

def doc : List (Str × Val) := [("schemas".toList, .list [.str BulkA.responseUrn]), ("Operations".toList, .list ops)]

theorem doc_ordinary : Ordinary BulkA.responseSchema doc := by
  refine ⟨?_, ?_, ?_, handlesAll_of_test _ _ (by decide +kernel)⟩
  · simp only [doc, ops, op, group, BulkResponses.failure, List.cons_append, List.nil_append, List.map, Val.Tame, TamePairs, TameList,
      Val.str]
    repeat' apply And.intro
    all_goals first | decide +kernel | trivial
  · have h : doc.all (fun p => BulkA.responseSchema.schemas.all (fun u => !(lower p.1 == lower u) || p.2.isDict)) = true := by
      decide +kernel
    intro k v hm u hu e
    have := List.all_eq_true.mp (List.all_eq_true.mp h (k, v) hm) u hu
    simpa [e] using this
  · intro x hx
    have h : (Val.dict doc).toCont.getItem { schema := BulkA.responseSchema.urn, attr := "schemas".toList } =
        .ok (.list [.str BulkA.responseUrn]) := by decide +kernel
    rw [h] at hx
    cases hx
    intro xs e
    cases e
    exact ⟨[BulkA.responseUrn], rfl⟩

theorem doc_ops : (Val.dict doc).toCont.getItem { schema := BulkA.responseUrn, attr := "Operations".toList } =
    .ok (.list (ops.map convVal)) := by decide +kernel

theorem json_of {s : Schema} {kvs : List (Str × Val)} {us : List Str} (ht : (Val.dict kvs).Tame)
    (h1 : kvs.all (fun p => s.schemas.all (fun u => !(lower p.1 == lower u) || p.2.isDict)) = true)
    (h2 : (Val.dict kvs).toCont.getItem { schema := s.urn, attr := "schemas".toList } = .ok (.list (us.map Val.str)))
    (h3 : handlesAllB s.attrs.top (Val.dict kvs).toCont = true := by decide +kernel) :
    JsonBody s (.dict kvs) := by
  refine ⟨ht, fun kvs' e => ?_⟩
  cases e
  refine ⟨ht, ?_, ?_, handlesAll_of_test _ _ h3⟩
  · intro k v hm u hu e
    have := List.all_eq_true.mp (List.all_eq_true.mp h1 (k, v) hm) u hu
    simpa [e] using this
  · intro x hx
    rw [h2] at hx
    cases hx
    intro xs e
    cases e
    exact ⟨us, rfl⟩

theorem group_json : JsonBody GroupA.schema (group here) := by
  refine json_of (us := [GroupA.urn]) ?_ (by decide +kernel) (by decide +kernel)
  simp only [Val.Tame, TamePairs, TameList, Val.str]
  repeat' apply And.intro
  all_goals first | trivial | decide +kernel

theorem failure_json : JsonBody ErrorA.schema (failure "404") := by
  refine json_of (us := [ErrorA.urn]) ?_ (by decide +kernel) (by decide +kernel)
  simp only [Val.Tame, TamePairs, TameList, Val.str]
  repeat' apply And.intro
  all_goals first | trivial | decide +kernel

theorem reported_eq {x r : Val} {n n' : Int} {st : Str} {r' : Val} (h : Reported x n r)
    (h1 : x.getItem { attr := "status".toList } = .ok (.str st)) (h2 : parseInt st = some n')
    (h3 : x.getItem { attr := "response".toList } = .ok r') : n = n' ∧ r = r' ∧ r'.truthy = true := by
  obtain ⟨st', a, b, c, d⟩ := h
  rw [h1] at a; cases a
  rw [h2] at b; cases b
  rw [h3] at c; cases c
  exact ⟨rfl, rfl, d⟩

/-- The hypotheses of `C105_sound` (and so of the others) are met. -/
theorem doc_sound : ∀ x ∈ ops.map convVal, SoundOutcome known x := by
  intro x hx
  simp only [ops, List.map, List.mem_cons, List.not_mem_nil, or_false] at hx
  rcases hx with rfl | rfl | rfl
  · have key : ∀ n r, ¬ Reported (convVal (.dict [("method".toList, .str "DELETE".toList), ("location".toList, .str here.toList),
        ("status".toList, .str "204".toList)])) n r := by
      intro n r h
      have := reported_eq h (st := "204".toList) (n' := 204) (r' := .missing) (by decide +kernel) (by decide +kernel) (by decide +kernel)
      cases this.2.2
    exact ⟨⟨"DELETE".toList, by decide, by decide +kernel⟩, fun _ n r h => absurd h (key n r), fun n r h => absurd h (key n r),
      fun n r t s h => absurd h (key n r)⟩
  · have key : ∀ n r, Reported (convVal (op "PUT" here "404" (failure "404") [])) n r → n = 404 ∧ r = (failure "404").toCont := by
      intro n r h
      have := reported_eq h (st := "404".toList) (n' := 404) (r' := (failure "404").toCont) (by decide +kernel) (by decide +kernel)
        (by decide +kernel)
      exact ⟨this.1, this.2.1⟩
    refine ⟨⟨"PUT".toList, by decide, by decide +kernel⟩, ?_, ?_, ?_⟩
    · intro _ n r h
      rw [(key n r h).1]; decide
    · intro n r h _
      exact ⟨_, (key n r h).2, failure_json⟩
    · intro n r t s h hn
      rw [(key n r h).1] at hn
      exact absurd hn (by decide)
  · have key : ∀ n r, Reported (convVal (op "PUT" here "200" (group here) [])) n r → n = 200 ∧ r = (group here).toCont := by
      intro n r h
      have := reported_eq h (st := "200".toList) (n' := 200) (r' := (group here).toCont) (by decide +kernel) (by decide +kernel)
        (by decide +kernel)
      exact ⟨this.1, this.2.1⟩
    refine ⟨⟨"PUT".toList, by decide, by decide +kernel⟩, ?_, ?_, ?_⟩
    · intro h
      have h' : (convVal (op "PUT" here "200" (group here) [])).getItem { attr := "method".toList } = .ok (.str "PUT".toList) := by
        decide +kernel
      rw [h'] at h
      exact absurd h (by decide)
    · intro n r h hn
      rw [(key n r h).1] at hn
      exact absurd hn (by decide)
    · intro n r t s h _ _ ha
      obtain ⟨name, hq⟩ := V.answeredBy_mem ha
      rw [show known = [("Groups".toList, GroupA.schema)] from rfl] at hq
      cases List.mem_singleton.mp hq
      exact ⟨_, (key n r h).2, group_json⟩

example : ∃ resp is, V.dumpBulk known 200 (.dict doc) .null (some 1) = .ok (resp, is) :=
  C105_sound known known_served doc doc_ordinary _ doc_ops doc_sound 200 .null (some 1)

/-- the exception a response raises -/
def raised (body : Val) : Option PyErr :=
  match V.dumpBulk known 200 body .null none with
  | .ok _ => none
  | .error e => some e

/-- **C105** What raises: a method in small letters with a location, a response to a successful deletion, failures and successes
whose response lists a number among its schemas, and a body that is no object; and what does not: the same method without
location, the same deletion without location, no `Operations`, an operation that is no object. -/
theorem C105_raises :
    raised (bulk [op "put" here "200" (group here) []]) = some .keyError ∧
    raised (bulk [.dict [("method".toList, .str "put".toList), ("status".toList, .str "200".toList), ("response".toList, group here)]]) = none ∧
    raised (bulk [op "DELETE" here "204" (group here) []]) = some .typeError ∧
    raised (bulk [.dict [("method".toList, .str "DELETE".toList), ("status".toList, .str "204".toList), ("response".toList, group here)]]) = none ∧
    raised (bulk [op "PUT" here "404" (.dict [("schemas".toList, .list [.int 3])]) []]) = some .attributeError ∧
    raised (bulk [op "PUT" here "200" (.dict [("schemas".toList, .list [.int 3])]) []]) = some .attributeError ∧
    raised (.dict [("schemas".toList, .list [.str BulkA.responseUrn])]) = none ∧
    raised (bulk [.int 3]) = none ∧
    raised .null = some .typeError := by
  repeat' apply And.intro
  all_goals decide +kernel

end Scim.Examples.BulkResponseTotality
