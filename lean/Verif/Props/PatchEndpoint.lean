import Verif.Lemmas.PatchEndpoint
import Verif.Props.PatchBodies
import Verif.Props.PatchRequests
import Verif.Props.PatchTotality
import Verif.Props.Valid

/-! # C118: which patch requests are accepted at the endpoint -/

namespace Scim
open Issues V Valid Declared
variable [PyEnv]

/-- The operations of an accepted document, and what they are parsed to. -/
theorem PatchA.parsed_ops {r : Schema} (hP : Patchable r) {D : List (Str × Val)} (hD : PatchDoc r D) {v : Val} {is : Issues}
    (h : PatchA.parse r (.dict D) = .ok (v, is)) (hno : is.hasIssues = false) :
    ∃ (Es : List (List (Str × Val))) (out : List Val),
      look { schema := PatchA.urn, attr := PatchA.opsWord } D = some (.list (Es.map Val.dict)) ∧
      v.getItem { schema := PatchA.urn, attr := PatchA.opsWord } = .ok (.list out) ∧ (out = [] ↔ Es = []) ∧
      (∀ o ∈ out, o.Plainly ∧ ∃ w : Str, w ≠ [] ∧ o.getItem { attr := PatchA.opWord } = .ok (.str w)) ∧
      ((∃ o ∈ out, Sets o ∧ BadItems r o) ↔ ∃ E ∈ Es, Updates E ∧ NullItems r E) := by
  obtain ⟨hs, Es, hl, hgood⟩ := (PatchA.document_iff hP hD h).mp hno
  obtain ⟨xs, out, h1, h2, h3, h4⟩ := accepted_ops hP.schema.wf hP.schema.sane h hno
  have hl' : look { schema := PatchA.urn, attr := PatchA.opsWord } D = some (.list (Es.map Val.dict)) := hl
  have hty := look_tame hD.ordinary.tame hl'
  unfold Val.Tame at hty
  rw [tameList_iff] at hty
  have hxs : xs = Es.map PatchA.box := by
    have h1' := h1
    unfold Val.Operations at h1'
    rw [PatchA.ops_look hD.ordinary, hl'] at h1'
    dsimp only at h1'
    rw [PatchA.conv_dicts] at h1'
    cases h1'
    rfl
  subst hxs
  rw [List.length_map] at h2
  have hall : ∀ (i : Nat) o, out[i]? = some o → ∃ E t p value, Es[i]? = some E ∧ E ∈ Es ∧ OpInput (PatchA.box E) t p value ∧
      PatchA.parseOne r t p value = .ok (o, {}) := by
    intro i o ho
    have hi : i < Es.length := by rw [← h2]; exact (List.getElem?_eq_some_iff.mp ho).1
    obtain ⟨o', t, p, value, b1, b2, b3, -⟩ := h4 i (PatchA.box Es[i]) (by rw [List.getElem?_map, List.getElem?_eq_getElem hi]; rfl)
    rw [ho] at b1; cases b1
    exact ⟨Es[i], t, p, value, List.getElem?_eq_getElem hi, List.getElem_mem hi, b2, b3⟩
  have hbad : ∀ E ∈ Es, ∀ t p value o, OpInput (PatchA.box E) t p value → PatchA.parseOne r t p value = .ok (o, {}) →
      ((Sets o ∧ BadItems r o) ↔ Updates E ∧ NullItems r E) := by
    intro E hE t p value o b2 b3
    exact PatchA.bad_iff hP (hty _ (List.mem_map.mpr ⟨E, hE, rfl⟩)) (hD.items _ h1 _ (List.mem_map.mpr ⟨E, hE, rfl⟩) rfl)
      (hgood E hE) b2 b3
  refine ⟨Es, out, hl', h3, ?_, ?_, ?_, ?_⟩
  · rw [← List.length_eq_zero_iff, ← List.length_eq_zero_iff, h2]
  · intro o ho
    obtain ⟨i, hi⟩ := List.getElem?_of_mem ho
    obtain ⟨E, t, p, value, -, -, -, b⟩ := hall i o hi
    exact ⟨parseOne_plainly b, PatchA.parsed_op b⟩
  · rintro ⟨o, ho, hb⟩
    obtain ⟨i, hi⟩ := List.getElem?_of_mem ho
    obtain ⟨E, t, p, value, -, hE, b2, b3⟩ := hall i o hi
    exact ⟨E, hE, (hbad E hE t p value o b2 b3).mp hb⟩
  · rintro ⟨E, hE, hb⟩
    obtain ⟨i, hi⟩ := List.getElem?_of_mem hE
    obtain ⟨o, t, p, value, b1, b2, b3, -⟩ := h4 i (PatchA.box E) (by rw [List.getElem?_map, hi]; rfl)
    exact ⟨o, List.mem_of_getElem? b1, (hbad E hE t p value o b2 b3).mpr hb⟩

/-- **C118** a patch request is accepted exactly when its query string is fine and its body is a complete patch request. -/
theorem C118_request {r : Schema} (hP : Patchable r) (hdem : ∀ a ∈ r.attrs.all, a.ManyParts → ∀ s, ¬ a.Demands s)
    {body query : Val} (headers : Val) (ht : body.Tame) (hd : ∀ kvs, body = .dict kvs → PatchDoc r kvs) (hq : QueryShape query) :
    (∃ req is, parsePatch r body headers query = .ok (req, is) ∧ is.hasIssues = false) ↔
      QueryFine query ∧ ∃ D, body = .dict D ∧ PatchWhole r D := by
  constructor
  · rintro ⟨req, is, h, hn⟩
    obtain ⟨⟨q, iq, hq1, hq2⟩, v, ib, ip, h1, h2, h3, h4⟩ :=
      (noDemands_accepted hP.schema.wf hP.schema.sane hP.schema.plain hdem body headers query req is h).mp hn
    refine ⟨(C112_query hq hq1).mp hq2, ?_⟩
    obtain ⟨D, rfl, hD⟩ := (C117_document hP ht hd).mp ⟨v, ib, h1, h2⟩
    have hdoc := hd D rfl
    obtain ⟨Es, out, e1, e2, e3, e4, e5⟩ := PatchA.parsed_ops hP hdoc h1 h2
    obtain ⟨sv, s1, s2, s3⟩ := PatchA.schemas_there hdoc.ordinary hD.schemas h1
    obtain ⟨p1, p2⟩ := (PatchA.present_iff h3 s1 s2 e2 (fun o ho => (e4 o ho).2)).mp h4
    refine ⟨D, rfl, hD, s3.mp p1, fun Es' hEs' => ?_⟩
    have hEs2 : look { schema := PatchA.urn, attr := PatchA.opsWord } D = some (.list (Es'.map Val.dict)) := hEs'
    rw [e1] at hEs2
    have e' : Es.map Val.dict = Es'.map Val.dict := by injection hEs2 with e; injection e
    have e'' := (List.map_inj_right (fun a b h => by injection h)).mp e'
    subst e''
    refine ⟨fun e => p2 (e3.mpr e), fun E hE hU hN => ?_⟩
    obtain ⟨out', o1, o2, -⟩ := C103_request r hP.schema (.dict D) headers query (queryOk_of hq) v ib h1 h2
    rw [e2] at o1; cases o1
    rw [o2 (e5.mpr ⟨E, hE, hU, hN⟩)] at h
    cases h
  · rintro ⟨hf, D, rfl, hD⟩
    have hdoc := hd D rfl
    obtain ⟨v, ib, h1, h2⟩ := (C117_document hP ht hd).mpr ⟨D, rfl, hD.body⟩
    obtain ⟨Es, out, e1, e2, e3, e4, e5⟩ := PatchA.parsed_ops hP hdoc h1 h2
    obtain ⟨w1, w2⟩ := hD.operations Es e1
    obtain ⟨out', o1, -, o3⟩ := C103_request r hP.schema (.dict D) headers query (queryOk_of hq) v ib h1 h2
    rw [e2] at o1; cases o1
    obtain ⟨req, is, h⟩ := o3 (fun o ho hs hb => by
      obtain ⟨E, hE, hU, hN⟩ := e5.mp ⟨o, ho, hs, hb⟩
      exact w2 E hE hU hN)
    refine ⟨req, is, h, ?_⟩
    rw [noDemands_accepted hP.schema.wf hP.schema.sane hP.schema.plain hdem _ headers query req is h]
    obtain ⟨sv, s1, s2, s3⟩ := PatchA.schemas_there hdoc.ordinary hD.body.schemas h1
    obtain ⟨d, lc, rfl, hi, hnk⟩ := parse_stored (by rfl) h1
    obtain ⟨ip, hip⟩ := patch_checked hi hnk e2 (fun o ho => (e4 o ho).1) {}
    refine ⟨?_, _, ib, ip, h1, h2, hip, (PatchA.present_iff hip s1 s2 e2 (fun o ho => (e4 o ho).2)).mpr ⟨s3.mpr hD.schemas, fun e => w1 (e3.mp e)⟩⟩
    obtain ⟨⟨q, iq⟩, hq1⟩ := parseQuery_total (queryOk_of hq)
    exact ⟨q, iq, hq1, (C112_query hq hq1).mpr hf⟩

/-- **C118** a body that is one raises `TypeError` exactly when an operation that brings something gives `null` for a list of
objects, whatever else the request lacks. -/
theorem C118_raises {r : Schema} (hP : Patchable r) {D : List (Str × Val)} {query : Val} (headers : Val) (hd : PatchDoc r D)
    (hq : QueryShape query) (hb : PatchBody r D) :
    parsePatch r (.dict D) headers query = .error .typeError ↔
      ∃ Es : List (List (Str × Val)), look { schema := PatchA.urn, attr := "Operations".toList } D = some (.list (Es.map Val.dict)) ∧
        ∃ E ∈ Es, Updates E ∧ NullItems r E := by
  obtain ⟨v, ib, h1, h2⟩ := (C117_document hP hd.ordinary.tame (fun kvs e => by cases e; exact hd)).mpr ⟨D, rfl, hb⟩
  obtain ⟨Es, out, e1, e2, e3, e4, e5⟩ := PatchA.parsed_ops hP hd h1 h2
  obtain ⟨out', o1, o2, o3⟩ := C103_request r hP.schema (.dict D) headers query (queryOk_of hq) v ib h1 h2
  rw [e2] at o1; cases o1
  constructor
  · intro h
    refine ⟨Es, e1, e5.mp (Classical.byContradiction fun hn => ?_)⟩
    obtain ⟨req, is, h'⟩ := o3 (fun o ho hs hb => hn ⟨o, ho, hs, hb⟩)
    rw [h] at h'; cases h'
  · rintro ⟨Es', hEs', hE⟩
    have hEs2 : look { schema := PatchA.urn, attr := PatchA.opsWord } D = some (.list (Es'.map Val.dict)) := hEs'
    rw [e1] at hEs2
    have e' : Es.map Val.dict = Es'.map Val.dict := by injection hEs2 with e; injection e
    have e'' := (List.map_inj_right (fun a b h => by injection h)).mp e'
    subst e''
    exact o2 (e5.mpr hE)

/-- **C118** for users (with the enterprise extension). -/
theorem C118_user {body query : Val} (headers : Val) (ht : body.Tame) (hd : ∀ kvs, body = .dict kvs → PatchDoc userSchema kvs)
    (hq : QueryShape query) :
    (∃ req is, parsePatch userSchema body headers query = .ok (req, is) ∧ is.hasIssues = false) ↔
      QueryFine query ∧ ∃ D, body = .dict D ∧ PatchWhole userSchema D :=
  C118_request user_patchable user_noDemands headers ht hd hq

attribute [local irreducible] GroupA.schema in
/-- **C118** for groups. -/
theorem C118_group {body query : Val} (headers : Val) (ht : body.Tame) (hd : ∀ kvs, body = .dict kvs → PatchDoc GroupA.schema kvs)
    (hq : QueryShape query) :
    (∃ req is, parsePatch GroupA.schema body headers query = .ok (req, is) ∧ is.hasIssues = false) ↔
      QueryFine query ∧ ∃ D, body = .dict D ∧ PatchWhole GroupA.schema D :=
  C118_request group_patchable group_noDemands headers ht hd hq

end Scim

namespace Scim.Examples.PatchEndpoint
local instance patchEndpointEnv : PyEnv := asciiEnv
open Scim V Valid Declared
open Scim.Examples.PatchOp Scim.Examples.PatchTotality Scim.Examples.PatchBodies PatchA

/-- How a patch request about a group ends: accepted, with issues, or with an exception. -/
def ending (D : List (Str × Val)) : Option Bool :=
  match parsePatch GroupA.schema (.dict D) (.dict []) .null with
  | .ok (_, is) => some (!is.hasIssues)
  | .error _ => none

theorem noQuery : QueryShape .null := by intro q e; cases e

/-- The operations of C117 and the schema of patch requests. -/
def wholeDoc : List (Str × Val) := ("schemas".toList, .list [.str PatchA.urn]) :: goodDoc

theorem wholeDoc_ordinary : Ordinary PatchA.schema wholeDoc := by
  refine ⟨?_, ?_, ?_, handlesAll_of_easy _ (by decide +kernel) _⟩
  · simp only [wholeDoc, goodDoc, goodOps, operation, List.map, Val.Tame, TamePairs, TameList, txt, Val.str]
    repeat' apply And.intro
    all_goals first | trivial | decide +kernel
  · have h : wholeDoc.all (fun p => PatchA.schema.schemas.all (fun u => !(lower p.1 == lower u) || p.2.isDict)) = true := by
      decide +kernel
    intro k v hm u hu e
    have := List.all_eq_true.mp (List.all_eq_true.mp h (k, v) hm) u hu
    simpa [e] using this
  · intro x hx
    have h : (Val.dict wholeDoc).toCont.getItem { schema := PatchA.schema.urn, attr := "schemas".toList } =
        .ok (.list [.str PatchA.urn]) := by decide +kernel
    rw [h] at hx
    cases hx
    intro xs e
    cases e
    exact ⟨[PatchA.urn], rfl⟩

theorem wholeDoc_doc : PatchDoc GroupA.schema wholeDoc where
  ordinary := wholeDoc_ordinary
  given := ⟨.list (goodOps.map convVal), by decide +kernel, rfl⟩
  items := by
    intro xs hx
    have h : (Val.dict wholeDoc).toCont.getItem { schema := PatchA.urn, attr := PatchA.opsWord } =
        (Val.dict goodDoc).toCont.getItem { schema := PatchA.urn, attr := PatchA.opsWord } := by decide +kernel
    unfold Val.Operations at hx
    rw [h] at hx
    exact goodDoc_doc.items xs hx

/-- With the schema listed the request is complete, and accepted. -/
example : PatchWhole GroupA.schema wholeDoc := by
  have ha : ending wholeDoc = some true := by decide +kernel
  obtain ⟨-, D, e, h⟩ := (C118_group (.dict []) wholeDoc_ordinary.tame (fun kvs e => by cases e; exact wholeDoc_doc) noQuery).mp (by
    unfold ending at ha
    split at ha
    · rename_i req is hp
      exact ⟨req, is, hp, by simpa using ha⟩
    · cases ha)
  cases e
  exact h

/-- Without it, the body is that of a patch request, but not complete. -/
example : ¬ PatchWhole GroupA.schema goodDoc := by
  intro h
  obtain ⟨req, is, hp, hn⟩ := (C118_group (query := .null) (.dict []) goodDoc_ordinary.tame
    (fun kvs e => by cases e; exact goodDoc_doc) noQuery).mpr ⟨(by intro q e; cases e), _, rfl, h⟩
  have : ending goodDoc = some true := by unfold ending; rw [hp]; simp [hn]
  exact absurd this (by decide +kernel)

/-- A request that replaces the members of a group by `null`. -/
def nullDoc : List (Str × Val) :=
  [("schemas".toList, .list [.str PatchA.urn]),
   ("Operations".toList, .list [operation [("op", txt "replace"), ("path", txt "members"), ("value", .null)]])]

theorem nullDoc_ordinary : Ordinary PatchA.schema nullDoc := by
  refine ⟨?_, ?_, ?_, handlesAll_of_easy _ (by decide +kernel) _⟩
  · simp only [nullDoc, operation, List.map, Val.Tame, TamePairs, TameList, txt, Val.str, Val.null]
    repeat' apply And.intro
    all_goals first | trivial | decide +kernel
  · have h : nullDoc.all (fun p => PatchA.schema.schemas.all (fun u => !(lower p.1 == lower u) || p.2.isDict)) = true := by
      decide +kernel
    intro k v hm u hu e
    have := List.all_eq_true.mp (List.all_eq_true.mp h (k, v) hm) u hu
    simpa [e] using this
  · intro x hx
    have h : (Val.dict nullDoc).toCont.getItem { schema := PatchA.schema.urn, attr := "schemas".toList } =
        .ok (.list [.str PatchA.urn]) := by decide +kernel
    rw [h] at hx
    cases hx
    intro xs e
    cases e
    exact ⟨[PatchA.urn], rfl⟩

theorem nullDoc_doc : PatchDoc GroupA.schema nullDoc where
  ordinary := nullDoc_ordinary
  given := ⟨.list ([operation [("op", txt "replace"), ("path", txt "members"), ("value", .null)]].map convVal), by decide +kernel, rfl⟩
  items := by
    intro xs hx x hm hc
    have h : (Val.dict nullDoc).toCont.getItem { schema := PatchA.urn, attr := PatchA.opsWord } =
        .ok (.list ([operation [("op", txt "replace"), ("path", txt "members"), ("value", .null)]].map convVal)) := by decide +kernel
    unfold Val.Operations at hx
    rw [h] at hx
    cases hx
    simp only [List.map, List.mem_cons, List.not_mem_nil, or_false] at hm
    subst hm
    exact item_of_path (s := "members".toList) (pathOf "members") (by decide +kernel) (by decide +kernel) (by decide +kernel)

theorem nullDoc_body : PatchBody GroupA.schema nullDoc := by
  have ha : PatchBodies.accepted GroupA.schema nullDoc = true := by decide +kernel
  obtain ⟨D, e, h⟩ := (C117_group nullDoc_ordinary.tame (fun kvs e => by cases e; exact nullDoc_doc)).mp (by
    unfold PatchBodies.accepted at ha
    split at ha
    · rename_i v is hp
      exact ⟨v, is, hp, by simpa using ha⟩
    · cases ha)
  cases e
  exact h

/-- It is the body of a patch request, but the request raises. -/
example : parsePatch GroupA.schema (.dict nullDoc) (.dict []) .null = .error .typeError :=
  (C118_raises group_patchable (.dict []) nullDoc_doc noQuery nullDoc_body).mpr
    ⟨_, rfl, _, List.mem_singleton.mpr rfl, .inr (by decide +kernel), .inl ⟨pathOf "members", _,
      ⟨"members".toList, by decide +kernel, by decide +kernel⟩, rfl, ⟨rfl, rfl⟩, by decide +kernel⟩⟩

end Scim.Examples.PatchEndpoint
