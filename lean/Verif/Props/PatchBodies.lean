import Verif.Lemmas.PatchFrame
import Verif.Lemmas.ValidAssets

/-! # C117: which patch requests are accepted, said about the document itself -/

namespace Scim
open Issues V Valid Declared
variable [PyEnv]

/-- **C117** the document of a patch request is accepted exactly when it is an object that is the body of a patch request. -/
theorem C117_document {r : Schema} (hP : Patchable r) {body : Val} (ht : body.Tame)
    (hd : ∀ kvs, body = .dict kvs → PatchDoc r kvs) :
    (∃ v is, PatchA.parse r body = .ok (v, is) ∧ is.hasIssues = false) ↔ ∃ D, body = .dict D ∧ PatchBody r D := by
  obtain ⟨v, is, h⟩ := C103_document r hP.schema body ht hd
  constructor
  · rintro ⟨v', is', h', hn⟩
    rw [h] at h'
    cases h'
    cases hb : body.isDict with
    | true =>
      obtain ⟨D, rfl⟩ : ∃ D, body = .dict D := by cases body <;> first | exact ⟨_, rfl⟩ | cases hb
      exact ⟨D, rfl, (PatchA.document_iff hP (hd D rfl) h).mp hn⟩
    | false =>
      obtain ⟨c, hc⟩ := process_rejects (m := .parse) (s := PatchA.schema) ht hb
      have hc' : PatchA.schema.parse body = .ok (.invalid, blocking c) := hc
      unfold PatchA.parse at h
      rw [hc'] at h
      cases h
      cases hn
  · rintro ⟨D, rfl, hD⟩
    exact ⟨v, is, h, (PatchA.document_iff hP (hd D rfl) h).mpr hD⟩

/-! ### The shipped schemas -/

/-- The types of the declared attributes and of their sub-attributes. -/
def declTypes (as : List Attr) : List AttrType := as.flatMap (fun d => d.info.type :: d.subs.map (fun s => s.info.type))

theorem types_bind {as : List Attr} {ts : List AttrType} (hn : declTypes as = ts) (hz : ∀ t ∈ ts, t ≠ .unknown)
    (urn : Str) (ext : Bool) : ∀ a ∈ as.flatMap (bindWithSubs urn ext), a.info.type ≠ .unknown := by
  intro a ha
  obtain ⟨d, hd, hm⟩ := List.mem_flatMap.mp ha
  have hb : ∀ (x : Attr) r, (bindAttr x r).info.type = x.info.type := by intro x r; cases x <;> rfl
  subst hn
  rcases mem_bindWithSubs.mp hm with rfl | ⟨s, hs, rfl⟩
  · rw [hb]; exact hz _ (List.mem_flatMap.mpr ⟨d, hd, List.mem_cons_self⟩)
  · rw [hb]; exact hz _ (List.mem_flatMap.mpr ⟨d, hd, List.mem_cons_of_mem _ (List.mem_map_of_mem hs)⟩)

theorem parts_of {s : Schema} (h : MadeOf s (fun d => ∀ m, Usual m d)) (hflat : ∀ a ∈ s.attrs.all, a.rep.sub ≠ [] → a.isComplex = false) :
    ∀ a ∈ s.attrs.all, a.rep.sub ≠ [] → ∃ i, a = .simple i ∧ Usual .parse (.simple { i with rep := { i.rep with sub := [] } }) := by
  intro a ha hsub
  have hf := hflat a ha hsub
  obtain ⟨urn, ext, d, hu, hd, hm, -⟩ := h a ha
  rcases mem_bindWithSubs.mp hm with rfl | ⟨b, hb, rfl⟩
  · exact absurd (by rw [bindAttr_rep]) hsub
  · cases d with
    | simple i => cases hb
    | complex i subs ps ds =>
      obtain ⟨-, -, hall, -⟩ := (hu .parse).complex
      have hub := usualAll_iff.mp hall b hb
      cases b with
      | complex j _ _ _ => cases hf
      | simple j => exact ⟨_, rfl, bind_usual hub (rep := { schema := urn, attr := (Attr.complex i subs ps ds).rep.attr, ext := ext }) rfl⟩

theorem user_patchable : Patchable userSchema where
  schema := user_patch
  proper := user_proper
  typed := by
    rw [user_all, user_core_all]
    intro a ha
    rcases List.mem_append.mp ha with h | h
    · exact types_bind (as := schemasAttr :: idAttr :: externalIdAttr :: metaAttr :: UserA.attrs)
        (ts := declTypes (@schemasAttr asciiEnv :: @idAttr asciiEnv :: @externalIdAttr asciiEnv ::
        @metaAttr asciiEnv :: @UserA.attrs asciiEnv)) rfl (by decide +kernel) _ _ a h
    · exact types_bind (ts := declTypes (@UserA.enterprise asciiEnv).attrs.all) rfl (by decide +kernel) _ _ a h
  one := by
    unfold userSchema
    exact Nat.le_refl 1
  parts := parts_of user_madeOf user_patch.flat

theorem group_types : ∀ a ∈ GroupA.schema.attrs.all, a.info.type ≠ .unknown := by
  rw [group_all]
  exact types_bind (as := schemasAttr :: idAttr :: externalIdAttr :: metaAttr :: [GroupA.displayNameA, GroupA.membersA])
    (ts := declTypes (@schemasAttr asciiEnv :: @idAttr asciiEnv :: @externalIdAttr asciiEnv ::
    @metaAttr asciiEnv :: [@GroupA.displayNameA asciiEnv, @GroupA.membersA asciiEnv])) rfl (by decide +kernel) _ _

theorem group_one : GroupA.schema.exts.length ≤ 1 := Nat.zero_le 1

attribute [local irreducible] GroupA.schema in
theorem group_patchable : Patchable GroupA.schema :=
  ⟨group_patch, group_proper, group_types, group_one, parts_of group_madeOf group_patch.flat⟩

/-- **C117** for users (with the enterprise extension). -/
theorem C117_user {body : Val} (ht : body.Tame) (hd : ∀ kvs, body = .dict kvs → PatchDoc userSchema kvs) :
    (∃ v is, PatchA.parse userSchema body = .ok (v, is) ∧ is.hasIssues = false) ↔
      ∃ D, body = .dict D ∧ PatchBody userSchema D :=
  C117_document user_patchable ht hd

attribute [local irreducible] GroupA.schema in
/-- **C117** for groups. -/
theorem C117_group {body : Val} (ht : body.Tame) (hd : ∀ kvs, body = .dict kvs → PatchDoc GroupA.schema kvs) :
    (∃ v is, PatchA.parse GroupA.schema body = .ok (v, is) ∧ is.hasIssues = false) ↔
      ∃ D, body = .dict D ∧ PatchBody GroupA.schema D :=
  C117_document group_patchable ht hd

end Scim

namespace Scim.Examples.PatchBodies
local instance patchBodiesEnv : PyEnv := asciiEnv
open Scim V Valid Declared
open Scim.Examples.PatchOp Scim.Examples.PatchTotality PatchA

/-- Whether the document is accepted. -/
def accepted (r : Schema) (D : List (Str × Val)) : Bool :=
  match PatchA.parse r (.dict D) with
  | .ok (_, is) => !is.hasIssues
  | .error _ => false

/-- The request with an attempt to set the identifier, and an item that is no object, is none. -/
example : ¬ PatchBody GroupA.schema groupDoc := by
  intro h
  obtain ⟨v, is, hp, hn⟩ := (C117_group groupDoc_ordinary.tame (fun kvs e => by cases e; exact groupDoc_doc)).mpr ⟨_, rfl, h⟩
  have : accepted GroupA.schema groupDoc = true := by unfold accepted; rw [hp]; simp [hn]
  exact absurd this (by decide +kernel)

/-- The operations of a request about a group. -/
def goodOps : List Val :=
  [operation [("op", txt "add"), ("path", txt "members"), ("value", .list [.dict [("value".toList, txt "7")]])],
   operation [("op", txt "add"), ("value", .dict [("displayName".toList, txt "Team")])],
   operation [("op", txt "remove"), ("path", txt "members[value eq \"7\"]")]]

def goodDoc : List (Str × Val) := [("Operations".toList, .list goodOps)]

theorem goodDoc_ordinary : Ordinary PatchA.schema goodDoc := by
  refine ⟨?_, ?_, ?_, handlesAll_of_easy _ (by decide +kernel) _⟩
  · simp only [goodDoc, goodOps, operation, List.map, Val.Tame, TamePairs, TameList, txt, Val.str]
    repeat' apply And.intro
    all_goals first | trivial | decide +kernel
  · have h : goodDoc.all (fun p => PatchA.schema.schemas.all (fun u => !(lower p.1 == lower u) || p.2.isDict)) = true := by
      decide +kernel
    intro k v hm u hu e
    have := List.all_eq_true.mp (List.all_eq_true.mp h (k, v) hm) u hu
    simpa [e] using this
  · intro x hx
    have h : (Val.dict goodDoc).toCont.getItem { schema := PatchA.schema.urn, attr := "schemas".toList } =
        .ok .missing := by decide +kernel
    rw [h] at hx
    cases hx
    intro xs e
    cases e

theorem goodDoc_doc : PatchDoc GroupA.schema goodDoc where
  ordinary := goodDoc_ordinary
  given := ⟨.list (goodOps.map convVal), by decide +kernel, rfl⟩
  items := by
    intro xs hx x hm hc
    have h : (Val.dict goodDoc).toCont.getItem { schema := PatchA.urn, attr := PatchA.opsWord } =
        .ok (.list (goodOps.map convVal)) := by decide +kernel
    unfold Val.Operations at hx
    rw [h] at hx
    cases hx
    simp only [goodOps, List.map, List.mem_cons, List.not_mem_nil, or_false] at hm
    rcases hm with rfl | rfl | rfl
    · exact item_of_path (s := "members".toList) (pathOf "members") (by decide +kernel) (by decide +kernel) (by decide +kernel)
    · exact item_of_object (kvs := [("displayName".toList, txt "Team")]) (by decide +kernel) (by decide +kernel) (by decide +kernel)
        group_value
    · exact item_of_path (s := "members[value eq \"7\"]".toList) (pathOf "members[value eq \"7\"]") (by decide +kernel)
        (by decide +kernel) (by decide +kernel)

/-- Without them it is one, and is accepted. -/
example : PatchBody GroupA.schema goodDoc := by
  have ha : accepted GroupA.schema goodDoc = true := by decide +kernel
  obtain ⟨D, e, h⟩ := (C117_group goodDoc_ordinary.tame (fun kvs e => by cases e; exact goodDoc_doc)).mp (by
    unfold accepted at ha
    split at ha
    · rename_i v is hp
      exact ⟨v, is, hp, by simpa using ha⟩
    · cases ha)
  cases e
  exact h

end Scim.Examples.PatchBodies
