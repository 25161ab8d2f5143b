import Verif.Props.PatchEndpoint

/-! # C119: patch operations are judged one by one -/

namespace Scim
open Issues V Valid Declared
variable [PyEnv]

/-- The request is accepted by the endpoint. -/
def PatchAccepted (r : Schema) (body headers query : Val) : Prop :=
  ∃ req is, parsePatch r body headers query = .ok (req, is) ∧ is.hasIssues = false

/-- What the document has for `Operations`, as a list of objects. -/
def HasOps (D : List (Str × Val)) (Es : List (List (Str × Val))) : Prop :=
  look { schema := PatchA.urn, attr := "Operations".toList } D = some (.list (Es.map Val.dict))

/-- The documents have the same for `schemas`. -/
def SameSchemas (D D' : List (Str × Val)) : Prop :=
  look { schema := PatchA.urn, attr := "schemas".toList } D = look { schema := PatchA.urn, attr := "schemas".toList } D'

theorem HasOps.unique {D : List (Str × Val)} {Es Es' : List (List (Str × Val))} (h : HasOps D Es) (h' : HasOps D Es') : Es = Es' := by
  unfold HasOps at h h'
  rw [h] at h'
  have e' : Es.map Val.dict = Es'.map Val.dict := by injection h' with e; injection e
  exact (List.map_inj_right (fun a b h => by injection h)).mp e'

/-- Whether a document is complete, operation by operation. -/
theorem PatchWhole.each {r : Schema} {D : List (Str × Val)} {Es : List (List (Str × Val))} (hl : HasOps D Es) :
    PatchWhole r D ↔
      (∃ strs : List Str, strs ≠ [] ∧ look { schema := PatchA.urn, attr := "schemas".toList } D = some (.list (strs.map Val.str)) ∧
        ∀ t ∈ strs, lower t = lower PatchA.urn) ∧
      Es ≠ [] ∧ ∀ E ∈ Es, GoodOp r E ∧ (Updates E → ¬ NullItems r E) := by
  constructor
  · rintro ⟨⟨hs, Es', hl', hg⟩, ⟨strs, hne, hls⟩, ho⟩
    have e := hl.unique hl'
    subst e
    obtain ⟨h1, h2⟩ := ho Es hl
    refine ⟨⟨strs, hne, hls, ?_⟩, h1, fun E hE => ⟨hg E hE, h2 E hE⟩⟩
    rcases hs _ hls with e | ⟨strs', e, hall⟩
    · cases e
    · have e' : List.map Val.str strs = List.map Val.str strs' := by injection e
      have e'' := (List.map_inj_right (fun a b h => by cases h; rfl)).mp e'
      rw [e'']; exact hall
  · rintro ⟨⟨strs, hne, hls, hall⟩, h1, h2⟩
    refine ⟨⟨fun x hx => ?_, Es, hl, fun E hE => (h2 E hE).1⟩, ⟨strs, hne, hls⟩, fun Es' hl' => ?_⟩
    · rw [hls] at hx; cases hx; exact .inr ⟨strs, rfl, hall⟩
    · have e := hl.unique hl'
      subst e
      exact ⟨h1, fun E hE => (h2 E hE).2⟩

/-- **C119** a patch request with operations is accepted exactly when each of its operations is accepted in a request of its own
(with the same schemas and query string). -/
theorem C119_each {r : Schema} (hP : Patchable r) (hdem : ∀ a ∈ r.attrs.all, a.ManyParts → ∀ s, ¬ a.Demands s)
    {D : List (Str × Val)} {Es : List (List (Str × Val))} {query : Val} (headers headers' : Val) (hd : PatchDoc r D) (hl : HasOps D Es)
    (hne : Es ≠ []) (hq : QueryShape query) (alone : List (Str × Val) → List (Str × Val))
    (ha : ∀ E ∈ Es, PatchDoc r (alone E) ∧ HasOps (alone E) [E] ∧ SameSchemas (alone E) D) :
    PatchAccepted r (.dict D) headers query ↔ ∀ E ∈ Es, PatchAccepted r (.dict (alone E)) headers' query := by
  have key : ∀ (D' : List (Str × Val)) (h' : Val) (Es' : List (List (Str × Val))), PatchDoc r D' → HasOps D' Es' →
      SameSchemas D' D → (PatchAccepted r (.dict D') h' query ↔ QueryFine query ∧
        (∃ strs : List Str, strs ≠ [] ∧ look { schema := PatchA.urn, attr := "schemas".toList } D = some (.list (strs.map Val.str)) ∧
          ∀ t ∈ strs, lower t = lower PatchA.urn) ∧
        Es' ≠ [] ∧ ∀ E ∈ Es', GoodOp r E ∧ (Updates E → ¬ NullItems r E)) := by
    intro D' h' Es' hd' hl' hs'
    refine (C118_request hP hdem h' hd'.ordinary.tame (fun kvs e => by cases e; exact hd') hq).trans ?_
    constructor
    · rintro ⟨hf, D'', e, hw⟩
      cases e
      have := (PatchWhole.each hl').mp hw
      rw [hs'] at this
      exact ⟨hf, this⟩
    · rintro ⟨hf, hw⟩
      refine ⟨hf, D', rfl, (PatchWhole.each hl').mpr ?_⟩
      rw [hs']
      exact hw
  rw [key D headers Es hd hl rfl]
  constructor
  · rintro ⟨hf, hs, -, hall⟩ E hE
    obtain ⟨a1, a2, a3⟩ := ha E hE
    refine (key (alone E) headers' [E] a1 a2 a3).mpr ⟨hf, hs, by simp, fun E' hE' => ?_⟩
    rw [List.mem_singleton.mp hE']
    exact hall E hE
  · intro h
    have hone : ∀ E ∈ Es, _ := fun E hE => (key (alone E) headers' [E] (ha E hE).1 (ha E hE).2.1 (ha E hE).2.2).mp (h E hE)
    obtain ⟨E0, hE0⟩ := List.exists_mem_of_ne_nil _ hne
    obtain ⟨hf, hs, -, -⟩ := hone E0 hE0
    exact ⟨hf, hs, hne, fun E hE => (hone E hE).2.2.2 E (List.mem_singleton.mpr rfl)⟩

/-- **C119** so the order of the operations, repetitions, and leaving some out do not matter: a request all of whose operations
are among those of an accepted one, with the same schemas, is accepted. -/
theorem C119_among {r : Schema} (hP : Patchable r) (hdem : ∀ a ∈ r.attrs.all, a.ManyParts → ∀ s, ¬ a.Demands s)
    {D D' : List (Str × Val)} {Es Es' : List (List (Str × Val))} {query : Val} (headers headers' : Val) (hd : PatchDoc r D)
    (hd' : PatchDoc r D') (hl : HasOps D Es) (hl' : HasOps D' Es') (hs : SameSchemas D' D) (hne : Es' ≠ [])
    (hsub : ∀ E ∈ Es', E ∈ Es) (hq : QueryShape query) (h : PatchAccepted r (.dict D) headers query) :
    PatchAccepted r (.dict D') headers' query := by
  obtain ⟨hf, D0, e, hw⟩ := (C118_request hP hdem headers hd.ordinary.tame (fun kvs e => by cases e; exact hd) hq).mp h
  cases e
  refine (C118_request hP hdem headers' hd'.ordinary.tame (fun kvs e => by cases e; exact hd') hq).mpr ⟨hf, D', rfl, ?_⟩
  obtain ⟨h1, -, h3⟩ := (PatchWhole.each hl).mp hw
  rw [← hs] at h1
  exact (PatchWhole.each hl').mpr ⟨h1, hne, fun E hE => h3 E (hsub E hE)⟩

end Scim

namespace Scim.Examples.PatchEach
local instance patchEachEnv : PyEnv := asciiEnv
open Scim V Valid Declared
open Scim.Examples.PatchOp Scim.Examples.PatchTotality Scim.Examples.PatchBodies Scim.Examples.PatchEndpoint PatchA

/-- The entries of an object. -/
def entries : Val → List (Str × Val)
  | .dict E => E
  | _ => []

/-- A request with one operation. -/
def aloneDoc (E : List (Str × Val)) : List (Str × Val) :=
  [("schemas".toList, .list [.str PatchA.urn]), ("Operations".toList, .list [.dict E])]

theorem goodOps_entries : goodOps = (goodOps.map entries).map Val.dict := rfl

theorem alone_ordinary {E : List (Str × Val)} (hE : E ∈ goodOps.map entries) : Ordinary PatchA.schema (aloneDoc E) := by
  have ht : (Val.dict E).Tame := by
    have := wholeDoc_ordinary.tame
    simp only [goodOps, List.map, entries, operation, List.mem_cons, List.not_mem_nil, or_false] at hE
    rcases hE with rfl | rfl | rfl <;>
    · simp only [List.map, Val.Tame, TamePairs, TameList, txt, Val.str]
      repeat' apply And.intro
      all_goals first | trivial | decide +kernel
  refine ⟨?_, ?_, ?_, handlesAll_of_easy _ (by decide +kernel) _⟩
  · simp only [aloneDoc, List.map, Val.Tame, TamePairs, TameList, Val.str] at ht ⊢
    refine ⟨by decide +kernel, by decide +kernel, ⟨trivial, trivial⟩, ⟨ht, trivial⟩, trivial⟩
  · intro k v hm u hu e
    exfalso
    have hu' : u = PatchA.urn := List.mem_singleton.mp hu
    subst hu'
    simp only [aloneDoc, List.mem_cons, List.not_mem_nil, or_false, Prod.mk.injEq] at hm
    rcases hm with ⟨rfl, -⟩ | ⟨rfl, -⟩ <;> exact absurd e (by decide +kernel)
  · intro x hx
    have h : (Val.dict (aloneDoc E)).toCont.getItem { schema := PatchA.schema.urn, attr := "schemas".toList } =
        .ok (.list [.str PatchA.urn]) := rfl
    rw [h] at hx
    cases hx
    intro xs e
    cases e
    exact ⟨[PatchA.urn], rfl⟩

theorem alone_doc {E : List (Str × Val)} (hE : E ∈ goodOps.map entries) : PatchDoc GroupA.schema (aloneDoc E) where
  ordinary := alone_ordinary hE
  given := ⟨.list [convVal (.dict E)], rfl, rfl⟩
  items := by
    intro xs hx x hm hc
    have h : (Val.dict (aloneDoc E)).toCont.getItem { schema := PatchA.urn, attr := PatchA.opsWord } =
        .ok (.list [convVal (.dict E)]) := rfl
    unfold Val.Operations at hx
    rw [h] at hx
    cases hx
    rw [List.mem_singleton.mp hm]
    refine goodDoc_doc.items (goodOps.map convVal) (by unfold Val.Operations; decide +kernel) _ ?_ (by rw [convVal]; rfl)
    refine List.mem_map.mpr ⟨.dict E, ?_, rfl⟩
    rw [goodOps_entries]
    exact List.mem_map.mpr ⟨E, hE, rfl⟩

theorem wholeDoc_accepted : PatchAccepted GroupA.schema (.dict wholeDoc) (.dict []) .null := by
  have ha : ending wholeDoc = some true := by decide +kernel
  unfold ending at ha
  split at ha
  · rename_i req is hp
    exact ⟨req, is, hp, by simpa using ha⟩
  · cases ha

/-- The request with three operations is accepted, hence each of them in a request of its own. -/
example : ∀ E ∈ goodOps.map entries, PatchAccepted GroupA.schema (.dict (aloneDoc E)) (.dict []) .null :=
  (C119_each group_patchable group_noDemands (D := wholeDoc) (.dict []) (.dict []) wholeDoc_doc (by unfold HasOps; decide +kernel)
    (by decide) noQuery aloneDoc (fun E hE => ⟨alone_doc hE, rfl, rfl⟩)).mp wholeDoc_accepted

/-- And so the removal alone is. -/
example : PatchAccepted GroupA.schema
    (.dict (aloneDoc (entries (operation [("op", txt "remove"), ("path", txt "members[value eq \"7\"]")])))) (.dict []) .null :=
  C119_among group_patchable group_noDemands (.dict []) (.dict []) wholeDoc_doc (alone_doc (by simp [goodOps]))
    (Es := goodOps.map entries) (by unfold HasOps; decide +kernel) (Es' := [_]) rfl rfl (by simp)
    (fun E hE => by rw [List.mem_singleton.mp hE]; simp [goodOps]) noQuery wholeDoc_accepted

end Scim.Examples.PatchEach
