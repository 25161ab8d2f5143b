import Verif.Lemmas.PatchOutcome

/-! Totality of patch requests: C103. -/

namespace Scim
open Issues V
variable [PyEnv]

/-- **C103** The parser of patch requests does not raise: for every body of tame values that is no object, and for every
ordinary object with something for `Operations` whose operations can be looked at (`PatchItem`). -/
theorem C103_document (r : Schema) (hr : PatchSchema r) (body : Val) (ht : body.Tame)
    (hd : ∀ kvs, body = .dict kvs → PatchDoc r kvs) : ∃ v is, PatchA.parse r body = .ok (v, is) := by
  cases hb : body.isDict with
  | true =>
    cases body with
    | dict kvs => exact patch_parse_total hr (hd kvs rfl)
    | _ => cases hb
  | false =>
    obtain ⟨c, hc⟩ := process_rejects (m := .parse) (s := PatchA.schema) ht hb
    have hc' : PatchA.schema.parse body = .ok (.invalid, blocking c) := hc
    unfold PatchA.parse
    rw [hc']
    exact ⟨_, _, rfl⟩

/-- **C103** Checking a patch request whose document is accepted raises `TypeError` exactly when an operation sets an
attribute whose values are lists of objects to something that is no list (null, that is); otherwise it does not raise. -/
theorem C103_request (r : Schema) (hr : PatchSchema r) (body headers query : Val) (hq : QueryOk query) (v : Val) (ib : Issues)
    (hp : PatchA.parse r body = .ok (v, ib)) (hn : ib.hasIssues = false) :
    ∃ out, v.getItem { schema := PatchA.urn, attr := PatchA.opsWord } = .ok (.list out) ∧
      ((∃ o ∈ out, Sets o ∧ BadItems r o) → parsePatch r body headers query = .error .typeError) ∧
      ((∀ o ∈ out, Sets o → ¬ BadItems r o) → ∃ req is, parsePatch r body headers query = .ok (req, is)) := by
  obtain ⟨xs, out, hx, hlen, ho, hall⟩ := accepted_ops hr.wf hr.sane hp hn
  refine ⟨out, ho, ?_⟩
  have hobj : (body.isCont || body.isDict) = true := by
    obtain ⟨d, is0, hd, hw0, hw, ⟨hc, rfl, rfl⟩ | ⟨-, h, -⟩⟩ := parse_bridge hr.wf hr.sane hp
    · rw [eq_empty_of_noIssues hw hn] at hc
      exact absurd hc (by decide)
    · rcases h with h | h <;> simp [h]
  obtain ⟨d, lc, rfl, hi, hnk⟩ := parse_stored hobj hp
  have hsrc : ∀ (i : Nat) (o : Val), out[i]? = some o → ∃ x t p value, OpInput x t p value ∧ PatchA.parseOne r t p value = .ok (o, {}) := by
    intro i o hio
    have hlt : i < xs.length := by rw [← hlen]; exact (List.getElem?_eq_some_iff.mp hio).1
    obtain ⟨o', t, p, value, b1, b2, b3, -, -⟩ := hall i _ (List.getElem?_eq_getElem hlt)
    rw [hio] at b1
    cases b1
    exact ⟨_, t, p, value, b2, b3⟩
  have hpl : ∀ o ∈ out, o.Plainly := by
    intro o hom
    obtain ⟨i, hio⟩ := List.getElem?_of_mem hom
    obtain ⟨x, t, p, value, -, h⟩ := hsrc i o hio
    exact parseOne_plainly h
  obtain ⟨⟨q, iq⟩, hqq⟩ := parseQuery_total hq
  obtain ⟨ip, hck⟩ := patch_checked hi hnk ho hpl {}
  obtain ⟨vs, h1⟩ := patch_lists_total ho hpl (word_name (w := PatchA.valWord) (by simp)) (by decide)
  obtain ⟨ps, h2⟩ := patch_lists_total ho hpl (word_name (w := PatchA.pathWord) (by simp)) (by decide)
  obtain ⟨ops, h3⟩ := patch_lists_total ho hpl (word_name (w := PatchA.opWord) (by simp)) (by decide)
  obtain ⟨out', ho', l1, l2, l3, hreads, hgood⟩ := patch_lists hr.wf hr.sane hp hn h1 h2 h3
  rw [ho] at ho'
  cases ho'
  have hbody : parseBody (PatchA.parse r) PatchA.schema.attrs body = .ok (.cont d lc, Issues.empty.merge ip bodyLoc) := by
    unfold parseBody checkBody
    rw [hp]
    dsimp only
    rw [merge_empty_clean _ hn]
    simp only [show Issues.canProceed {} [bodyLoc] = true from rfl, if_true]
    rw [hck]
  have hloop := patchLoop_exact (r := r) (bad := fun k => ∃ o, out[k]? = some o ∧ Sets o ∧ BadItems r o) 0 ops vs ps
    (iq.merge (Issues.empty.merge ip bodyLoc)) (by omega) (by omega) (by
      intro k op val pa a1 a2 a3 is
      have hlt : k < out.length := by rw [← l3]; exact (List.getElem?_eq_some_iff.mp a1).1
      have hok := List.getElem?_eq_getElem hlt
      obtain ⟨x', y, z, c1, c2, c3, c4, c5, c6⟩ := hreads k _ hok
      rw [a2] at c1; cases c1
      rw [a3] at c3; cases c3
      rw [a1] at c5; cases c5
      obtain ⟨x, t, p, value, hin, hone⟩ := hsrc k _ hok
      obtain ⟨g1, g2⟩ := op_exact hr hin hone c6 c2 c4 (hgood _ (List.mem_of_getElem? a3)) (0 + k) is
      rw [Nat.zero_add] at g1 g2 ⊢
      refine ⟨fun hb => g1 (fun hh => hb ⟨_, hok, hh⟩), ?_⟩
      rintro ⟨o, h, hh⟩
      rw [hok] at h
      cases h
      exact g2 hh)
  have hsplit : parsePatchBody r body iq =
      if (!(iq.merge (Issues.empty.merge ip bodyLoc)).canProceed [bodyLoc ++ [.name PatchA.opsWord]]) = true then
        .ok (.null, iq.merge (Issues.empty.merge ip bodyLoc))
      else match patchLoop r 0 ops vs ps (iq.merge (Issues.empty.merge ip bodyLoc)) with
        | .error e => .error e
        | .ok issues => .ok (if issues.hasIssues then .null else .cont d lc, issues) := by
    unfold parsePatchBody
    rw [hbody]
    dsimp only
    rw [h1, h2, h3]
    rfl
  unfold parsePatch
  rw [hqq]
  dsimp only
  rw [hsplit]
  constructor
  · rintro ⟨o, hom, hbad⟩
    obtain ⟨k, hk⟩ := List.getElem?_of_mem hom
    rw [patch_proceeds hqq hck ho (by rintro rfl; cases hom), hloop.2 ⟨k, by
      rw [l3]; exact (List.getElem?_eq_some_iff.mp hk).1, o, by rw [Nat.zero_add]; exact hk, hbad⟩]
    rfl
  · intro hnb
    obtain ⟨res, hres⟩ := hloop.1 (by
      rintro k hk ⟨o, ho, hs, hb⟩
      exact hnb o (List.mem_of_getElem? ho) hs hb)
    rw [hres]
    cases (iq.merge (Issues.empty.merge ip bodyLoc)).canProceed [bodyLoc ++ [.name PatchA.opsWord]] with
    | true => exact ⟨_, _, rfl⟩
    | false => exact ⟨_, _, rfl⟩

/-! ### The shipped schemas -/

/-- For each sub-attribute, whether it is complex. -/
def nested (as : List Attr) : List Bool := as.flatMap (fun d => d.subs.map Attr.isComplex)

theorem flat_bind {as : List Attr} {ns : List Bool} (hn : nested as = ns) (hz : ns.all (!·) = true)
    (urn : Str) (ext : Bool) : ∀ a ∈ as.flatMap (bindWithSubs urn ext), a.rep.sub ≠ [] → a.isComplex = false := by
  intro a ha hsub
  obtain ⟨d, hd, hm⟩ := List.mem_flatMap.mp ha
  have hb : ∀ (x : Attr) r, (bindAttr x r).isComplex = x.isComplex := by intro x r; cases x <;> rfl
  rcases mem_bindWithSubs.mp hm with rfl | ⟨s, hs, rfl⟩
  · rw [bindAttr_rep] at hsub; exact absurd rfl hsub
  · subst hn
    rw [hb]
    have := List.all_eq_true.mp hz s.isComplex (List.mem_flatMap.mpr ⟨d, hd, List.mem_map_of_mem hs⟩)
    simpa using this

theorem subNames_bind {as : List Attr} {ds : List Nat} (hd : depths as = ds) (hz : ds.all (· == 0) = true)
    (hn : ∀ d ∈ as, isAttrName d.rep.attr = true ∧ ∀ t ∈ d.subs, isAttrName t.rep.attr = true)
    (urn : Str) (ext : Bool) : ∀ a ∈ as.flatMap (bindWithSubs urn ext), ∀ s ∈ a.subs, isAttrName s.rep.attr = true := by
  intro a ha s hs
  obtain ⟨d, hda, hm⟩ := List.mem_flatMap.mp ha
  have hb : ∀ (x : Attr) r, (bindAttr x r).subs = x.subs := by intro x r; cases x <;> rfl
  rcases mem_bindWithSubs.mp hm with rfl | ⟨t, ht, rfl⟩
  · rw [hb] at hs; exact (hn d hda).2 s hs
  · rw [hb] at hs
    subst hd
    have := List.all_eq_true.mp hz t.subs.length (List.mem_flatMap.mpr ⟨d, hda, List.mem_map_of_mem ht⟩)
    have : t.subs = [] := by simpa using this
    rw [this] at hs
    cases hs

theorem user_patch : PatchSchema userSchema where
  wf := user_wf
  sane := user_sane
  noShadow := user_noShadow
  owned := user_owned
  standard := by
    rw [standardAll_iff, user_all, user_core_all]
    intro a ha
    rcases List.mem_append.mp ha with h | h
    · exact (good_bind user_good _ _ a h).1 _
    · exact (good_bind enterprise_good _ _ a h).1 _
  plain := user_plain
  named := by
    rw [user_all, user_core_all]
    intro a ha
    rcases List.mem_append.mp ha with h | h
    · exact subNames_bind (as := schemasAttr :: idAttr :: externalIdAttr :: metaAttr :: UserA.attrs)
        (ds := @depths (@schemasAttr asciiEnv :: @idAttr asciiEnv :: @externalIdAttr asciiEnv ::
        @metaAttr asciiEnv :: @UserA.attrs asciiEnv)) rfl (by decide +kernel) (named_of userNames_eq (by decide +kernel)) _ _ a h
    · exact subNames_bind (ds := depths (@UserA.enterprise asciiEnv).attrs.all) rfl (by decide +kernel)
        (named_of enterpriseNames_eq (by decide +kernel)) _ _ a h
  flat := by
    rw [user_all, user_core_all]
    intro a ha
    rcases List.mem_append.mp ha with h | h
    · exact flat_bind (as := schemasAttr :: idAttr :: externalIdAttr :: metaAttr :: UserA.attrs)
        (ns := @nested (@schemasAttr asciiEnv :: @idAttr asciiEnv :: @externalIdAttr asciiEnv ::
        @metaAttr asciiEnv :: @UserA.attrs asciiEnv)) rfl (by decide +kernel) _ _ a h
    · exact flat_bind (ns := nested (@UserA.enterprise asciiEnv).attrs.all) rfl (by decide +kernel) _ _ a h

theorem group_standardAll : StandardAll .parse GroupA.schema.attrs.all := by
  rw [standardAll_iff, group_all]
  exact fun a h => (good_bind group_good _ _ a h).1 _

theorem group_subNames : ∀ a ∈ GroupA.schema.attrs.all, ∀ s ∈ a.subs, isAttrName s.rep.attr = true := by
  rw [group_all]
  exact subNames_bind (as := schemasAttr :: idAttr :: externalIdAttr :: metaAttr :: [GroupA.displayNameA, GroupA.membersA])
    (ds := depths (@schemasAttr asciiEnv :: @idAttr asciiEnv :: @externalIdAttr asciiEnv ::
    @metaAttr asciiEnv :: [@GroupA.displayNameA asciiEnv, @GroupA.membersA asciiEnv])) rfl (by decide +kernel)
    (named_of groupNames_eq (by decide +kernel)) _ _

theorem group_flat : ∀ a ∈ GroupA.schema.attrs.all, a.rep.sub ≠ [] → a.isComplex = false := by
  rw [group_all]
  exact flat_bind (as := schemasAttr :: idAttr :: externalIdAttr :: metaAttr :: [GroupA.displayNameA, GroupA.membersA])
    (ns := nested (@schemasAttr asciiEnv :: @idAttr asciiEnv :: @externalIdAttr asciiEnv ::
    @metaAttr asciiEnv :: [@GroupA.displayNameA asciiEnv, @GroupA.membersA asciiEnv])) rfl (by decide +kernel) _ _

attribute [local irreducible] GroupA.schema in
theorem group_patch : PatchSchema GroupA.schema :=
  ⟨group_wf, group_sane, group_noShadow, group_owned, group_standardAll, group_plain, group_subNames, group_flat⟩

/-- **C103** for users (with the enterprise extension). -/
theorem C103_user (body : Val) (ht : body.Tame) (hd : ∀ kvs, body = .dict kvs → PatchDoc userSchema kvs) :
    ∃ v is, PatchA.parse userSchema body = .ok (v, is) :=
  C103_document userSchema user_patch body ht hd

attribute [local irreducible] GroupA.schema in
/-- **C103** for groups. -/
theorem C103_group (body : Val) (ht : body.Tame) (hd : ∀ kvs, body = .dict kvs → PatchDoc GroupA.schema kvs) :
    ∃ v is, PatchA.parse GroupA.schema body = .ok (v, is) :=
  C103_document GroupA.schema group_patch body ht hd

/-- **C103** for users (with the enterprise extension): the check of an accepted document. -/
theorem C103_user_request (body headers query : Val) (hq : QueryOk query) (v : Val) (ib : Issues)
    (hp : PatchA.parse userSchema body = .ok (v, ib)) (hn : ib.hasIssues = false) :
    ∃ out, v.getItem { schema := PatchA.urn, attr := PatchA.opsWord } = .ok (.list out) ∧
      ((∃ o ∈ out, Sets o ∧ BadItems userSchema o) → parsePatch userSchema body headers query = .error .typeError) ∧
      ((∀ o ∈ out, Sets o → ¬ BadItems userSchema o) → ∃ req is, parsePatch userSchema body headers query = .ok (req, is)) :=
  C103_request userSchema user_patch body headers query hq v ib hp hn

attribute [local irreducible] GroupA.schema in
/-- **C103** for groups: the check of an accepted document. -/
theorem C103_group_request (body headers query : Val) (hq : QueryOk query) (v : Val) (ib : Issues)
    (hp : PatchA.parse GroupA.schema body = .ok (v, ib)) (hn : ib.hasIssues = false) :
    ∃ out, v.getItem { schema := PatchA.urn, attr := PatchA.opsWord } = .ok (.list out) ∧
      ((∃ o ∈ out, Sets o ∧ BadItems GroupA.schema o) → parsePatch GroupA.schema body headers query = .error .typeError) ∧
      ((∀ o ∈ out, Sets o → ¬ BadItems GroupA.schema o) → ∃ req is, parsePatch GroupA.schema body headers query = .ok (req, is)) :=
  C103_request GroupA.schema group_patch body headers query hq v ib hp hn

end Scim

/-! ### Concrete requests -/

namespace Scim.Examples.PatchTotality
local instance patchTotalityEnv : PyEnv := asciiEnv
open Scim.Examples.PatchOp PatchA

/-- An operation with a path that parses and does not lead to a single complex attribute. -/
theorem item_of_path {r : Schema} {x : Val} {s : Str} (p : PatchPath)
    (h1 : x.getItem { attr := pathWord } = .ok (.str s)) (h2 : PatchPath.parse s = .ok (some p, {}))
    (h3 : ((p.target r).any (fun a => a.isComplex && !a.info.multi)) = false)
    (h4 : ((p.target r).all Attr.easy) = true := by decide +kernel) : PatchItem r x where
  path := by
    intro s' hs
    rw [h1] at hs
    cases hs
    exact ⟨_, h2⟩
  word := by
    rintro ⟨q, hq, hn⟩
    rw [h1] at hq
    cases hq
    cases hn
  whole := by
    rintro ⟨q, hq, hn⟩
    rw [h1] at hq
    cases hq
    cases hn
  null := by
    rintro p' a ⟨s', is, hs, hp⟩ _ ht hc hm _
    rw [h1] at hs
    cases hs
    rw [h2] at hp
    cases hp
    rw [ht] at h3
    simp [hc, hm] at h3
  handled := by
    rintro p' a v ⟨s', is, hs, hp⟩ _ ht _
    rw [h1] at hs
    cases hs
    rw [h2] at hp
    cases hp
    rw [ht] at h4
    exact handles_of_easy a h4 v

/-- An `add` without path. -/
theorem item_of_object {r : Schema} {x : Val} {kvs : List (Str × Val)}
    (h1 : x.getItem { attr := pathWord } = .ok .missing) (h2 : x.getItem { attr := opWord } = .ok (.str addWord))
    (h3 : x.getItem { attr := valWord } = .ok (Val.dict kvs).toCont) (h4 : Ordinary r kvs) : PatchItem r x where
  path := by
    intro s' hs
    rw [h1] at hs
    cases hs
  word := by
    intro _ o ho
    rw [h2] at ho
    cases ho
    exact ⟨rfl, fun _ _ _ => .inl h2⟩
  whole := fun _ _ => ⟨kvs, h3, h4⟩
  null := by
    rintro p' a ⟨s', is, hs, hp⟩
    rw [h1] at hs
    cases hs
  handled := by
    rintro p' a v ⟨s', is, hs, hp⟩
    rw [h1] at hs
    cases hs

/-- The operations of a request about a group. -/
def groupOps : List Val :=
  [operation [("op", txt "add"), ("path", txt "members"), ("value", .list [.dict [("value".toList, txt "7")]])],
   operation [("op", txt "add"), ("value", .dict [("displayName".toList, txt "Team")])],
   operation [("op", txt "remove"), ("path", txt "members[value eq \"7\"]")],
   operation [("op", txt "replace"), ("path", txt "id"), ("value", .null)],
   txt "nonsense"]

def groupDoc : List (Str × Val) := [("schemas".toList, .list [.str PatchA.urn]), ("Operations".toList, .list groupOps)]

/-- The path and the value of an operation, as the examples need them. -/
def pathOf (s : String) : PatchPath := match PatchPath.parse s.toList with
  | .ok (some p, _) => p
  | _ => ⟨{}, none, none⟩

theorem groupDoc_ordinary : Ordinary PatchA.schema groupDoc := by
  refine ⟨?_, ?_, ?_, handlesAll_of_easy _ (by decide +kernel) _⟩
  · simp only [groupDoc, groupOps, operation, List.map, Val.Tame, TamePairs, TameList, txt, Val.str, Val.null]
    repeat' apply And.intro
    all_goals first | trivial | decide +kernel
  · have h : groupDoc.all (fun p => PatchA.schema.schemas.all (fun u => !(lower p.1 == lower u) || p.2.isDict)) = true := by
      decide +kernel
    intro k v hm u hu e
    have := List.all_eq_true.mp (List.all_eq_true.mp h (k, v) hm) u hu
    simpa [e] using this
  · intro x hx
    have h : (Val.dict groupDoc).toCont.getItem { schema := PatchA.schema.urn, attr := "schemas".toList } =
        .ok (.list [.str PatchA.urn]) := by decide +kernel
    rw [h] at hx
    cases hx
    intro xs e
    cases e
    exact ⟨[PatchA.urn], rfl⟩

theorem group_value : Ordinary GroupA.schema [("displayName".toList, txt "Team")] := by
  refine ⟨?_, ?_, ?_, handlesAll_of_easy _ (by decide +kernel) _⟩
  · simp only [Val.Tame, TamePairs, txt, Val.str]
    refine ⟨by decide +kernel, by decide +kernel, ?_⟩
    decide +kernel
  · have h : [("displayName".toList, txt "Team")].all
        (fun p => GroupA.schema.schemas.all (fun u => !(lower p.1 == lower u) || p.2.isDict)) = true := by
      decide +kernel
    intro k v hm u hu e
    have := List.all_eq_true.mp (List.all_eq_true.mp h (k, v) hm) u hu
    simpa [e] using this
  · intro x hx
    have h : (Val.dict [("displayName".toList, txt "Team")]).toCont.getItem { schema := GroupA.schema.urn, attr := "schemas".toList } =
        .ok .missing := by decide +kernel
    rw [h] at hx
    cases hx
    intro xs e
    cases e

/-- The hypotheses of `C103_group` are met. -/
theorem groupDoc_doc : PatchDoc GroupA.schema groupDoc where
  ordinary := groupDoc_ordinary
  given := ⟨.list (groupOps.map convVal), by decide +kernel, rfl⟩
  items := by
    intro xs hx x hm hc
    have h : (Val.dict groupDoc).toCont.getItem { schema := PatchA.urn, attr := PatchA.opsWord } =
        .ok (.list (groupOps.map convVal)) := by decide +kernel
    unfold Val.Operations at hx
    rw [h] at hx
    cases hx
    simp only [groupOps, List.map, List.mem_cons, List.not_mem_nil, or_false] at hm
    rcases hm with rfl | rfl | rfl | rfl | rfl
    · exact item_of_path (s := "members".toList) (pathOf "members") (by decide +kernel) (by decide +kernel) (by decide +kernel)
    · exact item_of_object (kvs := [("displayName".toList, txt "Team")]) (by decide +kernel) (by decide +kernel) (by decide +kernel)
        group_value
    · exact item_of_path (s := "members[value eq \"7\"]".toList) (pathOf "members[value eq \"7\"]") (by decide +kernel)
        (by decide +kernel) (by decide +kernel)
    · exact item_of_path (s := "id".toList) (pathOf "id") (by decide +kernel) (by decide +kernel) (by decide +kernel)
    · cases hc

example : ∃ v is, PatchA.parse GroupA.schema (.dict groupDoc) = .ok (v, is) :=
  C103_group (.dict groupDoc) groupDoc_ordinary.tame (fun kvs e => by cases e; exact groupDoc_doc)

/-- The exception parsing a list of operations on users raises. -/
def parseRaised (xs : List Val) : Option PyErr :=
  match PatchA.parse userSchema (request xs) with
  | .ok _ => none
  | .error e => some e

/-- **C103** what is left out raises: neither `op` nor path, an `op` in other letters without path, an update
without path that is no object, and a single complex attribute with a read-only part set to null. -/
theorem C103_raises :
    parseRaised [operation [("value", .dict [("nickName".toList, txt "x")])]] = some .attributeError ∧
    parseRaised [operation [("op", txt "ADD"), ("value", .dict [("nickName".toList, txt "x")])]] = some .attributeError ∧
    parseRaised [operation [("op", txt "add"), ("value", txt "x")]] = some .typeError ∧
    parseRaised [operation [("op", txt "replace"), ("path", txt "manager"), ("value", .null)]] = some .typeError ∧
    parseRaised [operation [("op", txt "replace"), ("path", txt "name"), ("value", .null)]] = none := by
  decide +kernel

/-- What a PATCH endpoint makes of a list of operations on users: whether the document is accepted, and the exception. -/
def endpoint (xs : List Val) : Bool × Option PyErr :=
  ((match PatchA.parse userSchema (request xs) with
    | .ok (_, is) => !is.hasIssues
    | .error _ => false),
   match V.parsePatch userSchema (request xs) .null .null with
    | .ok _ => none
    | .error e => some e)

/-- Accepted documents, ... -/
example : endpoint [operation [("op", txt "add"), ("path", txt "emails"), ("value", .list [.dict [("value".toList, txt "a@b.c")]])],
    operation [("op", txt "replace"), ("value", .dict [("nickName".toList, txt "x")])]] = (true, none) := by decide +kernel

/-- ... one of which raises: the new value of a multi-valued complex attribute is null, with a path and without, ... -/
example : endpoint [operation [("op", txt "replace"), ("path", txt "emails"), ("value", .null)]] = (true, some .typeError) := by
  decide +kernel
example : endpoint [operation [("op", txt "replace"), ("value", .dict [("emails".toList, .null)])]] = (true, some .typeError) := by
  decide +kernel

/-- **C103** ... and documents with something to report, which are not reported but raise: an unknown target, a path that is
none, and a value that is no list for a path with a filter. -/
theorem C103_endpoint_raises :
    endpoint [operation [("op", txt "add"), ("path", txt "unknown"), ("value", txt "x")]] = (false, some .typeError) ∧
    endpoint [operation [("op", txt "remove"), ("path", txt "unknown")]] = (false, some .typeError) ∧
    endpoint [operation [("op", txt "add"), ("path", txt "["), ("value", txt "x")]] = (false, some .attributeError) ∧
    endpoint [operation [("op", txt "replace"), ("path", txt "emails[type eq \"work\"]"),
      ("value", .dict [("value".toList, txt "a@b.c")])]] = (false, some .typeError) ∧
    endpoint [operation [("op", txt "remove")]] = (false, none) := by
  decide +kernel

end Scim.Examples.PatchTotality
