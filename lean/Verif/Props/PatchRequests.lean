import Verif.Lemmas.PatchRequest
import Verif.Props.Bodies

/-! PATCH requests: C93. -/

namespace Scim
open Issues V
variable [PyEnv]

theorem parsePatch_split {r : Schema} {body headers query : Val} {req : Request} {is : Issues}
    (h : parsePatch r body headers query = .ok (req, is)) :
    ∃ q iq v ib, parseQuery query = .ok (q, iq) ∧ parseBody (PatchA.parse r) PatchA.schema.attrs body = .ok (v, ib) ∧
      req.headers = headers ∧ req.query = q ∧
      (((iq.merge ib).canProceed [bodyLoc ++ [.name PatchA.opsWord]] = false ∧ req.body = .null ∧ is = iq.merge ib) ∨
       ∃ vs ps ops, (iq.merge ib).canProceed [bodyLoc ++ [.name PatchA.opsWord]] = true ∧
        v.getItem (PatchA.subRep PatchA.valWord) = .ok (.list vs) ∧ v.getItem (PatchA.subRep PatchA.pathWord) = .ok (.list ps) ∧
        v.getItem (PatchA.subRep PatchA.opWord) = .ok (.list ops) ∧ patchLoop r 0 ops vs ps (iq.merge ib) = .ok is ∧
        req.body = if is.hasIssues then .null else v) := by
  unfold parsePatch at h
  split at h
  · cases h
  rename_i q iq hq
  split at h
  · cases h
  rename_i b is' hb
  cases h
  unfold parsePatchBody at hb
  split at hb
  · cases hb
  rename_i v ib hv
  simp only at hb
  refine ⟨q, iq, v, ib, hq, hv, rfl, rfl, ?_⟩
  split at hb
  · rename_i hc
    cases hb
    exact .inl ⟨by simpa using hc, rfl, rfl⟩
  · rename_i hc
    split at hb
    · rename_i vs ps ops h1 h2 h3
      split at hb
      · cases hb
      rename_i is2 hl
      have e2 : is2 = is := (Prod.mk.inj (Except.ok.inj hb)).2
      subst e2
      exact .inr ⟨vs, ps, ops, by simpa using hc, h1, h2, h3, hl, (Prod.mk.inj (Except.ok.inj hb)).1.symm⟩
    · cases hb
    · cases hb
    · cases hb
    · cases hb

/-- The lists read from an accepted body are those of its operations, and the paths are good. -/
theorem patch_lists {r : Schema} (hr : r.WF) (hsane : SaneAll r.attrs.all) {body v : Val} {ib : Issues}
    (hp : PatchA.parse r body = .ok (v, ib)) (hn : ib.hasIssues = false) {vs ps ops : List Val}
    (h1 : v.getItem (PatchA.subRep PatchA.valWord) = .ok (.list vs))
    (h2 : v.getItem (PatchA.subRep PatchA.pathWord) = .ok (.list ps))
    (h3 : v.getItem (PatchA.subRep PatchA.opWord) = .ok (.list ops)) :
    ∃ out, v.getItem { schema := PatchA.urn, attr := PatchA.opsWord } = .ok (.list out) ∧
      vs.length = out.length ∧ ps.length = out.length ∧ ops.length = out.length ∧
      (∀ (i : Nat) (o : Val), out[i]? = some o → ∃ x y z, vs[i]? = some x ∧ o.getItem { attr := PatchA.valWord } = .ok x ∧
        ps[i]? = some y ∧ o.getItem { attr := PatchA.pathWord } = .ok y ∧
        ops[i]? = some z ∧ o.getItem { attr := PatchA.opWord } = .ok z) ∧
      ∀ p ∈ ps, GoodPath r p := by
  obtain ⟨xs, out, hx, hlen, ho, hall⟩ := accepted_ops hr hsane hp hn
  obtain ⟨xs', hx', hdecl⟩ := C68_accepted r hr hsane body v ib hp hn
  have hxx : xs' = xs := by
    unfold Val.Operations at hx hx'
    rw [hx] at hx'; cases hx'; rfl
  subst hxx
  have hsub : ∀ w : Str, w ∈ [PatchA.opWord, PatchA.pathWord, PatchA.valWord] → ∀ ys,
      v.getItem (PatchA.subRep w) = .ok (.list ys) → getMap out { attr := w } = .ok ys := by
    intro w hw ys hy
    have hwn : w ≠ [] := by
      intro e; subst e; revert hw; decide
    have := getX_sub v { schema := PatchA.urn, attr := PatchA.opsWord } rfl out w hwn ho
    unfold Val.getItem PatchA.subRep at hy
    rw [this] at hy
    obtain ⟨ys', e, hg⟩ := getX_list (word_name hw) hy
    cases e
    exact hg
  have g1 := getMap_spec (hsub _ (by simp) _ h1)
  have g2 := getMap_spec (hsub _ (by simp) _ h2)
  have g3 := getMap_spec (hsub _ (by simp) _ h3)
  have hreads : ∀ (i : Nat) (o : Val), out[i]? = some o → ∃ x y z, vs[i]? = some x ∧ o.getItem { attr := PatchA.valWord } = .ok x ∧
        ps[i]? = some y ∧ o.getItem { attr := PatchA.pathWord } = .ok y ∧
        ops[i]? = some z ∧ o.getItem { attr := PatchA.opWord } = .ok z := by
    intro i o hi
    obtain ⟨x, a1, a2⟩ := g1.2 i o hi
    obtain ⟨y, b1, b2⟩ := g2.2 i o hi
    obtain ⟨z, c1, c2⟩ := g3.2 i o hi
    exact ⟨x, y, z, a1, a2, b1, b2, c1, c2⟩
  refine ⟨out, ho, g1.1, g2.1, g3.1, hreads, ?_⟩
  intro p hp
  obtain ⟨i, hi⟩ := List.getElem?_of_mem hp
  obtain ⟨hlt, -⟩ := List.getElem?_eq_some_iff.mp hi
  have hlt' : i < xs'.length := by rw [← hlen, ← g2.1]; exact hlt
  have hxi : xs'[i]? = some xs'[i] := List.getElem?_eq_getElem hlt'
  obtain ⟨o, t, path, value, b1, b2, b3, -, -⟩ := hall i _ hxi
  obtain ⟨-, y, -, -, -, hy, hyo, -, -⟩ := hreads i o b1
  rw [hi] at hy
  cases hy
  rw [parseOne_path b3] at hyo
  rintro pp rfl
  have hpath : path = .obj (.path pp) := by
    have := Except.ok.inj hyo
    cases path <;> simp [convVal] at this ⊢
    exact this
  subst hpath
  rcases b2.pth with ⟨-, c2⟩ | ⟨s, p', c1, c2, c3⟩
  · cases c2
  · cases c3
    exact ⟨fun o ho => parsed_filter c2 ho, hdecl _ (List.mem_of_getElem? hxi) pp ⟨s, _, c1, c2⟩⟩

/-- **C93** the body of a PATCH request is passed on exactly when there are no issues, and then it is what the parser
of patch requests makes of it, without issues. -/
theorem C93_withheld (r : Schema) (hr : r.WF) (hsane : SaneAll r.attrs.all) (body headers query : Val) (req : Request)
    (is : Issues) (h : parsePatch r body headers query = .ok (req, is)) :
    (req.body ≠ .null ↔ is.hasIssues = false) ∧ req.headers = headers ∧
      (is.hasIssues = false → ∃ ib, PatchA.parse r body = .ok (req.body, ib) ∧ ib.hasIssues = false) := by
  obtain ⟨q, iq, v, ib, hq, hb, hh, -, hc⟩ := parsePatch_split h
  rcases hc with ⟨hc, hnull, rfl⟩ | ⟨vs, ps, ops, hc, h1, h2, h3, hl, hbody⟩
  · have hi : (iq.merge ib).hasIssues = true := by
      rw [← Bool.not_eq_false]
      intro hn
      have hm := (hasIssues_merge_false _ _ _).mp hn
      rw [merge_noIssues _ _ hm.2, eq_empty_of_noIssues (parseQuery_wf hq) hm.1, canProceed_empty] at hc
      cases hc
    exact ⟨by simp [hnull, hi], hh, by simp [hi]⟩
  · have hacc : is.hasIssues = false → ∃ ib, PatchA.parse r body = .ok (v, ib) ∧ ib.hasIssues = false := by
      intro hn
      have hm := (hasIssues_merge_false _ _ _).mp (patchLoop_mono hl hn)
      obtain ⟨i1, i2, p1, p2, -⟩ := parseBody_clean hb hm.2
      exact ⟨i1, p1, p2⟩
    refine ⟨⟨fun hne => ?_, fun hn => ?_⟩, hh, fun hn => ?_⟩
    · rw [← Bool.not_eq_true]
      intro e
      rw [e] at hbody
      exact hne hbody
    · rw [hbody, hn]
      rintro (e : v = .null)
      subst e
      cases h1
    · rw [hbody, hn]
      exact hacc hn

/-- The place of an item of a new value in a request. -/
def itemPlace (i : Nat) (m : Loc) (k : Nat) : Loc :=
  [.name "body".toList, .name "Operations".toList, .idx i, .name "value".toList] ++ m ++ [.idx k]

/-- A part is missing from item `k` of the new items at `m` in operation `i`. -/
def MissingIn (r : Schema) (out : List Val) (i : Nat) (m : Loc) (k : Nat) (s : Attr) : Prop :=
  ∃ o a xs x, out[i]? = some o ∧ Sets o ∧ NewItems r o m a xs ∧ xs[k]? = some x ∧ a.Lacks s x

theorem patch_items (r : Schema) (hr : r.WF) (hsane : SaneAll r.attrs.all) (hs : ∀ a ∈ r.attrs.all, PlainSubs a.subs)
    (body headers query : Val) (req : Request) (is : Issues) (h : parsePatch r body headers query = .ok (req, is))
    (q : Val) (iq : Issues) (hq : parseQuery query = .ok (q, iq)) (hqn : iq.hasIssues = false)
    (v : Val) (ib ip : Issues) (hp : PatchA.parse r body = .ok (v, ib)) (hpn : ib.hasIssues = false)
    (hc : Checker.call {} v PatchA.schema.attrs .request = .ok ip) (hcn : ip.hasIssues = false) :
    is.WF ∧ ∃ out, v.getItem { schema := PatchA.urn, attr := PatchA.opsWord } = .ok (.list out) ∧
      (∀ l e, e ∈ is.errorsAt l → e = ⟨15, []⟩ ∧ ∃ i m k s, MissingIn r out i m k s ∧ l = itemPlace i m k ++ [.name s.rep.attr]) ∧
      (∀ i m k s, MissingIn r out i m k s → ∃ l e, e ∈ is.errorsAt (itemPlace i m k ++ l)) := by
  obtain ⟨q', iq', v', ib', hq', hb, -, -, hcase⟩ := parsePatch_split h
  rw [hq] at hq'
  cases hq'
  obtain ⟨i1, i2, p1, rfl, hw2, hck⟩ := parseBody_split hb
  rw [hp] at p1
  cases p1
  rw [merge_empty_clean _ hpn, canProceed_empty] at hck
  have hck : Checker.call {} v PatchA.schema.attrs .request = .ok i2 := by
    rcases hck with ⟨-, h⟩ | ⟨h, -⟩
    · exact h
    · cases h
  rw [hc] at hck
  cases hck
  have hstart : iq.merge ((Issues.empty.merge ib bodyLoc).merge ip bodyLoc) = {} := by
    rw [merge_noIssues _ _ hcn, merge_empty_clean _ hpn]
    rw [merge_noIssues _ _ (by rfl), eq_empty_of_noIssues (parseQuery_wf hq) hqn]
  rw [hstart] at hcase
  rcases hcase with ⟨hf, -⟩ | ⟨vs, ps, ops, -, h1, h2, h3, hl, -⟩
  · rw [canProceed_empty] at hf; cases hf
  obtain ⟨out, ho, l1, l2, l3, hreads, hgood⟩ := patch_lists hr hsane hp hpn h1 h2 h3
  have hadds := patchLoop_adds hs hgood WF.empty hl
  -- the two descriptions of what is missing agree
  have hiff : ∀ p q e, (∃ (k : Nat) (op v pa : Val), ops[k]? = some op ∧ vs[k]? = some v ∧ ps[k]? = some pa ∧
      OpMissing r op v pa (bodyLoc ++ [.name PatchA.opsWord, .idx (0 + k), .name PatchA.valWord]) p q e) ↔
      e = ⟨15, []⟩ ∧ ∃ i m k s, MissingIn r out i m k s ∧ p = itemPlace i m k ∧ q = [.name s.rep.attr] := by
    intro p q e
    constructor
    · rintro ⟨i, op, val, pa, g1, g2, g3, hrem, hm⟩
      obtain ⟨hlt, -⟩ := List.getElem?_eq_some_iff.mp g1
      have hoi : out[i]? = some out[i] := List.getElem?_eq_getElem (by rw [← l3]; exact hlt)
      obtain ⟨x, y, z, c1, c2, c3, c4, c5, c6⟩ := hreads i _ hoi
      rw [g2] at c1; cases c1
      rw [g3] at c3; cases c3
      rw [g1] at c5; cases c5
      rcases hm with ⟨hno, a, ha, w, hw, xs, k, x, s, hmp, rfl, hk, hlack, rfl, rfl, rfl⟩ |
        ⟨pp, a, rfl, hst, xs, k, x, s, hmp, rfl, hk, hlack, rfl, rfl, rfl⟩
      · refine ⟨rfl, i, a.rep.loc, k, s, ⟨_, a, xs, x, hoi, ⟨op, c6, hrem⟩, .object c4 hno c2 ha hmp hw, hk, hlack⟩, ?_, rfl⟩
        unfold itemPlace
        rw [Nat.zero_add]
        rfl
      · refine ⟨rfl, i, [], k, s, ⟨_, a, xs, x, hoi, ⟨op, c6, hrem⟩, .path c4 hst hmp c2, hk, hlack⟩, ?_, rfl⟩
        unfold itemPlace
        rw [Nat.zero_add]
        rfl
    · rintro ⟨rfl, i, m, k, s, ⟨o, a, xs, x, hoi, ⟨t, ht, hrem⟩, hnew, hk, hlack⟩, rfl, rfl⟩
      obtain ⟨x', y, z, c1, c2, c3, c4, c5, c6⟩ := hreads i _ hoi
      rw [ht] at c6; cases c6
      refine ⟨i, t, x', y, c5, c1, c3, hrem, ?_⟩
      rw [Nat.zero_add]
      cases hnew with
      | path d1 d2 d3 d4 =>
        rw [d1] at c4; cases c4
        rw [d4] at c2; cases c2
        exact .inr ⟨_, a, rfl, d2, xs, k, x, s, d3, rfl, hk, hlack, rfl, rfl, rfl⟩
      | object d1 d2 d3 d4 d5 d6 =>
        rw [d1] at c4; cases c4
        rw [d3] at c2; cases c2
        exact .inl ⟨d2, a, d4, _, d6, xs, k, x, s, d5, rfl, hk, hlack, rfl, rfl, rfl⟩
  refine ⟨hadds.wf, out, ho, ?_, ?_⟩
  · intro l e he
    rcases hadds.new l e he with he | ⟨p, q, rfl, hP⟩
    · cases he
    · obtain ⟨e1, i, m, k, s, hm, rfl, rfl⟩ := (hiff p q e).mp hP
      exact ⟨e1, i, m, k, s, hm, rfl⟩
  · intro i m k s hm
    exact hadds.full _ _ _ ((hiff _ _ _).mpr ⟨rfl, i, m, k, s, hm, rfl, rfl⟩)

/-- **C93** when nothing else is wrong with a PATCH request, the issues are exactly about new items that lack a
required part which is not issued by the server: nothing else is reported, "missing" is reported at the part, and
something is reported for each such item. -/
theorem C93_items (r : Schema) (hr : r.WF) (hsane : SaneAll r.attrs.all) (hs : ∀ a ∈ r.attrs.all, PlainSubs a.subs)
    (body headers query : Val) (req : Request) (is : Issues) (h : parsePatch r body headers query = .ok (req, is))
    (q : Val) (iq : Issues) (hq : parseQuery query = .ok (q, iq)) (hqn : iq.hasIssues = false)
    (v : Val) (ib ip : Issues) (hp : PatchA.parse r body = .ok (v, ib)) (hpn : ib.hasIssues = false)
    (hc : Checker.call {} v PatchA.schema.attrs .request = .ok ip) (hcn : ip.hasIssues = false) :
    ∃ out, v.getItem { schema := PatchA.urn, attr := PatchA.opsWord } = .ok (.list out) ∧
      (∀ l e, e ∈ is.errorsAt l → e = ⟨15, []⟩ ∧ ∃ i m k s, MissingIn r out i m k s ∧ l = itemPlace i m k ++ [.name s.rep.attr]) ∧
      (∀ i m k s, MissingIn r out i m k s → ∃ l e, e ∈ is.errorsAt (itemPlace i m k ++ l)) :=
  (patch_items r hr hsane hs body headers query req is h q iq hq hqn v ib ip hp hpn hc hcn).2

/-- **C93** so a PATCH request is accepted exactly when the query string is fine, the parser of patch requests finds
nothing wrong, nothing required is missing from the request itself, and no new item lacks a required part. -/
theorem C93_accepted (r : Schema) (hr : r.WF) (hsane : SaneAll r.attrs.all) (hs : ∀ a ∈ r.attrs.all, PlainSubs a.subs)
    (body headers query : Val) (req : Request) (is : Issues) (h : parsePatch r body headers query = .ok (req, is)) :
    is.hasIssues = false ↔
      (∃ q iq, parseQuery query = .ok (q, iq) ∧ iq.hasIssues = false) ∧
      ∃ v ib ip out, PatchA.parse r body = .ok (v, ib) ∧ ib.hasIssues = false ∧
        Checker.call {} v PatchA.schema.attrs .request = .ok ip ∧ ip.hasIssues = false ∧
        v.getItem { schema := PatchA.urn, attr := PatchA.opsWord } = .ok (.list out) ∧
        ∀ o ∈ out, Sets o → ∀ m a xs, NewItems r o m a xs → ∀ x ∈ xs, ∀ s, ¬ a.Lacks s x := by
  constructor
  · intro hn
    obtain ⟨q, iq, v, ib, hq, hb, -, -, hcase⟩ := parsePatch_split h
    have hm : iq.hasIssues = false ∧ ib.hasIssues = false := by
      rcases hcase with ⟨-, -, rfl⟩ | ⟨vs, ps, ops, -, -, -, -, hl, -⟩
      · exact (hasIssues_merge_false _ _ _).mp hn
      · exact (hasIssues_merge_false _ _ _).mp (patchLoop_mono hl hn)
    obtain ⟨i1, i2, p1, p2, p3, p4⟩ := parseBody_clean hb hm.2
    obtain ⟨out, ho, -, hfull⟩ := C93_items r hr hsane hs body headers query req is h q iq hq hm.1 v i1 i2 p1 p2 p3 p4
    refine ⟨⟨q, iq, hq, hm.1⟩, v, i1, i2, out, p1, p2, p3, p4, ho, ?_⟩
    intro o hom hset m a xs hnew x hx s hlack
    obtain ⟨i, hi⟩ := List.getElem?_of_mem hom
    obtain ⟨k, hk⟩ := List.getElem?_of_mem hx
    obtain ⟨l, e, he⟩ := hfull i m k s ⟨o, a, xs, x, hi, hset, hnew, hk, hlack⟩
    rw [show is.errorsAt (itemPlace i m k ++ l) = [] by unfold errorsAt; rw [(hasIssues_false_iff is).mp hn]; rfl] at he
    cases he
  · rintro ⟨⟨q, iq, hq, hqn⟩, v, ib, ip, out, p1, p2, p3, p4, ho, hall⟩
    obtain ⟨hw, out', ho', hnew, -⟩ := patch_items r hr hsane hs body headers query req is h q iq hq hqn v ib ip p1 p2 p3 p4
    rw [ho] at ho'
    cases ho'
    rw [← Bool.not_eq_true]
    intro hi
    obtain ⟨l, hl⟩ := (hasIssues_iff_errors hw).mp hi
    obtain ⟨e, he⟩ := List.exists_mem_of_ne_nil _ hl
    obtain ⟨-, i, m, k, s, ⟨o, a, xs, x, h1, h2, h3, h4, h5⟩, -⟩ := hnew l e he
    exact hall o (List.mem_of_getElem? h1) h2 m a xs h3 x (List.mem_of_getElem? h4) s h5

/-! ### The assets -/

/-- How many attributes the sub-attributes have. -/
def depths (as : List Attr) : List Nat := as.flatMap (fun d => d.subs.map (fun s => s.subs.length))

theorem plain_bind {as : List Attr} (h : Declarations as) {ns : List Nat} (hn : depths as = ns) (hz : ns.all (· == 0) = true)
    (urn : Str) (ext : Bool) : ∀ a ∈ as.flatMap (bindWithSubs urn ext), PlainSubs a.subs := by
  intro a ha
  rw [List.mem_flatMap] at ha
  obtain ⟨d, hd, hm⟩ := ha
  have hb : ∀ (x : Attr) r, (bindAttr x r).subs = x.subs := by intro x r; cases x <;> rfl
  rcases mem_bindWithSubs.mp hm with rfl | ⟨s, hs, rfl⟩
  · rw [hb]; exact h.subs d hd
  · rw [hb]
    subst hn
    rw [List.all_eq_true] at hz
    have := hz s.subs.length (List.mem_flatMap.mpr ⟨d, hd, List.mem_map_of_mem hs⟩)
    have : s.subs = [] := by simpa using this
    rw [this]
    exact ⟨by simp, by simp, by simp⟩

theorem user_plain : ∀ a ∈ userSchema.attrs.all, PlainSubs a.subs := by
  rw [user_all, user_core_all]
  intro a ha
  rcases List.mem_append.mp ha with h | h
  · exact plain_bind user_decl (ns := @depths (@schemasAttr asciiEnv :: @idAttr asciiEnv :: @externalIdAttr asciiEnv ::
      @metaAttr asciiEnv :: @UserA.attrs asciiEnv)) rfl (by decide +kernel) _ _ a h
  · exact plain_bind enterprise_decl (ns := depths (@UserA.enterprise asciiEnv).attrs.all) rfl (by decide +kernel) _ _ a h

theorem group_plain : ∀ a ∈ GroupA.schema.attrs.all, PlainSubs a.subs := by
  rw [group_all]
  exact plain_bind group_decl (ns := depths (@schemasAttr asciiEnv :: @idAttr asciiEnv :: @externalIdAttr asciiEnv ::
      @metaAttr asciiEnv :: [@GroupA.displayNameA asciiEnv, @GroupA.membersA asciiEnv])) rfl (by decide +kernel) _ _

/-- For each sub-attribute, whether it is a required part of a list of objects. -/
def demands (as : List Attr) : List Bool :=
  as.flatMap (fun d => d.subs.map (fun s => d.isComplex && d.info.multi && s.info.required))

theorem noDemands_bind {as : List Attr} {ds : List Nat} (hd : depths as = ds) (hz : ds.all (· == 0) = true) {ns : List Bool}
    (hn : demands as = ns) (hf : ns.all (!·) = true) (urn : Str) (ext : Bool) :
    ∀ a ∈ as.flatMap (bindWithSubs urn ext), a.ManyParts → ∀ s, ¬ a.Demands s := by
  rintro a ha ⟨hm1, hm2⟩ s ⟨hs, hreq, -⟩
  subst hd hn
  rw [List.all_eq_true] at hz hf
  rw [List.mem_flatMap] at ha
  obtain ⟨d, hd, hm⟩ := ha
  have hb : ∀ (x : Attr) r, (bindAttr x r).subs = x.subs ∧ (bindAttr x r).isComplex = x.isComplex ∧
      (bindAttr x r).info.multi = x.info.multi := by intro x r; cases x <;> exact ⟨rfl, rfl, rfl⟩
  rcases mem_bindWithSubs.mp hm with rfl | ⟨t, ht, rfl⟩
  · rw [(hb _ _).1] at hs
    rw [(hb _ _).2.1] at hm1
    rw [(hb _ _).2.2] at hm2
    have := hf (d.isComplex && d.info.multi && s.info.required) (List.mem_flatMap.mpr ⟨d, hd, List.mem_map_of_mem hs⟩)
    simp [hm1, hm2, hreq] at this
  · rw [(hb _ _).1] at hs
    have := hz t.subs.length (List.mem_flatMap.mpr ⟨d, hd, List.mem_map_of_mem ht⟩)
    have : t.subs = [] := by simpa using this
    rw [this] at hs
    cases hs

theorem user_noDemands : ∀ a ∈ userSchema.attrs.all, a.ManyParts → ∀ s, ¬ a.Demands s := by
  rw [user_all, user_core_all]
  intro a ha
  rcases List.mem_append.mp ha with h | h
  · exact noDemands_bind (as := schemasAttr :: idAttr :: externalIdAttr :: metaAttr :: UserA.attrs) (ds := @depths (@schemasAttr asciiEnv :: @idAttr asciiEnv :: @externalIdAttr asciiEnv ::
      @metaAttr asciiEnv :: @UserA.attrs asciiEnv)) rfl (by decide +kernel) (ns := @demands (@schemasAttr asciiEnv :: @idAttr asciiEnv :: @externalIdAttr asciiEnv ::
      @metaAttr asciiEnv :: @UserA.attrs asciiEnv)) rfl (by decide +kernel) _ _ a h
  · exact noDemands_bind (as := UserA.enterprise.attrs.all) (ds := depths (@UserA.enterprise asciiEnv).attrs.all) rfl (by decide +kernel)
      (ns := demands (@UserA.enterprise asciiEnv).attrs.all) rfl (by decide +kernel) _ _ a h

theorem newItems_attr {r : Schema} {o : Val} {m : Loc} {a : Attr} {xs : List Val} (h : NewItems r o m a xs) :
    a ∈ r.attrs.all ∧ a.ManyParts := by
  cases h with
  | path h1 h2 h3 h4 => exact ⟨stands_mem h2, h3⟩
  | object h1 h2 h3 h4 h5 h6 => exact ⟨h4, h5⟩

theorem group_noDemands : ∀ a ∈ GroupA.schema.attrs.all, a.ManyParts → ∀ s, ¬ a.Demands s := by
  rw [group_all]
  exact noDemands_bind (as := schemasAttr :: idAttr :: externalIdAttr :: metaAttr :: [GroupA.displayNameA, GroupA.membersA])
    (ds := depths (@schemasAttr asciiEnv :: @idAttr asciiEnv :: @externalIdAttr asciiEnv ::
      @metaAttr asciiEnv :: [@GroupA.displayNameA asciiEnv, @GroupA.membersA asciiEnv])) rfl (by decide +kernel)
    (ns := demands (@schemasAttr asciiEnv :: @idAttr asciiEnv :: @externalIdAttr asciiEnv ::
      @metaAttr asciiEnv :: [@GroupA.displayNameA asciiEnv, @GroupA.membersA asciiEnv])) rfl (by decide +kernel) _ _

theorem noDemands_accepted {r : Schema} (hr : r.WF) (hsane : SaneAll r.attrs.all) (hp : ∀ a ∈ r.attrs.all, PlainSubs a.subs)
    (hd : ∀ a ∈ r.attrs.all, a.ManyParts → ∀ s, ¬ a.Demands s) (body headers query : Val) (req : Request) (is : Issues)
    (h : parsePatch r body headers query = .ok (req, is)) :
    is.hasIssues = false ↔
      (∃ q iq, parseQuery query = .ok (q, iq) ∧ iq.hasIssues = false) ∧
      ∃ v ib ip, PatchA.parse r body = .ok (v, ib) ∧ ib.hasIssues = false ∧
        Checker.call {} v PatchA.schema.attrs .request = .ok ip ∧ ip.hasIssues = false := by
  rw [C93_accepted r hr hsane hp body headers query req is h]
  constructor
  · rintro ⟨hq, v, ib, ip, out, h1, h2, h3, h4, -⟩
    exact ⟨hq, v, ib, ip, h1, h2, h3, h4⟩
  · rintro ⟨hq, v, ib, ip, h1, h2, h3, h4⟩
    obtain ⟨xs, out, -, -, ho, -⟩ := accepted_ops hr hsane h1 h2
    refine ⟨hq, v, ib, ip, out, h1, h2, h3, h4, ho, ?_⟩
    rintro o - - m a xs hnew x - s ⟨hd', -⟩
    obtain ⟨g1, g2⟩ := newItems_attr hnew
    exact hd a g1 g2 s hd'

/-- **C93** for users the last condition always holds, as no part of their lists of objects is required: a request is
accepted exactly when the query string is fine, the parser finds nothing wrong and nothing required is missing from the
request itself. -/
theorem C93_user (body headers query : Val) (req : Request) (is : Issues)
    (h : parsePatch userSchema body headers query = .ok (req, is)) :
    is.hasIssues = false ↔
      (∃ q iq, parseQuery query = .ok (q, iq) ∧ iq.hasIssues = false) ∧
      ∃ v ib ip, PatchA.parse userSchema body = .ok (v, ib) ∧ ib.hasIssues = false ∧
        Checker.call {} v PatchA.schema.attrs .request = .ok ip ∧ ip.hasIssues = false :=
  noDemands_accepted user_wf user_sane user_plain user_noDemands body headers query req is h

attribute [local irreducible] GroupA.schema in
/-- **C93** and for groups. -/
theorem C93_group (body headers query : Val) (req : Request) (is : Issues)
    (h : parsePatch GroupA.schema body headers query = .ok (req, is)) :
    is.hasIssues = false ↔
      (∃ q iq, parseQuery query = .ok (q, iq) ∧ iq.hasIssues = false) ∧
      ∃ v ib ip, PatchA.parse GroupA.schema body = .ok (v, ib) ∧ ib.hasIssues = false ∧
        Checker.call {} v PatchA.schema.attrs .request = .ok ip ∧ ip.hasIssues = false :=
  noDemands_accepted group_wf group_sane group_plain group_noDemands body headers query req is h

end Scim

/-! ### Examples -/

namespace Scim.Examples.PatchRequests
local instance patchRequestsEnv : PyEnv := asciiEnv
open Scim.Examples.PatchOp

/-- A schema with members, which have a name to be given and a number issued by the server. -/
def teamAttrs : List Attr :=
  [mkComplex { rep := { attr := "members".toList }, type := .complex, multi := true }
     [mkAttr { rep := { attr := "name".toList }, type := .string, required := true },
      mkAttr { rep := { attr := "number".toList }, type := .string, required := true, issuer := .server },
      mkAttr { rep := { attr := "role".toList }, type := .string }]]

def team : Schema := mkSchema "urn:team".toList teamAttrs

theorem team_decl : Declarations (schemasAttr :: teamAttrs) := declarations_of rfl (by decide +kernel)

theorem team_wf : team.WF :=
  mkSchema_wf team_decl (by decide +kernel)
    (fun d hd => noClash_of (attrs := schemasAttr :: teamAttrs) rfl (by decide +kernel) (urns := ["urn:team".toList]) (by decide +kernel) d hd _ (by simp))

theorem team_sane : SaneAll team.attrs.all := by
  have hp := team_decl.subs
  unfold teamAttrs at hp
  simp only [List.mem_cons, forall_eq_or_imp] at hp
  obtain ⟨_, h1, _⟩ := hp
  have hg : Good (schemasAttr :: teamAttrs) := by
    refine good_cons (good_simple rfl rfl) (good_cons (good_complex rfl rfl h1 ?_) good_nil)
    all_goals good_list
  rw [show team.attrs.all = _ from ofList_all (keys_of_lnames (bind_facts (urn := "urn:team".toList) (ext := false) team_decl).2)]
  exact (good_bind hg _ _).sane

/-- A member. -/
def member (fields : List (String × String)) : Val := .dict (fields.map (fun f => (f.1.toList, txt f.2)))

/-- Adding members with a path, and without. -/
def addPath (xs : List Val) : Val := operation [("op", txt "add"), ("path", txt "members"), ("value", .list xs)]
def addObject (xs : List Val) : Val := operation [("op", txt "add"), ("value", .dict [("members".toList, .list xs)])]

/-- What is reported for a request at a place, and whether the body is passed on; nothing if it raises. -/
def outcome (x : Val) (l : Loc) : Option (List Nat × Bool) :=
  match V.parsePatch team (request [x]) .null .null with
  | .ok (req, is) => some (is.codesAt l, !req.body.isNone)
  | .error _ => none

/-- A complete item is accepted, with and without path, ... -/
example : outcome (addPath [member [("name", "a")]]) [] = some ([], true) := by decide +kernel
example : outcome (addObject [member [("name", "a")], member [("name", "b"), ("role", "c")]]) [] = some ([], true) := by
  decide +kernel

/-- ... an incomplete one is reported at the missing part. -/
example : outcome (addPath [member [("name", "a")], member [("role", "b")]])
    (itemPlace 0 [] 1 ++ [.name "name".toList]) = some ([15], false) := by decide +kernel
example : outcome (addObject [member [("role", "b")]])
    (itemPlace 0 [.name "members".toList] 0 ++ [.name "name".toList]) = some ([15], false) := by decide +kernel

/-- The hypotheses of `C93_accepted` hold for this schema. -/
example (body headers query : Val) (req : Request) (is : Issues) (h : V.parsePatch team body headers query = .ok (req, is)) :=
  C93_accepted team team_wf team_sane
    (by
      rw [show team.attrs.all = _ from ofList_all (keys_of_lnames (bind_facts (urn := "urn:team".toList) (ext := false) team_decl).2)]
      exact plain_bind team_decl rfl (by decide +kernel) _ _) body headers query req is h

/-- The exception a request with this operation raises. -/
def raised (x : Val) : Option PyErr :=
  match V.parsePatch team (request [x]) .null .null with
  | .ok _ => none
  | .error e => some e

/-- **C93** malformed new values are not reported: the check raises when the value of such an attribute is not a list
(for instance null), because the issues of an operation do not keep it from being looked at.  So does a malformed path. -/
theorem C93_raises :
    raised (operation [("op", txt "add"), ("path", txt "members"), ("value", txt "x")]) = some .typeError ∧
    raised (operation [("op", txt "add"), ("value", .dict [("members".toList, txt "x")])]) = some .typeError ∧
    raised (operation [("op", txt "add"), ("value", .dict [("members".toList, .null)])]) = some .typeError ∧
    raised (operation [("op", txt "add"), ("value", txt "x")]) = some .typeError ∧
    raised (operation [("op", txt "add"), ("path", txt "["), ("value", txt "x")]) = some .attributeError := by
  decide +kernel

/-- A value without path for a multi-valued attribute with a read-only part is always rejected, even if it does not set
that part. -/
example : codes [operation [("op", txt "add"), ("value", .dict [("mails".toList, .list [.dict [("value".toList, txt "x")]])])]]
    [.name PatchA.opsWord, .idx 0, .name PatchA.valWord, .name "mails".toList, .name "since".toList] = some [304] := by
  decide +kernel

end Scim.Examples.PatchRequests
