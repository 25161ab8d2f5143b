import Verif.Lemmas.Codes
import Verif.Lemmas.Deletion
import Verif.Lemmas.Lists
import Verif.Props.Responses
import Verif.Props.Requests

/-! Bodies of PUT and POST requests: C71, C72; the vocabulary of errors: C86. -/

namespace Scim
open Issues V
variable [PyEnv]

/-! ### C86 -/

/-- **C86** parsing an object reports only errors of syntax (1, 3, 8), type (2), reserved text (7), several primary
items (9), canonical values (14) and the list of schemas (27–29). -/
theorem C86_codes (s : Schema) (hs : StandardAll .parse s.attrs.top) (data r : Val) (is : Issues)
    (hd : data.isNone = false) (h : s.parse data = .ok (r, is)) (l : Loc) (c : Nat) (hc : c ∈ is.codesAt l) :
    c ∈ [1, 2, 3, 7, 8, 9, 14, 27, 28, 29] := by
  obtain ⟨e, he, rfl⟩ := (mem_codesAt _ _ _).mp hc
  exact (schema_process_only hs hd h).only l e he

/-- **C86** writing an object reports nothing else but a resource type that is not the schema's (17). -/
theorem C86_dump_codes (s : Schema) (hs : StandardAll .dump s.attrs.top) (data r : Val) (is : Issues)
    (hd : data.isNone = false) (h : s.dump data = .ok (r, is)) (l : Loc) (c : Nat) (hc : c ∈ is.codesAt l) :
    c ∈ [1, 2, 3, 7, 8, 9, 14, 27, 28, 29] ∨
      c = 17 ∧ l = [.name "meta".toList, .name "resourceType".toList] ∧ s.isResource = true := by
  obtain ⟨e, he, rfl⟩ := (mem_codesAt _ _ _).mp hc
  unfold Schema.dump at h
  split at h
  · cases h
  · rename_i r0 is0 hp
    have hold : e ∈ is0.errorsAt l → e.code ∈ [1, 2, 3, 7, 8, 9, 14, 27, 28, 29] :=
      (schema_process_only hs hd hp).only l e
    repeat' split at h
    all_goals first
      | (cases h; done)
      | (cases h; exact .inl (hold he))
      | skip
    rename_i hres _ _ _ _ _ _ _ _ _ _ is2 hv
    cases h
    unfold validateResourceType at hv
    split at hv
    · cases hv
    · cases hv
      split at he
      · rw [merge_noIssues _ _ rfl] at he
        exact .inl (hold he)
      · rw [errorsAt_merge (WF.empty.add _ _ _), List.mem_append] at he
        rcases he with he | he
        · exact .inl (hold he)
        · rw [if_pos List.nil_prefix, List.length_nil, List.drop_zero, errorsAt_add] at he
          split at he
          · rename_i hl
            rw [errorsAt_empty, List.nil_append, List.mem_singleton] at he
            subst he
            exact .inr ⟨rfl, hl.symm, by simpa using hres⟩
          · cases he

/-! ### C72 -/

omit [PyEnv] in
theorem isNone_of_object {v : Val} (h : v.isCont = true ∨ v.isDict = true) : v.isNone = false := by
  cases v <;> simp [Val.isCont, Val.isDict] at h <;> rfl

theorem process_noErrors_nil {m : Mode} {s : Schema} (hs : s.WF) (hsane : SaneAll s.attrs.top) {data r : Val}
    {is : Issues} (hobj : data.isCont = true ∨ data.isDict = true) (h : s.process m data = .ok (r, is)) :
    is.errorsAt [] = [] := by
  by_cases he : is.errorsAt [] = []
  · exact he
  · obtain ⟨a, _, x, y, i, l', _, _, _, hl, _⟩ := (C82_locations m s hs hsane data r is hobj h).2 [] (by simp) he
    unfold Attr.reportLoc at hl
    split at hl <;> simp at hl

/-- The presence check is made for every object. -/
theorem body_canProceed {m : Mode} {s : Schema} (hs : s.WF) (hsane : SaneAll s.attrs.top) {data r : Val}
    {is : Issues} (hobj : data.isCont = true ∨ data.isDict = true) (h : s.process m data = .ok (r, is)) :
    (Issues.empty.merge is bodyLoc).canProceed [bodyLoc] = true := by
  have hw := schema_process_wf hs hsane h
  refine canProceed_of_noErrors (WF.empty.merge hw _) ?_
  intro q hq
  show Issues.errorsAt (Issues.merge {} is bodyLoc) q = []
  rw [errorsAt_merge hw, errorsAt_empty, List.nil_append]
  split
  · rename_i hp
    have : q = bodyLoc := hq.eq_of_length (Nat.le_antisymm hq.length_le hp.length_le)
    subst this
    rw [List.drop_length]
    exact process_noErrors_nil hs hsane hobj h
  · rfl

theorem parseQuery_wf {query q : Val} {is : Issues} (h : parseQuery query = .ok (q, is)) : is.WF := by
  unfold parseQuery at h
  split at h
  · split at h
    · cases h
    · rename_i hp; cases h; exact WF.empty.merge (parseRequested_wf hp) _
  · cases h; exact WF.empty

/-- Issues of the query string are not under the body. -/
theorem parseQuery_errors {query q : Val} {is : Issues} (h : parseQuery query = .ok (q, is)) (l : Loc) :
    is.errorsAt (bodyLoc ++ l) = [] := by
  unfold parseQuery at h
  split at h
  · split at h
    · cases h
    · rename_i hp; cases h
      show Issues.errorsAt (Issues.merge {} _ queryLoc) _ = []
      rw [errorsAt_merge (parseRequested_wf hp), errorsAt_empty, List.nil_append, if_neg]
      rintro ⟨t, ht⟩
      have : queryLoc ++ t = bodyLoc ++ l := ht
      revert this
      unfold queryLoc bodyLoc
      intro this
      simp at this
  · cases h; rfl

theorem mem_serverRequired {s : Schema} (hs : s.WF) {a : Attr} (ha : a ∈ s.attrs.all) :
    Listed a.rep (serverRequired s.attrs.all) ↔ a.info.required = true ∧ a.info.issuer = .server := by
  unfold Listed serverRequired
  constructor
  · rintro ⟨x, hx, h1, h2, h3⟩
    obtain ⟨b, hb, rfl⟩ := List.mem_map.mp hx
    obtain ⟨hb, hc⟩ := List.mem_filter.mp hb
    have := h1 (hs.urnNe _ (hs.allSchema b hb)) (hs.urnNe _ (hs.allSchema a ha))
    have e : b = a := eq_of_map_nodup hs.names hb ha (by simp only [this, h2, h3])
    subst e
    simpa using hc
  · rintro ⟨h1, h2⟩
    refine ⟨a.rep, List.mem_map.mpr ⟨a, List.mem_filter.mpr ⟨ha, ?_⟩, rfl⟩, fun _ _ => rfl, rfl, rfl⟩
    simp [h1, h2]

/-- **C72** in a POST request, "missing" is reported at a place of the body exactly when a declared attribute
is found there empty which is required and not issued by the server. -/
theorem C72_missing_iff (s : Schema) (hs : s.WF) (hsane : SaneAll s.attrs.top) (hstd : StandardAll .parse s.attrs.top)
    (body headers query : Val) (req : Request) (is : Issues) (hobj : body.isCont = true ∨ body.isDict = true)
    (h : parsePost s body headers query = .ok (req, is)) (l : Loc) :
    15 ∈ is.codesAt ([.name "body".toList] ++ l) ↔
      ∃ b ib, s.parse body = .ok (b, ib) ∧
        ∃ a ∈ s.attrs.all, ∃ v, Observed s.attrs b a l v ∧ v.Empty ∧ a.info.required = true ∧
          a.info.issuer ≠ .server := by
  obtain ⟨q, iq, b, ib, hq, hb, rfl, -⟩ := parsePost_split h
  obtain ⟨is1, is2, hp, rfl, hw2, hcase⟩ := parseBody_split hb
  rw [body_canProceed hs hsane hobj hp] at hcase
  simp only [true_and, Bool.true_eq_false, false_and, or_false] at hcase
  have hw1 : is1.WF := schema_process_wf hs hsane hp
  have hm := C36_missing_iff { ignore := serverRequired s.attrs.all } (by simp) b s.attrs .request is2 hcase l
  have hbl : [LKey.name "body".toList] = bodyLoc := rfl
  rw [hbl, mem_codesAt_merge (((WF.empty.merge hw1 _).merge hw2 _)), mem_codesAt_merge hw2]
  have h0 : ¬ 15 ∈ iq.codesAt (bodyLoc ++ l) := by
    unfold Issues.codesAt; rw [parseQuery_errors hq]; simp
  have h1 : ¬ 15 ∈ (Issues.empty.merge is1 bodyLoc).codesAt (bodyLoc ++ l) := by
    rw [show Issues.empty = {} from rfl, mem_codesAt_merge hw1]
    rintro (h | ⟨_, h⟩)
    · simp [Issues.codesAt] at h
    · have := C86_codes s hstd body b is1 (isNone_of_object hobj) hp _ _ h
      simp at this
  simp only [List.length_nil, List.drop_zero, h0, h1, false_or, List.nil_prefix, true_and, List.prefix_append,
    List.drop_left, hm]
  constructor
  · rintro ⟨a, ha, v, ho, he, hr, hi⟩
    refine ⟨b, is1, hp, a, ha, v, ho, he, hr, ?_⟩
    rw [mem_serverRequired hs ha] at hi
    exact fun e => hi ⟨hr, e⟩
  · rintro ⟨b', ib', hp', a, ha, v, ho, he, hr, hi⟩
    rw [hp] at hp'; cases hp'
    refine ⟨a, ha, v, ho, he, hr, ?_⟩
    rw [mem_serverRequired hs ha]
    exact fun e => hi e.2

/-- **C72** in terms of the input: a required core attribute which the server does not issue is reported if the body
does not have it. -/
theorem C72_reported (s : Schema) (hs : s.WF) (hsane : SaneAll s.attrs.top) (hstd : StandardAll .parse s.attrs.top)
    (body headers query : Val) (req : Request) (is : Issues) (hobj : body.isCont = true ∨ body.isDict = true)
    (h : parsePost s body headers query = .ok (req, is)) (a : Attr) (ha : a ∈ s.attrs.top) (he : a.rep.ext = false)
    (hr : a.info.required = true) (hi : a.info.issuer ≠ .server) (hb : body.toCont.getItem a.rep = .ok .missing) :
    15 ∈ is.codesAt [.name "body".toList, .name a.rep.attr] := by
  obtain ⟨q, iq, b, ib, hq, hb', -⟩ := parsePost_split h
  obtain ⟨is1, -, hp, -⟩ := parseBody_split hb'
  obtain ⟨htr, -⟩ := process_spec hs (by simpa using hobj) hp
  exact (C72_missing_iff s hs hsane hstd body headers query req is hobj h [.name a.rep.attr]).mpr
    ⟨b, is1, hp, a, hs.top_all a ha, .missing, .top (hs.sub a ha) (htr.absent a ha he hb) rfl, .inr (.inr (.inr rfl)), hr, hi⟩

/-- **C72** nothing is asked for that the server issues: if everything required of the client is there, no
"missing" is reported for the body. -/
theorem C72_server_issued (s : Schema) (hs : s.WF) (hsane : SaneAll s.attrs.top) (hstd : StandardAll .parse s.attrs.top)
    (body headers query : Val) (req : Request) (is : Issues) (hobj : body.isCont = true ∨ body.isDict = true)
    (h : parsePost s body headers query = .ok (req, is))
    (hreq : ∀ a ∈ s.attrs.all, a.info.required = true → a.info.issuer = .server ∨
      ∀ b ib, s.parse body = .ok (b, ib) → ∀ l v, Observed s.attrs b a l v → ¬ v.Empty) (l : Loc) :
    15 ∉ is.codesAt ([.name "body".toList] ++ l) := by
  rw [C72_missing_iff s hs hsane hstd body headers query req is hobj h l]
  rintro ⟨b, ib, hp, a, ha, v, ho, he, hr, hi⟩
  rcases hreq a ha hr with h1 | h1
  · exact hi h1
  · exact h1 b ib hp l v ho he

/-! ### C71 -/

/-- An accepted PUT request: the body was parsed without issues, then read-only attributes were deleted. -/
theorem parsePut_accepted {s : Schema} {body headers query : Val} {req : Request} {is : Issues}
    (h : parsePut s body headers query = .ok (req, is)) (hn : is.hasIssues = false) :
    ∃ b ib, s.parse body = .ok (b, ib) ∧ ib.hasIssues = false ∧ (body.isCont || body.isDict) = true ∧
      dropReadOnly s.attrs.all b = .ok req.body := by
  obtain ⟨q, iq, b, ib, hq, hb, rfl, -, -, hcase⟩ := parsePut_split h
  rw [hn] at hcase
  simp only [Bool.false_eq_true, false_and, true_and, false_or] at hcase
  obtain ⟨is1, is2, hp, hn1, -⟩ := parseBody_clean hb ((hasIssues_merge_false _ _ _).mp hn).2
  exact ⟨b, is1, hp, hn1, (process_noIssues hp hn1).1, hcase⟩

/-- Nothing is stored for the attribute. -/
def NotStored (a : Attr) (b : Val) : Prop :=
  ∃ d lc, b = .cont d lc ∧
    ((aget (lower a.rep.schema) lc = none ∧ aget (lower a.rep.attr) lc = none) ∨
      ∃ k d' lc', aget (lower a.rep.schema) lc = some k ∧ aget k d = some (.cont d' lc') ∧ CInv d' lc' ∧
        aget (lower []) lc' = none ∧ aget (lower a.rep.attr) lc' = none)

theorem NotStored.get {a : Attr} {b : Val} (h : NotStored a b) : b.getItem a.rep = .ok .missing := by
  obtain ⟨d, lc, rfl, ⟨h1, h2⟩ | ⟨k, d', lc', h1, h2, h3, h4, h5⟩⟩ := h
  · rw [getItem_noKey h1]; simp only [h2]
  · simp only [Val.getItem, Val.getX, Bool.false_and, Bool.false_eq_true, if_false, h1, getAt_eq, h2, h4, h5]

theorem NotStored.del {s : Schema} (hs : s.WF) {a : Attr} (ha : a ∈ s.attrs.top) {x : Attr} (hx : x ∈ s.attrs.all)
    {b b' : Val} (hb : IsBody s b) (h : NotStored a b) (hd : b.delItem x.rep = .ok b') : NotStored a b' := by
  obtain ⟨d, lc, rfl, h⟩ := h
  obtain ⟨_, _, e, hi⟩ := hb
  cases e
  have hne : lower x.rep.attr ≠ lower a.rep.schema := hs.noClash x hx _ (hs.allSchema a (hs.top_all a ha))
  have hdel := delItem_cases hd
  obtain ⟨d1, lc1, rfl, hi1, hk1⟩ := hdel.inv hi.toCInv
  refine ⟨d1, lc1, rfl, ?_⟩
  rcases h with ⟨h1, h2⟩ | ⟨k, d', lc', h1, h2, h3, h4, h5⟩
  · exact .inl ⟨hk1 _ h1, hk1 _ h2⟩
  · right
    cases hdel with
    | @inner k1 v v' g1 g2 g3 =>
      by_cases e : k1 = k
      · subst e
        rw [h2] at g2; cases g2
        obtain ⟨d2, lc2, rfl, hi2, hk2⟩ := (delItem_cases (r := { attr := x.rep.attr, sub := x.rep.sub }) g3).inv h3
        exact ⟨k1, d2, lc2, h1, aget_aset_self _ _ _, hi2, hk2 _ h4, hk2 _ h5⟩
      · exact ⟨k, d', lc', h1, by rw [aget_aset_ne e]; exact h2, h3, h4, h5⟩
    | absent _ _ => exact ⟨k, d', lc', h1, h2, h3, h4, h5⟩
    | @top k1 g1 g2 g3 =>
      have : k1 ≠ k := by
        intro e'
        subst e'
        exact hne ((hi.sound _ _ g2).1.trans (hi.sound _ _ h1).1.symm)
      exact ⟨k, d', lc', by rw [aget_adel_ne hne]; exact h1, by rw [aget_adel_ne this]; exact h2, h3, h4, h5⟩
    | @sub k1 v v' g1 g2 _ g4 g5 =>
      have : k1 ≠ k := by
        intro e'
        subst e'
        exact hne ((hi.sound _ _ g2).1.trans (hi.sound _ _ h1).1.symm)
      exact ⟨k, d', lc', h1, by rw [aget_aset_ne this]; exact h2, h3, h4, h5⟩

/-- The deletion of the attribute itself. -/
theorem notStored_of_del {s : Schema} (hs : s.WF) {a : Attr} (ha : a ∈ s.attrs.top) {b b' : Val} (hb : IsBody s b)
    (hd : b.delItem a.rep = .ok b') : NotStored a b' := by
  obtain ⟨d, lc, rfl, hi⟩ := hb
  have hne : lower a.rep.attr ≠ lower a.rep.schema :=
    hs.noClash a (hs.top_all a ha) _ (hs.allSchema a (hs.top_all a ha))
  cases delItem_cases hd with
  | @inner k1 v v' g1 g2 g3 =>
    have hext : a.rep.ext = true := by
      cases hx : a.rep.ext with
      | true => rfl
      | false => rw [hs.core a ha hx, hi.noUrn] at g1; cases g1
    obtain ⟨d', lc', rfl, hi', h0⟩ := hi.ext a ha hext _ _ g1 g2
    rw [hs.sub a ha] at g3
    have hdel := delItem_cases (r := { attr := a.rep.attr }) g3
    obtain ⟨d2, lc2, rfl, hi2, hk2⟩ := hdel.inv hi'
    refine ⟨_, _, rfl, .inr ⟨k1, d2, lc2, g1, aget_aset_self _ _ _, hi2, hk2 _ h0, ?_⟩⟩
    cases hdel with
    | inner x _ _ => rw [h0] at x; cases x
    | absent _ x => exact x
    | top _ _ _ => exact aget_adel_self hi'.lcKeys
    | sub _ _ x _ _ => exact absurd rfl x
  | absent g1 g2 => exact ⟨_, _, rfl, .inl ⟨g1, g2⟩⟩
  | top g1 g2 _ => exact ⟨_, _, rfl, .inl ⟨by rw [aget_adel_ne hne]; exact g1, aget_adel_self hi.lcKeys⟩⟩
  | sub _ _ x _ _ => exact absurd (hs.sub a ha) x

/-- **C71** in the body of an accepted PUT request no read-only attribute is left, be it of the schema itself or
of an extension. -/
theorem C71_read_only (s : Schema) (hs : s.WF) (body headers query : Val) (req : Request) (is : Issues)
    (h : parsePut s body headers query = .ok (req, is)) (hn : is.hasIssues = false)
    (a : Attr) (ha : a ∈ s.attrs.top) (hro : a.info.mutability = .readOnly) :
    req.body.getItem a.rep = .ok .missing := by
  obtain ⟨b, ib, hp, hnb, hobj, hd⟩ := parsePut_accepted h hn
  refine NotStored.get ?_
  exact dropReadOnly_gives (I := IsBody s) hro (hs.top_all a ha) (fun x hx _ b b' hb hd => hb.del hs hx hd)
    (fun x hx _ b b' hb hj hd => hj.del hs ha hx hb hd) (fun b b' hb hd => notStored_of_del hs ha hb hd)
    (process_body hs hobj hp) hd

/-- **C71** an attribute is passed on as it was parsed if no read-only attribute has its name (a read-only
sub-attribute of it counts as one). -/
theorem C71_kept (s : Schema) (hs : s.WF) (body headers query : Val) (req : Request) (is : Issues)
    (h : parsePut s body headers query = .ok (req, is)) (hn : is.hasIssues = false) (a : Attr) (ha : a ∈ s.attrs.top)
    (hro : ∀ x ∈ s.attrs.all, x.info.mutability = .readOnly → lower x.rep.attr ≠ lower a.rep.attr) :
    ∃ b ib, s.parse body = .ok (b, ib) ∧ req.body.getItem a.rep = b.getItem a.rep := by
  obtain ⟨b, ib, hp, hnb, hobj, hd⟩ := parsePut_accepted h hn
  refine ⟨b, ib, hp, ?_⟩
  have := dropReadOnly_keeps (I := fun c => IsBody s c ∧ c.getItem a.rep = b.getItem a.rep) (fun x hx hm c c' hc hd => by
    refine ⟨hc.1.del hs hx hd, ?_⟩
    rw [← hc.2]
    obtain ⟨d, lc, rfl, hi⟩ := hc.1
    have hnx := hro x hx hm
    have hdel := delItem_cases hd
    have hne : lower a.rep.attr ≠ lower x.rep.schema := hs.noClash a (hs.top_all a ha) _ (hs.allSchema x hx)
    cases hu : aget (lower a.rep.schema) lc with
    | none => exact hdel.keeps hi.toCInv a.rep hu hnx hne
    | some k =>
      have hext : a.rep.ext = true := by
        cases he : a.rep.ext with
        | true => rfl
        | false => rw [hs.core a ha he, hi.noUrn] at hu; cases hu
      have hne' : lower x.rep.attr ≠ lower a.rep.schema := hs.noClash x hx _ (hs.allSchema a (hs.top_all a ha))
      have hread : ∀ d lc, aget (lower a.rep.schema) lc = some k →
          (Val.cont d lc).getItem a.rep = match aget k d with
            | some v => Val.getX false v { attr := a.rep.attr, sub := a.rep.sub }
            | none => .error .keyError := by
        intro d lc hu
        simp only [Val.getItem, Val.getX, Bool.false_and, Bool.false_eq_true, if_false, hu, getAt_eq]
        cases aget k d <;> rfl
      rw [hread d lc hu]
      cases hdel with
      | @inner k1 v v' g1 g2 g3 =>
        rw [hread _ _ hu]
        by_cases e : k1 = k
        · subst e
          rw [aget_aset_self, g2]
          obtain ⟨d', lc', rfl, hi', h0⟩ := hi.ext a ha hext _ _ hu g2
          exact (delItem_cases (r := { attr := x.rep.attr, sub := x.rep.sub }) g3).keeps hi'
            { attr := a.rep.attr, sub := a.rep.sub } h0 hnx (by
              intro e
              exact hs.named a (hs.top_all a ha) ((PyEnv.lower_eq_nil _).1 (by rw [e, (PyEnv.lower_eq_nil []).2 rfl])))
        · rw [aget_aset_ne e]
      | absent _ _ => rw [hread _ _ hu]
      | @top k1 g1 g2 g3 =>
        rw [hread _ _ (by rw [aget_adel_ne hne']; exact hu), aget_adel_ne]
        intro e'
        subst e'
        exact hne' ((hi.sound _ _ g2).1.trans (hi.sound _ _ hu).1.symm)
      | @sub k1 v v' g1 g2 _ g4 g5 =>
        rw [hread _ _ hu, aget_aset_ne]
        intro e'
        subst e'
        exact hne' ((hi.sound _ _ g2).1.trans (hi.sound _ _ hu).1.symm)) ⟨process_body hs hobj hp, rfl⟩ hd
  exact this.2

/-- A parsed body in which the values stored for `p` have the shape of complex values. -/
def IsBodyOf (s : Schema) (p : Attr) (b : Val) : Prop :=
  ∃ d lc, b = .cont d lc ∧ BodyInv s d lc ∧
    ∀ k v, aget (lower p.rep.attr) lc = some k → aget k d = some v → v.SubOk

theorem IsBodyOf.del {s : Schema} (hs : s.WF) {p : Attr} (hp : p ∈ s.attrs.top) {x : Attr} (hx : x ∈ s.attrs.all)
    {b b' : Val} (h : IsBodyOf s p b) (hd : b.delItem x.rep = .ok b') : IsBodyOf s p b' := by
  obtain ⟨d, lc, rfl, hi, hok⟩ := h
  have hne : lower p.rep.attr ≠ lower x.rep.schema := hs.noClash p (hs.top_all p hp) _ (hs.allSchema x hx)
  have hdel := delItem_cases hd
  obtain ⟨d1, lc1, rfl, hb⟩ := hi.del hs hx hdel
  refine ⟨d1, lc1, rfl, hb, ?_⟩
  intro k v hk hv
  cases hdel with
  | @inner k1 w w' g1 g2 g3 =>
    rw [aget_aset_ne] at hv
    · exact hok k v hk hv
    · intro e
      subst e
      exact hne ((hi.sound _ _ hk).1.trans (hi.sound _ _ g1).1.symm)
  | absent _ _ => exact hok k v hk hv
  | @top k1 g1 g2 g3 =>
    by_cases e : lower x.rep.attr = lower p.rep.attr
    · rw [e, aget_adel_self hi.lcKeys] at hk; cases hk
    · rw [aget_adel_ne e] at hk
      rw [aget_adel_ne] at hv
      · exact hok k v hk hv
      · intro e'
        subst e'
        exact e ((hi.sound _ _ g2).1.trans (hi.sound _ _ hk).1.symm)
  | @sub k1 w w' g1 g2 _ g4 g5 =>
    by_cases e : k1 = k
    · subst e
      rw [aget_aset_self] at hv; cases hv
      exact (SubOk.del (hok _ _ hk g4) g5).1
    · rw [aget_aset_ne e] at hv
      exact hok k v hk hv

theorem parse_isBodyOf {s : Schema} (hs : s.WF) (hsane : SaneAll s.attrs.top) {p : Attr} (hp : p ∈ s.attrs.top)
    (he : p.rep.ext = false) (hc : ∃ i subs ps ds, p = .complex i subs ps ds) (hstd : p.Standard .parse) {body b : Val}
    {ib : Issues} (hobj : (body.isCont || body.isDict) = true) (h : s.parse body = .ok (b, ib))
    (hn : ib.hasIssues = false) : IsBodyOf s p b := by
  obtain ⟨d, lc, rfl, hi⟩ := process_body hs hobj h
  refine ⟨d, lc, rfl, hi, ?_⟩
  intro k v hk hv
  have hib : ib = {} := eq_empty_of_noIssues (schema_process_wf hs hsane h) hn
  subst hib
  have hget : (Val.cont d lc).getItem p.rep = .ok v := by
    rw [getItem_noKey (by rw [hs.core p hp he]; exact hi.noUrn), hk, hs.sub p hp]
    simp [hv]
  have hns : p.rep.attr ≠ "schemas".toList := by
    intro e
    have hm := hs.schemas_mem
    have : p = bindAttr schemasAttr { schema := s.urn, attr := "schemas".toList } :=
      eq_of_map_nodup hs.distinct hp hm (by rw [bindAttr_rep, hs.core p hp he, e])
    obtain ⟨i, subs, ps, ds, rfl⟩ := hc
    cases this
  rcases clean_value hs hsane hobj h hp he hns hget with rfl | ⟨x, hx⟩
  · trivial
  · obtain ⟨i, subs, ps, ds, rfl⟩ := hc
    exact complex_shape hstd hx rfl

/-- **C71** read-only sub-attributes of the schema's own complex attributes are gone: reading one gives `Missing`,
for a multi-valued attribute a list of these. -/
theorem C71_sub_read_only (s : Schema) (hs : s.WF) (hsane : SaneAll s.attrs.top) (body headers query : Val) (req : Request)
    (is : Issues) (h : parsePut s body headers query = .ok (req, is)) (hn : is.hasIssues = false)
    (p : Attr) (hp : p ∈ s.attrs.top) (he : p.rep.ext = false) (hc : ∃ i subs ps ds, p = .complex i subs ps ds)
    (hstd : p.Standard .parse) (a : Attr) (ha : a ∈ s.attrs.all) (hsub : a.rep.sub ≠ []) (has : a.rep.schema = s.urn)
    (hap : a.rep.attr = p.rep.attr) (hname : isAttrName a.rep.sub = true) (hro : a.info.mutability = .readOnly) :
    req.body.getItem a.rep = .ok .missing ∨
      ∃ xs, req.body.getItem a.rep = .ok (.list xs) ∧ ∀ x ∈ xs, x = .missing := by
  obtain ⟨b, ib, hpb, hnb, hobj, hd⟩ := parsePut_accepted h hn
  have hse : a.rep.sub.isEmpty = false := by cases h : a.rep.sub <;> simp_all
  have key := dropReadOnly_gives (I := IsBodyOf s p) (J := fun c => ∃ d lc, c = .cont d lc ∧
      aget (lower s.urn) lc = none ∧ (aget (lower p.rep.attr) lc = none ∨
        ∃ k v, aget (lower p.rep.attr) lc = some k ∧ aget k d = some v ∧ Gone (Val.getX true v { attr := a.rep.sub })))
    hro ha (fun x hx _ b b' hb hd => hb.del hs hp hx hd) ?_ ?_
    (parse_isBodyOf hs hsane hp he hc hstd hobj hpb hnb) hd
  · obtain ⟨d, lc, e, hu, hk⟩ := key
    rw [e, getItem_noKey (by rw [has]; exact hu), hap]
    rcases hk with hk | ⟨k, v, hk, hv, hg⟩
    · left; simp only [hk]
    · simp only [hk, hv, hse, Bool.false_eq_true, if_false]
      exact hg
  · rintro x hx hm c c' ⟨d, lc, rfl, hi, hok⟩ ⟨_, _, e, hu, hk⟩ hd
    cases e
    have hne : lower p.rep.attr ≠ lower x.rep.schema := hs.noClash p (hs.top_all p hp) _ (hs.allSchema x hx)
    have hdel := delItem_cases hd
    obtain ⟨d1, lc1, rfl, hi1, hk1⟩ := hdel.inv hi.toCInv
    refine ⟨d1, lc1, rfl, hk1 _ hu, ?_⟩
    rcases hk with hk | ⟨k, v, hk, hv, hg⟩
    · exact .inl (hk1 _ hk)
    · cases hdel with
      | @inner k1 w w' g1 g2 g3 =>
        refine .inr ⟨k, v, hk, ?_, hg⟩
        rw [aget_aset_ne]
        · exact hv
        · intro e
          subst e
          exact hne ((hi.sound _ _ hk).1.trans (hi.sound _ _ g1).1.symm)
      | absent _ _ => exact .inr ⟨k, v, hk, hv, hg⟩
      | @top k1 g1 g2 g3 =>
        by_cases e : lower x.rep.attr = lower p.rep.attr
        · left; rw [e]; exact aget_adel_self hi.lcKeys
        · refine .inr ⟨k, v, by rw [aget_adel_ne e]; exact hk, ?_, hg⟩
          rw [aget_adel_ne]
          · exact hv
          · intro e'
            subst e'
            exact e ((hi.sound _ _ g2).1.trans (hi.sound _ _ hk).1.symm)
      | @sub k1 w w' g1 g2 _ g4 g5 =>
        by_cases e : k1 = k
        · subst e
          rw [hv] at g4; cases g4
          obtain ⟨-, q1, q2⟩ := SubOk.del (hok _ _ hk hv) g5
          refine .inr ⟨k1, w', hk, aget_aset_self _ _ _, ?_⟩
          by_cases el : lower a.rep.sub = lower x.rep.sub
          · exact q1 _ hname el
          · rw [q2 _ el]; exact hg
        · exact .inr ⟨k, v, hk, by rw [aget_aset_ne e]; exact hv, hg⟩
  · rintro c c' ⟨d, lc, rfl, hi, hok⟩ hd
    have hdel := delItem_cases hd
    cases hdel with
    | inner g1 _ _ => rw [has, hi.noUrn] at g1; cases g1
    | absent _ g2 => exact ⟨_, _, rfl, hi.noUrn, .inl (by rw [← hap]; exact g2)⟩
    | top _ _ g3 => exact absurd g3 hsub
    | @sub k1 w w' g1 g2 _ g4 g5 =>
      rw [hap] at g2
      exact ⟨_, _, rfl, hi.noUrn, .inr ⟨k1, w', g2, aget_aset_self _ _ _, (SubOk.del (hok _ _ g2 g4) g5).2.1 _ hname rfl⟩⟩

/-- **C71** the other sub-attributes are passed on as they were parsed, unless the complex attribute itself is
read-only or an extension has a read-only attribute of the same name. -/
theorem C71_sub_kept (s : Schema) (hs : s.WF) (hsane : SaneAll s.attrs.top) (body headers query : Val) (req : Request)
    (is : Issues) (h : parsePut s body headers query = .ok (req, is)) (hn : is.hasIssues = false)
    (p : Attr) (hp : p ∈ s.attrs.top) (he : p.rep.ext = false) (hc : ∃ i subs ps ds, p = .complex i subs ps ds)
    (hstd : p.Standard .parse) (hrw : p.info.mutability ≠ .readOnly)
    (hext : ∀ x ∈ s.attrs.all, x.rep.schema ≠ s.urn → x.info.mutability = .readOnly → lower x.rep.attr ≠ lower p.rep.attr)
    (a : Attr) (ha : a ∈ s.attrs.all) (hsub : a.rep.sub ≠ []) (has : a.rep.schema = s.urn)
    (hap : a.rep.attr = p.rep.attr) (hro : a.info.mutability ≠ .readOnly) :
    ∃ b ib, s.parse body = .ok (b, ib) ∧ req.body.getItem a.rep = b.getItem a.rep := by
  obtain ⟨b, ib, hpb, hnb, hobj, hd⟩ := parsePut_accepted h hn
  refine ⟨b, ib, hpb, ?_⟩
  have hse : a.rep.sub.isEmpty = false := by cases h : a.rep.sub <;> simp_all
  have := dropReadOnly_keeps (I := fun c => IsBodyOf s p c ∧ c.getItem a.rep = b.getItem a.rep) (fun x hx hm c c' hc hd => by
    refine ⟨hc.1.del hs hp hx hd, ?_⟩
    rw [← hc.2]
    obtain ⟨d, lc, rfl, hi, hok⟩ := hc.1
    have hne : lower a.rep.attr ≠ lower x.rep.schema := hs.noClash a ha _ (hs.allSchema x hx)
    have hua : aget (lower a.rep.schema) lc = none := by rw [has]; exact hi.noUrn
    have hdel := delItem_cases hd
    by_cases en : lower x.rep.attr = lower a.rep.attr
    · have hxs : x.rep.schema = s.urn := by
        by_cases e : x.rep.schema = s.urn
        · exact e
        · exact absurd (en.trans (by rw [hap])) (hext x hx e hm)
      cases hdel with
      | inner g1 _ _ => rw [hxs, hi.noUrn] at g1; cases g1
      | absent _ _ => rfl
      | top _ _ g3 =>
        have : x = p := eq_of_map_nodup hs.names hx (hs.top_all p hp) (by
          rw [hxs, hs.core p hp he, en, hap, g3, hs.sub p hp])
        subst this
        exact absurd hm hrw
      | @sub k1 w w' g1 g2 _ g4 g5 =>
        have hg2 := g2
        rw [en] at g2
        rw [getItem_noKey hua, getItem_noKey hua]
        simp only [g2, aget_aset_self, g4, hse, Bool.false_eq_true, if_false]
        rw [hap] at g2
        refine (SubOk.del (hok _ _ g2 g4) g5).2.2 _ ?_
        intro el
        have : x = a := eq_of_map_nodup hs.names hx ha (by rw [hxs, has, en, el])
        subst this
        exact hro hm
    · exact hdel.keeps hi.toCInv a.rep hua en hne) ⟨parse_isBodyOf hs hsane hp he hc hstd hobj hpb hnb, rfl⟩ hd
  exact this.2

/-- A parsed body with the values of a complex attribute `p` of an extension. -/
def IsBodyOfExt (s : Schema) (p : Attr) (b : Val) : Prop :=
  ∃ d lc, b = .cont d lc ∧ BodyInv s d lc ∧ aget (lower p.rep.attr) lc = none ∧
    ∀ k d' lc', aget (lower p.rep.schema) lc = some k → aget k d = some (.cont d' lc') →
      ∀ k' v, aget (lower p.rep.attr) lc' = some k' → aget k' d' = some v → v.SubOk

theorem IsBodyOfExt.del {s : Schema} (hs : s.WF) {p : Attr} (hp : p ∈ s.attrs.top) (he : p.rep.ext = true) {x : Attr}
    (hx : x ∈ s.attrs.all) {b b' : Val} (h : IsBodyOfExt s p b) (hd : b.delItem x.rep = .ok b') : IsBodyOfExt s p b' := by
  obtain ⟨d, lc, rfl, hi, hnone, hok⟩ := h
  have hne' : lower x.rep.attr ≠ lower p.rep.schema := hs.noClash x hx _ (hs.allSchema p (hs.top_all p hp))
  have hdel := delItem_cases hd
  obtain ⟨d1, lc1, rfl, hb⟩ := hi.del hs hx hdel
  obtain ⟨_, _, e, _, hk1⟩ := hdel.inv hi.toCInv
  cases e
  refine ⟨d1, lc1, rfl, hb, hk1 _ hnone, ?_⟩
  intro k d' lc' hk hv k' v hk' hv'
  cases hdel with
  | @inner k1 w w' g1 g2 g3 =>
    by_cases e : k1 = k
    · subst e
      rw [aget_aset_self] at hv; cases hv
      obtain ⟨d0, lc0, rfl, hi0, h0⟩ := hi.ext p hp he _ _ hk g2
      cases delItem_cases (r := { attr := x.rep.attr, sub := x.rep.sub }) g3 with
      | inner q1 _ _ => rw [h0] at q1; cases q1
      | absent _ _ => exact hok _ _ _ hk g2 _ _ hk' hv'
      | @top k2 q1 q2 q3 =>
        by_cases e : lower x.rep.attr = lower p.rep.attr
        · have := aget_adel_self (k := lower x.rep.attr) hi0.lcKeys
          rw [e] at this
          simp only [e] at hk'
          rw [this] at hk'; cases hk'
        · simp only [aget_adel_ne e] at hk'
          rw [aget_adel_ne] at hv'
          · exact hok _ _ _ hk g2 _ _ hk' hv'
          · intro e'
            subst e'
            exact e ((hi0.sound _ _ q2).1.trans (hi0.sound _ _ hk').1.symm)
      | @sub k2 u u' q1 q2 _ q4 q5 =>
        by_cases e : k2 = k'
        · subst e
          rw [aget_aset_self] at hv'; cases hv'
          exact (SubOk.del (hok _ _ _ hk g2 _ _ hk' q4) q5).1
        · rw [aget_aset_ne e] at hv'
          exact hok _ _ _ hk g2 _ _ hk' hv'
    · rw [aget_aset_ne e] at hv
      exact hok _ _ _ hk hv _ _ hk' hv'
  | absent _ _ => exact hok _ _ _ hk hv _ _ hk' hv'
  | @top k1 g1 g2 g3 =>
    rw [aget_adel_ne hne'] at hk
    rw [aget_adel_ne] at hv
    · exact hok _ _ _ hk hv _ _ hk' hv'
    · intro e'
      subst e'
      exact hne' ((hi.sound _ _ g2).1.trans (hi.sound _ _ hk).1.symm)
  | @sub k1 w w' g1 g2 _ g4 g5 =>
    rw [aget_aset_ne] at hv
    · exact hok _ _ _ hk hv _ _ hk' hv'
    · intro e'
      subst e'
      exact hne' ((hi.sound _ _ g2).1.trans (hi.sound _ _ hk).1.symm)

theorem parse_isBodyOfExt {s : Schema} (hs : s.WF) (hsane : SaneAll s.attrs.top) {p : Attr} (hp : p ∈ s.attrs.top)
    (he : p.rep.ext = true) (hc : ∃ i subs ps ds, p = .complex i subs ps ds) (hstd : p.Standard .parse)
    (hclash : ∀ x ∈ s.attrs.top, x.rep.ext = false → lower x.rep.attr ≠ lower p.rep.attr) {body b : Val}
    {ib : Issues} (hobj : (body.isCont || body.isDict) = true) (h : s.parse body = .ok (b, ib))
    (hn : ib.hasIssues = false) : IsBodyOfExt s p b := by
  obtain ⟨d, lc, rfl, hi⟩ := process_body hs hobj h
  obtain ⟨_, _, e, hv⟩ := process_view hs hobj h
  cases e
  obtain ⟨_, _, e, hx⟩ := process_ext_values hs hobj h
  cases e
  have hib : ib = {} := eq_empty_of_noIssues (schema_process_wf hs hsane h) hn
  subst hib
  refine ⟨d, lc, rfl, hi, ?_, ?_⟩
  · apply hv.lc_none
    intro k hk e
    rcases hv.declared k hk with ⟨b, hb, h1, rfl⟩ | ⟨b, hb, h1, rfl⟩
    · exact hclash b hb h1 e
    · exact hs.noClash p (hs.top_all p hp) _ (List.mem_cons_of_mem _ (hs.ext b hb h1)) e.symm
  · intro k d' lc' hk hv' k' v hk' hv''
    have hks := hv.sound _ _ hk
    have : k = p.rep.schema := by
      rcases hv.declared k hks.2 with ⟨b, hb, h1, rfl⟩ | ⟨b, hb, h1, rfl⟩
      · exact absurd hks.1.symm (hs.noClash b (hs.top_all b hb) _ (hs.allSchema p (hs.top_all p hp)))
      · exact eq_of_map_nodup hs.urns (List.mem_cons_of_mem _ (hs.ext b hb h1))
          (List.mem_cons_of_mem _ (hs.ext p hp he)) hks.1.symm
    subst this
    obtain ⟨d0, lc0, e, hi0, _⟩ := hi.ext p hp he _ _ hk hv'
    cases e
    obtain ⟨x, i, h1, h2, h3⟩ := hx p hp he _ _ hv' k' v (hi0.sound _ _ hk').1.symm hv''
    obtain ⟨hl, -⟩ := C82_locations .parse s hs hsane body _ {} (by simpa using hobj) h
    obtain ⟨y, i', h3', hl⟩ := hl p hp x h1 h2
    rw [h3] at h3'; cases h3'
    have hw : i.WF := process_wf p (saneAll_iff.mp hsane p hp) h3
    have hni : i.hasIssues = false := by
      cases hi : i.hasIssues with
      | false => rfl
      | true =>
        exfalso
        rw [hasIssues_iff_errors hw] at hi
        obtain ⟨l, hl'⟩ := hi
        rw [← hl l] at hl'
        · exact hl' rfl
        · unfold Attr.reportLoc
          rw [he]
          intro e
          simp at e
    obtain ⟨j, subs, ps, ds, rfl⟩ := hc
    exact complex_shape hstd h3 hni

/-- **C71** the same for sub-attributes of an extension's complex attributes, provided the schema itself has no
attribute of that name. -/
theorem C71_ext_sub_read_only (s : Schema) (hs : s.WF) (hsane : SaneAll s.attrs.top) (body headers query : Val)
    (req : Request) (is : Issues) (h : parsePut s body headers query = .ok (req, is)) (hn : is.hasIssues = false)
    (p : Attr) (hp : p ∈ s.attrs.top) (he : p.rep.ext = true) (hc : ∃ i subs ps ds, p = .complex i subs ps ds)
    (hstd : p.Standard .parse) (hclash : ∀ x ∈ s.attrs.top, x.rep.ext = false → lower x.rep.attr ≠ lower p.rep.attr)
    (a : Attr) (ha : a ∈ s.attrs.all) (hsub : a.rep.sub ≠ []) (has : a.rep.schema = p.rep.schema)
    (hap : a.rep.attr = p.rep.attr) (hname : isAttrName a.rep.sub = true) (hro : a.info.mutability = .readOnly) :
    req.body.getItem a.rep = .ok .missing ∨
      ∃ xs, req.body.getItem a.rep = .ok (.list xs) ∧ ∀ x ∈ xs, x = .missing := by
  obtain ⟨b, ib, hpb, hnb, hobj, hd⟩ := parsePut_accepted h hn
  have hse : a.rep.sub.isEmpty = false := by cases h : a.rep.sub <;> simp_all
  have key := dropReadOnly_gives (I := IsBodyOfExt s p) (J := fun c => ∃ d lc, c = .cont d lc ∧
      aget (lower p.rep.attr) lc = none ∧ (aget (lower p.rep.schema) lc = none ∨
        ∃ k d' lc', aget (lower p.rep.schema) lc = some k ∧ aget k d = some (.cont d' lc') ∧
          aget (lower []) lc' = none ∧ (aget (lower p.rep.attr) lc' = none ∨
            ∃ k' v, aget (lower p.rep.attr) lc' = some k' ∧ aget k' d' = some v ∧
              Gone (Val.getX true v { attr := a.rep.sub }))))
    hro ha (fun x hx _ b b' hb hd => hb.del hs hp he hx hd) ?_ ?_
    (parse_isBodyOfExt hs hsane hp he hc hstd hclash hobj hpb hnb) hd
  · obtain ⟨d, lc, e, hu, hk⟩ := key
    rw [e]
    rcases hk with hk | ⟨k, d', lc', hk, hv, h0, hg⟩
    · left; rw [getItem_noKey (by rw [has]; exact hk), hap]; simp only [hu]
    · have : (Val.cont d lc).getItem a.rep = (Val.cont d' lc').getItem { attr := a.rep.attr, sub := a.rep.sub } := by
        simp only [Val.getItem, Val.getX, Bool.false_and, Bool.false_eq_true, if_false, has, hk, getAt_eq, hv]
      rw [this, getItem_noKey (r := { attr := a.rep.attr, sub := a.rep.sub }) h0]
      simp only [hap]
      rcases hg with hg | ⟨k', v, hk', hv', hg⟩
      · left; simp only [hg]
      · simp only [hk', hv', hse, Bool.false_eq_true, if_false]
        exact hg
  · rintro x hx hm c c' ⟨d, lc, rfl, hi, hnone, hok⟩ ⟨_, _, e, hu, hk⟩ hd
    cases e
    have hne' : lower x.rep.attr ≠ lower p.rep.schema := hs.noClash x hx _ (hs.allSchema p (hs.top_all p hp))
    have hdel := delItem_cases hd
    obtain ⟨d1, lc1, rfl, hi1, hk1⟩ := hdel.inv hi.toCInv
    refine ⟨d1, lc1, rfl, hk1 _ hu, ?_⟩
    rcases hk with hk | ⟨k, d', lc', hk, hv, h0, hg⟩
    · exact .inl (hk1 _ hk)
    · cases hdel with
      | @inner k1 w w' g1 g2 g3 =>
        by_cases e : k1 = k
        · subst e
          rw [hv] at g2; cases g2
          obtain ⟨_, _, e, hi0, _⟩ := hi.ext p hp he _ _ hk hv
          cases e
          have hdel2 := delItem_cases (r := { attr := x.rep.attr, sub := x.rep.sub }) g3
          obtain ⟨d2, lc2, rfl, hi2, hk2⟩ := hdel2.inv hi0
          refine .inr ⟨k1, d2, lc2, hk, aget_aset_self _ _ _, hk2 _ h0, ?_⟩
          rcases hg with hg | ⟨k', v, hk', hv', hg⟩
          · exact .inl (hk2 _ hg)
          · cases hdel2 with
            | inner q1 _ _ => rw [h0] at q1; cases q1
            | absent _ _ => exact .inr ⟨k', v, hk', hv', hg⟩
            | @top k2 q1 q2 q3 =>
              by_cases e : lower x.rep.attr = lower p.rep.attr
              · left; simp only [e]; exact aget_adel_self hi0.lcKeys
              · refine .inr ⟨k', v, by simp only [aget_adel_ne e]; exact hk', ?_, hg⟩
                rw [aget_adel_ne]
                · exact hv'
                · intro e'
                  subst e'
                  exact e ((hi0.sound _ _ q2).1.trans (hi0.sound _ _ hk').1.symm)
            | @sub k2 u u' q1 q2 _ q4 q5 =>
              by_cases e : k2 = k'
              · subst e
                rw [hv'] at q4; cases q4
                obtain ⟨-, t1, t2⟩ := SubOk.del (hok _ _ _ hk hv _ _ hk' hv') q5
                refine .inr ⟨k2, u', hk', aget_aset_self _ _ _, ?_⟩
                by_cases el : lower a.rep.sub = lower x.rep.sub
                · exact t1 _ hname el
                · rw [t2 _ el]; exact hg
              · exact .inr ⟨k', v, hk', by rw [aget_aset_ne e]; exact hv', hg⟩
        · exact .inr ⟨k, d', lc', hk, by rw [aget_aset_ne e]; exact hv, h0, hg⟩
      | absent _ _ => exact .inr ⟨k, d', lc', hk, hv, h0, hg⟩
      | @top k1 g1 g2 g3 =>
        refine .inr ⟨k, d', lc', by rw [aget_adel_ne hne']; exact hk, ?_, h0, hg⟩
        rw [aget_adel_ne]
        · exact hv
        · intro e'
          subst e'
          exact hne' ((hi.sound _ _ g2).1.trans (hi.sound _ _ hk).1.symm)
      | @sub k1 w w' g1 g2 _ g4 g5 =>
        refine .inr ⟨k, d', lc', hk, ?_, h0, hg⟩
        rw [aget_aset_ne]
        · exact hv
        · intro e'
          subst e'
          exact hne' ((hi.sound _ _ g2).1.trans (hi.sound _ _ hk).1.symm)
  · rintro c c' ⟨d, lc, rfl, hi, hnone, hok⟩ hd
    have hdel := delItem_cases hd
    cases hdel with
    | @inner k1 w w' g1 g2 g3 =>
      rw [has] at g1
      obtain ⟨d0, lc0, rfl, hi0, h0⟩ := hi.ext p hp he _ _ g1 g2
      have hdel2 := delItem_cases (r := { attr := a.rep.attr, sub := a.rep.sub }) g3
      obtain ⟨d2, lc2, rfl, hi2, hk2⟩ := hdel2.inv hi0
      refine ⟨_, _, rfl, hnone, .inr ⟨k1, d2, lc2, g1, aget_aset_self _ _ _, hk2 _ h0, ?_⟩⟩
      cases hdel2 with
      | inner q1 _ _ => rw [h0] at q1; cases q1
      | absent _ q2 => rw [← hap]; exact .inl q2
      | top _ _ q3 => exact absurd q3 hsub
      | @sub k2 u u' q1 q2 _ q4 q5 =>
        have q2 : aget (lower a.rep.attr) lc0 = some k2 := q2
        rw [hap] at q2
        exact .inr ⟨k2, u', q2, aget_aset_self _ _ _, (SubOk.del (hok _ _ _ g1 g2 _ _ q2 q4) q5).2.1 _ hname rfl⟩
    | absent g1 _ => exact ⟨_, _, rfl, hnone, .inl (by rw [← has]; exact g1)⟩
    | top _ _ g3 => exact absurd g3 hsub
    | sub _ g2 _ _ _ => rw [hap, hnone] at g2; cases g2

/-- **C71** and the other sub-attributes of an extension's complex attributes are kept, unless the complex attribute
itself is read-only. -/
theorem C71_ext_sub_kept (s : Schema) (hs : s.WF) (hsane : SaneAll s.attrs.top) (body headers query : Val)
    (req : Request) (is : Issues) (h : parsePut s body headers query = .ok (req, is)) (hn : is.hasIssues = false)
    (p : Attr) (hp : p ∈ s.attrs.top) (he : p.rep.ext = true) (hc : ∃ i subs ps ds, p = .complex i subs ps ds)
    (hstd : p.Standard .parse) (hrw : p.info.mutability ≠ .readOnly)
    (hclash : ∀ x ∈ s.attrs.top, x.rep.ext = false → lower x.rep.attr ≠ lower p.rep.attr)
    (a : Attr) (ha : a ∈ s.attrs.all) (hsub : a.rep.sub ≠ []) (has : a.rep.schema = p.rep.schema)
    (hap : a.rep.attr = p.rep.attr) (hro : a.info.mutability ≠ .readOnly) :
    ∃ b ib, s.parse body = .ok (b, ib) ∧ req.body.getItem a.rep = b.getItem a.rep := by
  obtain ⟨b, ib, hpb, hnb, hobj, hd⟩ := parsePut_accepted h hn
  refine ⟨b, ib, hpb, ?_⟩
  have hse : a.rep.sub.isEmpty = false := by cases h : a.rep.sub <;> simp_all
  have := dropReadOnly_keeps (I := fun c => IsBodyOfExt s p c ∧ c.getItem a.rep = b.getItem a.rep)
    (fun x hx hm c c' hc hd => by
    refine ⟨hc.1.del hs hp he hx hd, ?_⟩
    rw [← hc.2]
    obtain ⟨d, lc, rfl, hi, hnone, hok⟩ := hc.1
    have hne : lower a.rep.attr ≠ lower x.rep.schema := hs.noClash a ha _ (hs.allSchema x hx)
    have hne' : lower x.rep.attr ≠ lower a.rep.schema := hs.noClash x hx _ (hs.allSchema a ha)
    have hdel := delItem_cases hd
    cases hu : aget (lower a.rep.schema) lc with
    | none =>
      obtain ⟨d1, lc1, rfl, hi1, hk1⟩ := hdel.inv hi.toCInv
      rw [getItem_noKey hu, getItem_noKey (hk1 _ hu), hap]
      simp only [hnone, hk1 _ hnone]
    | some k =>
      have hread : ∀ d lc, aget (lower a.rep.schema) lc = some k →
          (Val.cont d lc).getItem a.rep = match aget k d with
            | some v => Val.getX false v { attr := a.rep.attr, sub := a.rep.sub }
            | none => .error .keyError := by
        intro d lc hu
        simp only [Val.getItem, Val.getX, Bool.false_and, Bool.false_eq_true, if_false, hu, getAt_eq]
        cases aget k d <;> rfl
      rw [hread d lc hu]
      cases hdel with
      | @inner k1 w w' g1 g2 g3 =>
        rw [hread _ _ hu]
        by_cases e : k1 = k
        · subst e
          rw [aget_aset_self, g2]
          rw [has] at hu
          obtain ⟨d0, lc0, rfl, hi0, h0⟩ := hi.ext p hp he _ _ hu g2
          have hxs : x.rep.schema = a.rep.schema := by
            refine eq_of_map_nodup hs.urns (hs.allSchema x hx) (hs.allSchema a ha) ?_
            rw [has]
            exact (hi.sound _ _ g1).1.trans (hi.sound _ _ hu).1.symm
          have hdel2 := delItem_cases (r := { attr := x.rep.attr, sub := x.rep.sub }) g3
          have hnil : lower a.rep.attr ≠ lower [] := by
            intro e
            exact hs.named a ha ((PyEnv.lower_eq_nil _).1 (by rw [e, (PyEnv.lower_eq_nil []).2 rfl]))
          by_cases en : lower x.rep.attr = lower a.rep.attr
          · cases hdel2 with
            | inner q1 _ _ => rw [h0] at q1; cases q1
            | absent _ _ => rfl
            | top _ _ q3 =>
              have : x = p := eq_of_map_nodup hs.names hx (hs.top_all p hp) (by
                rw [hxs, has, en, hap, show x.rep.sub = [] from q3, hs.sub p hp])
              subst this
              exact absurd hm hrw
            | @sub k2 u u' q1 q2 _ q4 q5 =>
              have q2 : aget (lower x.rep.attr) lc0 = some k2 := q2
              rw [en] at q2
              show (Val.cont _ _).getItem { attr := a.rep.attr, sub := a.rep.sub } =
                (Val.cont _ _).getItem { attr := a.rep.attr, sub := a.rep.sub }
              rw [getItem_noKey (r := { attr := a.rep.attr, sub := a.rep.sub }) h0,
                getItem_noKey (r := { attr := a.rep.attr, sub := a.rep.sub }) h0]
              simp only [q2, aget_aset_self, q4, hse, Bool.false_eq_true, if_false]
              rw [hap] at q2
              refine (SubOk.del (hok _ _ _ hu g2 _ _ q2 q4) q5).2.2 _ ?_
              intro el
              have : x = a := eq_of_map_nodup hs.names hx ha (by rw [hxs, en, el])
              subst this
              exact hro hm
          · exact hdel2.keeps hi0 { attr := a.rep.attr, sub := a.rep.sub } h0 en hnil
        · rw [aget_aset_ne e]
      | absent _ _ => rw [hread _ _ hu]
      | @top k1 g1 g2 g3 =>
        rw [hread _ _ (by rw [aget_adel_ne hne']; exact hu), aget_adel_ne]
        intro e'
        subst e'
        exact hne' ((hi.sound _ _ g2).1.trans (hi.sound _ _ hu).1.symm)
      | @sub k1 w w' g1 g2 _ g4 g5 =>
        rw [hread _ _ hu, aget_aset_ne]
        intro e'
        subst e'
        exact hne' ((hi.sound _ _ g2).1.trans (hi.sound _ _ hu).1.symm))
    ⟨parse_isBodyOfExt hs hsane hp he hc hstd hclash hobj hpb hnb, rfl⟩ hd
  exact this.2

end Scim

namespace Scim.Examples.Bodies
local instance bodiesEnv : PyEnv := asciiEnv
open V

/-- what is found in the body of a request under some names, and all that is reported -/
def found (r : PyM (Request × Issues)) (names : List AttrRep) : Option (List (PyM Val) × List Loc) :=
  r.toOption.map fun p => (names.map p.1.body.getItem, p.2.issues.map (·.1))

/-- a name without schema -/
def nm (a : String) (b : String := "") : AttrRep := { attr := a.toList, sub := b.toList }

/-- a group -/
def group : List (Str × Val) :=
  [("schemas".toList, .list [.str GroupA.urn]), ("displayName".toList, .str "x".toList), ("id".toList, .str "1".toList),
    ("meta".toList, .dict [("resourceType".toList, .str "Group".toList)])]

/-- **C71** the hypotheses are met: an accepted `PUT` of a group loses its identifier, its metadata and `schemas`,
and keeps its display name -/
example : found (parsePut GroupA.schema (.dict group) .null (.dict [])) [nm "id", nm "meta", nm "schemas", nm "displayName"] =
    some ([.ok .missing, .ok .missing, .ok .missing, .ok (.str "x".toList)], []) := by decide +kernel

/-- a user of the enterprise -/
def user : List (Str × Val) :=
  [("schemas".toList, .list [.str UserA.urn, .str UserA.enterpriseUrn]), ("userName".toList, .str "bo".toList),
    ("id".toList, .str "1".toList), ("groups".toList, .list [.dict [("value".toList, .str "2".toList)]]),
    (UserA.enterpriseUrn, .dict [("manager".toList, .dict [("value".toList, .str "3".toList),
      ("displayName".toList, .str "ann".toList)])])]

example : found (parsePut userSchema (.dict user) .null (.dict []))
    [nm "id", nm "groups" "value", nm "userName", { schema := UserA.enterpriseUrn, ext := true, attr := "manager".toList, sub := "displayName".toList },
      { schema := UserA.enterpriseUrn, ext := true, attr := "manager".toList, sub := "value".toList }] =
    some ([.ok .missing, .ok .missing, .ok (.str "bo".toList), .ok .missing, .ok (.str "3".toList)], []) := by decide +kernel

/-- **C72** the display name of a new group is asked for, its identifier is not -/
example : found (parsePost GroupA.schema (.dict [("schemas".toList, .list [.str GroupA.urn])]) .null (.dict [])) [] =
    some ([], [[.name "body".toList, .name "displayName".toList]]) := by decide +kernel
example : (parsePost GroupA.schema (.dict (group.take 2)) .null (.dict [])).toOption.map (·.2.hasIssues) = some false := by
  decide +kernel
example : GroupA.schema.WF ∧ SaneAll GroupA.schema.attrs.top ∧ StandardAll .parse GroupA.schema.attrs.top :=
  ⟨group_wf, saneAll_iff.mpr (fun a ha => (group_top_good a ha).2), standardAll_iff.mpr (fun a ha => (group_top_good a ha).1 _)⟩

/-- **C86** some of the codes do occur -/
example : (GroupA.schema.parse (.dict [("schemas".toList, .int 4), ("displayName".toList, .int 3)])).toOption.map
    (fun p => (p.2.codesAt [.name "displayName".toList], p.2.codesAt [.name "schemas".toList])) =
    some ([2], [2]) := by decide +kernel

/-- A group that says it is a user. -/
example : (GroupA.schema.dump (.dict [("schemas".toList, .list [.str GroupA.urn]), ("displayName".toList, .int 3),
      ("meta".toList, .dict [("resourceType".toList, .str "User".toList)])])).toOption.map
    (fun p => (p.2.codesAt [.name "displayName".toList],
      p.2.codesAt [.name "meta".toList, .name "resourceType".toList])) =
    some ([2], [17]) := by decide +kernel

end Scim.Examples.Bodies
