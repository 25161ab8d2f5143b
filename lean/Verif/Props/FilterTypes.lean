import Verif.Lemmas.FilterTyped
import Verif.Props.PatchOp

/-! # C107: filters that fit a schema always give a verdict, and filtered lists are checked in full -/

namespace Scim
open Issues V
variable [PyEnv]

/-- **C107** a filter that fits the attributes gives a verdict on every object whose attributes hold nothing or values of
their types. -/
theorem C107_decides (P : DateTime → Prop) (attrs : List Attr) (o : Op) (ho : o.WellTyped P attrs) (x : Val) (hx : Conforms P attrs x)
    (strict : Bool) : ∃ st, Filter.call o x attrs strict = .ok st :=
  matchOn_total o attrs x strict ho hx

theorem verdict_of {o : Op} {x : Val} {attrs : List Attr} {st : MatchStatus} (h : Filter.call o x attrs false = .ok st) :
    ∃ b, st.toBool = .ok b := by
  cases st with
  | passed => exact ⟨true, rfl⟩
  | failed => exact ⟨false, rfl⟩
  | noAttr => exact ⟨false, rfl⟩
  | missing =>
    unfold Filter.call Op.matchOn at h
    exact absurd h (onOperand_ne (P := fun x => x ≠ .ok .missing) o _ _ (by simp) (fun x => match_nonstrict o x attrs))

/-- **C107** what a schema writes without issues is such an object. -/
theorem C107_written (s : Schema) (hs : s.Listable) (hf : s.Flat) (x y : Val) (is : Issues) (h : s.dump x = .ok (y, is))
    (hn : is.hasIssues = false) (P : DateTime → Prop) (hd : Dated P s.attrs.all y) : Conforms P s.attrs.all y := by
  obtain ⟨h1, -, h2⟩ := dump_noIssues h hn
  exact (process_conforms hs hf h1 h2 hn).dated hd

open ListA in
/-- Every resource of a list that was written without issues gets a verdict. -/
theorem list_verdicts {schemas : List Schema} (hne : schemas ≠ []) (hall : ∀ s ∈ schemas, s.Listable ∧ s.Flat) {kvs : List (Str × Val)}
    (ht : (Val.dict kvs).Tame) (hb : ListBody schemas kvs) {P : DateTime → Prop} {o : Op} (ho : ∀ s ∈ schemas, o.WellTyped P s.attrs.all)
    {b : Val} (hd : ListA.dump schemas (.dict kvs) = .ok (b, {})) {xs : List Val} (hx : b.getItem (rep resourcesWord) = .ok (.list xs))
    (hdate : ∀ x ∈ xs, ∀ s ∈ schemas, Dated P s.attrs.all x) {ids : List (Option Nat)} (hids : schemasFor schemas xs = .ok ids) :
    ∀ (k : Nat) (x : Val) (t : Option Nat), xs[k]? = some x → ids[k]? = some t → ∃ v, Verdict schemas o x t v := by
  obtain ⟨r, is, hr, hout⟩ := ListA.dump_total hne (fun s hs => (hall s hs).1) ht hb
  rw [hd] at hr
  cases hr
  rcases hout with h | hout
  · simp [aget] at h
  rcases hout.resources with h | h | ⟨zs, ys, ids', hg, hD⟩
  · rw [hx] at h; cases h
  · simp [aget] at h
  rw [hx] at hg
  cases hg
  have hc : ∀ (k : Nat) l, ¬ (aget ([.name resourcesWord, .idx k] ++ l) (Issues.empty).issues).isSome := by
    intro k l h
    simp [aget] at h
  have := schemasFor_again hne (fun s hs => (hall s hs).1) hD hc
  rw [hids] at this
  cases this
  intro k y t hy hk
  obtain ⟨x, hx⟩ : ∃ x, zs[k]? = some x := by
    have : k < zs.length := by
      rw [← hD.lenY]; exact (List.getElem?_eq_some_iff.mp hy).1
    exact ⟨zs[k], List.getElem?_eq_getElem this⟩
  rcases hD.items k x t hx hk with ⟨l, hl⟩ | ⟨n, s, y', is0, rfl, hs, hdump, hy', -, -, hn⟩
  · exact absurd hl (hc k l)
  · rw [hy'] at hy; cases hy
    have hsm := List.mem_of_getElem? hs
    have hcf := C107_written s (hall s hsm).1 (hall s hsm).2 x y is0 hdump hn P (hdate y (List.mem_of_getElem? hy') s hsm)
    obtain ⟨st, hst⟩ := C107_decides P s.attrs.all o (ho s hsm) y hcf false
    obtain ⟨v, hv⟩ := verdict_of hst
    exact ⟨v, n, s, st, rfl, hs, hst, hv⟩

/-- **C107** in an accepted list response to a request with a filter that fits the schemas, every resource matches the
filter. -/
theorem C107_list (schemas : List Schema) (hne : schemas ≠ []) (hall : ∀ s ∈ schemas, s.Listable ∧ s.Flat)
    (hsane : ∀ s ∈ schemas, SaneAll s.attrs.top) (status : Int) (kvs : List (Str × Val)) (headers : Val) (ht : (Val.dict kvs).Tame) (hb : ListBody schemas kvs) (start : Int) (count : Option Int)
    (P : DateTime → Prop) (o : Op) (ho : ∀ s ∈ schemas, o.WellTyped P s.attrs.all) (so : Option SorterCfg) (c : Option Checker)
    (resp : Response) (is : Issues) (h : dumpList schemas status (.dict kvs) headers start count (some o) so c = .ok (resp, is))
    (hn : is.hasIssues = false)
    (hdate : ∀ b xs, ListA.dump schemas (.dict kvs) = .ok (b, {}) → b.getItem (ListA.rep "Resources".toList) = .ok (.list xs) →
      ∀ x ∈ xs, ∀ s ∈ schemas, Dated P s.attrs.all x) :
    ∃ b xs ids, ListA.dump schemas (.dict kvs) = .ok (b, {}) ∧ resp.body = b.toDict ∧
      (b.getItem (ListA.rep "Resources".toList) = .ok .missing ∧ xs = [] ∨
        b.getItem (ListA.rep "Resources".toList) = .ok (.list xs)) ∧
      ListA.schemasFor schemas xs = .ok ids ∧ ids.length = xs.length ∧
      ∀ (k : Nat) (x : Val) (t : Option Nat), xs[k]? = some x → ids[k]? = some t → Verdict schemas o x t true := by
  obtain ⟨b, xs, ids, hd, hbody, hres, hids, hlen, hall'⟩ := C77_accepted schemas
    (fun s hs => ⟨(hall s hs).1.wf, hsane s hs⟩) status (.dict kvs) headers start count o so c resp is h hn
  refine ⟨b, xs, ids, hd, hbody, hres, hids, hlen, hall' ?_⟩
  rcases hres with ⟨-, rfl⟩ | hres
  · intro k x t hx; simp at hx
  · exact list_verdicts hne hall ht hb ho hd hres (hdate b xs hd hres) hids

/-- **C107** in general the check reports an issue at the index of exactly the resources that do not match, and nothing
else. -/
theorem C107_reported (schemas : List Schema) (hne : schemas ≠ []) (hall : ∀ s ∈ schemas, s.Listable ∧ s.Flat)
    (kvs : List (Str × Val)) (ht : (Val.dict kvs).Tame) (hb : ListBody schemas kvs)
    (P : DateTime → Prop) (o : Op) (ho : ∀ s ∈ schemas, o.WellTyped P s.attrs.all) (b : Val) (xs : List Val) (ids : List (Option Nat))
    (hd : ListA.dump schemas (.dict kvs) = .ok (b, {})) (hres : b.getItem (ListA.rep "Resources".toList) = .ok (.list xs))
    (hdate : ∀ x ∈ xs, ∀ s ∈ schemas, Dated P s.attrs.all x) (hids : ListA.schemasFor schemas xs = .ok ids) :
    ∃ is, validateFiltered xs o schemas ids false = .ok is ∧
      (∀ (k : Nat) (x : Val) (t : Option Nat), xs[k]? = some x → ids[k]? = some t →
        (25 ∈ is.codesAt [.idx k] ↔ ¬ Verdict schemas o x t true)) ∧
      (∀ l c, c ∈ is.codesAt l → c = 25 ∧ ∃ k, k < xs.length ∧ l = [.idx k]) := by
  have hv := list_verdicts hne hall ht hb ho hd hres hdate hids
  obtain ⟨is, h1, h2, h3⟩ := C77_issues schemas o xs ids (ListA.schemasFor_length hids) hv
  refine ⟨is, h1, fun k x t hx ht => ?_, h3⟩
  rw [h2 k x t hx ht]
  obtain ⟨v, hv⟩ := hv k x t hx ht
  constructor
  · intro h h'
    exact absurd (h.unique h') (by simp)
  · intro h
    cases v with
    | false => exact hv
    | true => exact absurd hv h

attribute [local irreducible] GroupA.schema in
/-- **C107** lists of users, of groups, and of both. -/
theorem C107_users_groups (schemas : List Schema) (hs : schemas = [userSchema] ∨ schemas = [GroupA.schema] ∨
      schemas = [userSchema, GroupA.schema]) (status : Int) (kvs : List (Str × Val)) (headers : Val) (ht : (Val.dict kvs).Tame)
    (hb : ListBody schemas kvs) (start : Int) (count : Option Int) (P : DateTime → Prop) (o : Op)
    (ho : ∀ s ∈ schemas, o.WellTyped P s.attrs.all) (so : Option SorterCfg) (c : Option Checker)
    (resp : Response) (is : Issues) (h : dumpList schemas status (.dict kvs) headers start count (some o) so c = .ok (resp, is))
    (hn : is.hasIssues = false)
    (hdate : ∀ b xs, ListA.dump schemas (.dict kvs) = .ok (b, {}) → b.getItem (ListA.rep "Resources".toList) = .ok (.list xs) →
      ∀ x ∈ xs, ∀ s ∈ schemas, Dated P s.attrs.all x) :
    ∃ b xs ids, ListA.dump schemas (.dict kvs) = .ok (b, {}) ∧ resp.body = b.toDict ∧
      (b.getItem (ListA.rep "Resources".toList) = .ok .missing ∧ xs = [] ∨
        b.getItem (ListA.rep "Resources".toList) = .ok (.list xs)) ∧
      ListA.schemasFor schemas xs = .ok ids ∧ ids.length = xs.length ∧
      ∀ (k : Nat) (x : Val) (t : Option Nat), xs[k]? = some x → ids[k]? = some t → Verdict schemas o x t true := by
  have hmem : ∀ s ∈ schemas, s = userSchema ∨ s = GroupA.schema := by
    intro s h
    rcases hs with rfl | rfl | rfl
    · exact .inl (by simpa using h)
    · exact .inr (by simpa using h)
    · simpa using h
  refine C107_list schemas ?_ ?_ ?_ status kvs headers ht hb start count P o ho so c resp is h hn hdate
  · rcases hs with rfl | rfl | rfl <;> simp
  · intro s h
    rcases hmem s h with rfl | rfl
    · exact ⟨user_listable, user_flatSchema⟩
    · exact ⟨group_listable, group_flatSchema⟩
  · intro s h
    rw [saneAll_iff]
    intro a ha
    rcases hmem s h with rfl | rfl
    · exact saneAll_iff.mp user_sane a (user_wf.top_all a ha)
    · exact saneAll_iff.mp group_sane a (group_wf.top_all a ha)

end Scim

/-! ## Concrete cases (ASCII run-time library) -/

namespace Scim.Examples.FilterTypes
open Scim.Examples

local instance filterTypesEnv : PyEnv := asciiEnv

/-- A user with a creation date and e-mail addresses. -/
def exUser (name : Str) (wall : Int) (mails : List Val) : List (Str × Val) :=
  [("schemas".toList, .list [.str UserA.urn]), ("id".toList, .str "1".toList), ("userName".toList, .str name),
   ("meta".toList, .dict [("resourceType".toList, .str "User".toList), ("created".toList, Val.dt { wall := wall, off := none })]),
   ("emails".toList, .list mails)]

/-- A list of two users. -/
def exUsers (second : Val) : List (Str × Val) :=
  [("schemas".toList, .list [.str ListA.urn]), ("totalResults".toList, .int 2), ("resources".toList, .list
    [.dict (exUser "jane".toList 7 [.dict [("value".toList, .str "j@x".toList), ("type".toList, .str "work".toList)]]), second])]

/-- `userName sw "J" and emails.type eq "WORK" and meta.created gt "5"` -/
def exFilter : Op :=
  .and [.cmp .sw { attr := "userName".toList } (.str "J".toList),
        .cplx { attr := "emails".toList } (.cmp .eq { attr := "type".toList } (.str "WORK".toList)),
        .cplx { attr := "meta".toList } (.cmp .gt { attr := "created".toList } (.str "5".toList))]

example : Filter.parse "userName sw \"J\" and emails.type eq \"WORK\" and meta.created gt \"5\"".toList = .ok (some exFilter, {}) := by rfl

/-- Dates without an offset. -/
def Local (d : DateTime) : Prop := d.off = none

theorem of_find {attrs : List Attr} {r : AttrRep} {Q : Attr → Prop} (q : Attr → Bool) (hq : ∀ a, q a = true → Q a)
    (h : (findAttr attrs r).all q = true) : ∀ a, findAttr attrs r = some a → Q a := by
  intro a ha
  rw [ha] at h
  exact hq a (by simpa using h)

/-- An attribute for text without regard to case. -/
def isText (a : Attr) : Bool := !a.isComplex && !a.info.caseExact && a.info.type != .dateTime && a.info.type != .unknown

/-- Text is compared with text, without regard to case. -/
theorem comparable_text {P : DateTime → Prop} {attrs : List Attr} {o : CmpOp} {t : Str} {a : Attr} (h : isText a = true) :
    a.Comparable P attrs o (.str t) := by
  simp only [isText, Bool.and_eq_true, Bool.not_eq_true', bne_iff_ne, ne_eq] at h
  cases a with
  | complex => simp [Attr.isComplex] at h
  | simple i =>
    refine ⟨h.2, fun _ => ?_⟩
    rw [if_neg (show ¬ i.type = .dateTime from h.1.2)]
    exact .inr (.inl ⟨⟨t, rfl⟩, h.1.1.2⟩)

theorem local_all (s : Str) (d : DateTime) (h : fromIso s = some d) : Local d := by
  have h : (decInt s).map (fun n => ({ wall := n, off := none } : DateTime)) = some d := h
  cases hn : decInt s with
  | none => rw [hn] at h; cases h
  | some n => rw [hn] at h; cases h; rfl

/-- An attribute for one date. -/
def isDate (attrs : List Attr) (a : Attr) : Bool :=
  !a.isComplex && a.info.type == .dateTime && !a.info.multi && !a.underMulti attrs

/-- A date is compared with a date. -/
theorem comparable_date {attrs : List Attr} {o : CmpOp} {t : Str} {a : Attr} (h : isDate attrs a = true) :
    a.Comparable Local attrs o (.str t) := by
  simp only [isDate, Bool.and_eq_true, Bool.not_eq_true', beq_iff_eq] at h
  cases a with
  | complex => simp [Attr.isComplex] at h
  | simple i =>
    have ht : i.type = .dateTime := h.1.1.2
    refine ⟨by rw [ht]; simp, fun _ => ?_⟩
    rw [if_pos ht]
    refine ⟨h.1.2, h.2, fun s d hd hp => ⟨t, rfl, fun _ d' hd' => ?_⟩⟩
    rw [show d.off = none from hp, show d'.off = none from local_all t d' hd']

/-- The sub-attribute of a complex attribute. -/
theorem fits_sub {attrs : List Attr} {w : Str} {o : Op} (q : Attr → Bool)
    (hq : ∀ a, q a = true → o.WellTyped Local a.subs)
    (h : (findAttr attrs { attr := w }).all (fun a => a.subs.all (fun s => s.rep.sub.isEmpty && !s.isComplex) && q a) = true) :
    (Op.cplx { attr := w } o).WellTyped Local attrs := by
  rw [Op.WellTyped]
  refine ⟨⟨.inl rfl, .inl rfl⟩, ?_⟩
  cases hf : findAttr attrs { attr := w } with
  | none => trivial
  | some a =>
    cases a with
    | simple i => trivial
    | complex i subs ps ds =>
      rw [hf] at h
      simp only [Option.all_some, Bool.and_eq_true, List.all_eq_true, List.isEmpty_iff, Bool.not_eq_true'] at h
      exact ⟨fun s hs => h.1 s hs, hq _ h.2⟩

/-- The hypothesis on the filter is met. -/
theorem exFilter_fits : exFilter.WellTyped Local userSchema.attrs.all := by
  have readable : ∀ (attrs : List Attr) (w : Str), ReadableName attrs { attr := w } := fun _ _ => ⟨.inl rfl, .inl rfl⟩
  unfold exFilter
  rw [Op.WellTyped, Op.AllWellTyped, Op.AllWellTyped, Op.AllWellTyped, Op.AllWellTyped]
  refine ⟨?_, ?_, ?_, trivial⟩
  · rw [Op.WellTyped]
    exact ⟨readable _ _, of_find isText (fun a ha => comparable_text ha) (by decide +kernel)⟩
  · refine fits_sub (fun a => (findAttr a.subs { attr := "type".toList }).all isText) (fun a ha => ?_) (by decide +kernel)
    rw [Op.WellTyped]
    exact ⟨readable _ _, of_find isText (fun a ha => comparable_text ha) ha⟩
  · refine fits_sub (fun a => (findAttr a.subs { attr := "created".toList }).all (isDate a.subs)) (fun a ha => ?_) (by decide +kernel)
    rw [Op.WellTyped]
    exact ⟨readable _ _, of_find (isDate a.subs) (fun a ha => comparable_date ha) ha⟩

theorem dated_local (attrs : List Attr) (x : Val) : Dated Local attrs x := by
  intro r a y _ _
  cases a with
  | simple i => exact fun _ s _ d hd => local_all s d hd
  | complex i subs ps ds => exact fun _ _ _ _ _ _ _ _ s _ d hd => local_all s d hd

/-- Another user. -/
def exOther (name : Str) (mails : List Val) : Val := .dict (exUser name 9 mails)

/-- A user that matches. -/
def exJim : Val := exOther "Jim".toList [.dict [("type".toList, .str "Work".toList)]]

/-- The codes of the issues, without the common prefix of their locations. -/
def codes (r : PyM (Response × Issues)) : Option (List (Loc × List Nat)) :=
  match r with
  | .ok (_, is) => some (is.issues.map (fun e => (e.1.drop 1, e.2.map (·.code))))
  | .error _ => none

/-- A user that matches is accepted, one that does not is reported. -/
example : codes (V.dumpList [userSchema] 200 (.dict (exUsers exJim)) .null 1 none
    (some exFilter) none none) = some [] := by decide +kernel

example : codes (V.dumpList [userSchema] 200 (.dict (exUsers (exOther "Kim".toList []))) .null 1 none
    (some exFilter) none none) = some [([.name "Resources".toList, .idx 1], [25])] := by decide +kernel

/-- The hypotheses on the body are met. -/
theorem exUsers_ok : (Val.dict (exUsers exJim)).Tame ∧ ListBody [userSchema] (exUsers exJim) := by
  have ht : (Val.dict (exUsers exJim)).Tame := by
    simp only [exUsers, exUser, exOther, exJim, Val.Tame, TamePairs, TameList, Val.str, Val.int]
    repeat' apply And.intro
    all_goals first | decide +kernel | exact True.intro
  have htame : ∀ n w ms, n ∈ ["jane".toList, "Jim".toList] → w ∈ [7, 9] → ms ∈ [[("value".toList, Val.str "j@x".toList), ("type".toList, .str "work".toList)], [("type".toList, .str "Work".toList)]] → (Val.dict (exUser n w [.dict ms])).Tame := by
    intro n w ms h1 h2 h3
    simp only [List.mem_cons, List.not_mem_nil, or_false] at h1 h2 h3
    rcases h1 with rfl | rfl <;> rcases h2 with rfl | rfl <;> rcases h3 with rfl | rfl <;>
      (simp only [exUser, Val.Tame, TamePairs, TameList, Val.str]; repeat' apply And.intro) <;>
      first | decide +kernel | exact True.intro
  refine ⟨ht, ?_, by decide +kernel, ?_, ?_⟩
  · exact (ListTotality.json_of (s := ListA.schema) ht (by decide +kernel) (v := .list [.str ListA.urn]) (by decide +kernel)
      (ListTotality.schemasOk_text _)).2 _ rfl
  · intro k xs hmem hl r hr s hs
    have hs : s = userSchema := by simpa using hs
    subst hs
    simp only [exUsers, List.mem_cons, List.not_mem_nil, or_false, Prod.mk.injEq] at hmem
    rcases hmem with ⟨rfl, _⟩ | ⟨rfl, _⟩ | ⟨rfl, h⟩
    · exact absurd hl (by decide +kernel)
    · exact absurd hl (by decide +kernel)
    · cases h
      simp only [List.mem_cons, List.not_mem_nil, or_false] at hr
      rcases hr with rfl | rfl
      · exact ListTotality.json_of (htame _ _ _ (by simp) (by simp) (by simp)) (by decide +kernel) (v := .list [.str UserA.urn]) (by decide +kernel) (ListTotality.schemasOk_text _)
      · exact ListTotality.json_of (htame _ _ _ (by simp) (by simp) (by simp)) (by decide +kernel) (v := .list [.str UserA.urn]) (by decide +kernel) (ListTotality.schemasOk_text _)
  · intro h; exact absurd rfl h

/-- All hypotheses of C107 are met at once. -/
example (resp : Response) (is : Issues)
    (h : V.dumpList [userSchema] 200 (.dict (exUsers exJim)) .null 1 none (some exFilter) none none = .ok (resp, is))
    (hn : is.hasIssues = false) : ∃ b xs ids, ListA.dump [userSchema] (.dict (exUsers exJim)) = .ok (b, {}) ∧
      resp.body = b.toDict ∧ (b.getItem (ListA.rep "Resources".toList) = .ok .missing ∧ xs = [] ∨
        b.getItem (ListA.rep "Resources".toList) = .ok (.list xs)) ∧
      ListA.schemasFor [userSchema] xs = .ok ids ∧ ids.length = xs.length ∧
      ∀ (k : Nat) (x : Val) (t : Option Nat), xs[k]? = some x → ids[k]? = some t → Verdict [userSchema] exFilter x t true :=
  C107_users_groups _ (.inl rfl) _ _ _ exUsers_ok.1 exUsers_ok.2 _ _ Local exFilter
    (fun s hs => by rw [List.mem_singleton.mp hs]; exact exFilter_fits) _ _ _ _ h hn (fun _ _ _ _ _ _ _ _ => dated_local _ _)

/-! ### What the conditions on the filter exclude -/

/-- What a filter says about a user. -/
def said (text : Str) (user : Val) : Option (PyErr ⊕ MatchStatus) :=
  match Filter.parse text, userSchema.dump user with
  | .ok (some o, _), .ok (y, is) =>
    if is.hasIssues then none
    else some (match Filter.call o y userSchema.attrs.all false with | .ok st => .inr st | .error e => .inl e)
  | _, _ => none

/-- A name before the colon that is the name of an attribute. -/
theorem C107_prefix_raises : said "userName:foo eq \"x\"".toList (exOther "jane".toList []) = some (.inl .typeError) := by decide +kernel

/-- Presence of a multi-valued complex attribute. -/
theorem C107_presence_raises : said "emails pr".toList (exOther "jane".toList [.dict [("value".toList, .str "j@x".toList)]]) =
    some (.inl .attributeError) := by decide +kernel

/-- A date compared with a number, even for equality. -/
theorem C107_date_raises : said "meta.created eq 5".toList (exOther "jane".toList []) = some (.inl .typeError) := by decide +kernel

/-- Text compared with a number for the order. -/
theorem C107_number_raises : said "userName gt 5".toList (exOther "jane".toList []) = some (.inl .typeError) := by decide +kernel

/-- **C107** one resource for which the filter raises hides the others: a user without e-mail addresses, which does not match
`emails pr`, is accepted in the answer to a request for users with some. -/
theorem C107_hidden :
    said "emails pr".toList (exOther "jim".toList []) = some (.inr .failed) ∧
    codes (V.dumpList [userSchema] 200 (.dict (exUsers (exOther "jim".toList []))) .null 1 none
      (some (.pr { attr := "emails".toList })) none none) = some [] := ⟨by decide +kernel, by decide +kernel⟩

end Scim.Examples.FilterTypes
