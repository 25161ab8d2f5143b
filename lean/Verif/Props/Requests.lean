import Verif.Spec.Validators
import Verif.Lemmas.Validators
import Verif.Props.Filter

/-! Requests: C70, C76, C78, C79. -/

namespace Scim
open Issues V
variable [PyEnv]

/-! ### C70 -/

/-- **C70** a PUT request has a body exactly when it has no issues; the headers are kept. -/
theorem C70_put (s : Schema) (body headers query : Val) (req : Request) (is : Issues)
    (h : parsePut s body headers query = .ok (req, is)) :
    (req.body ≠ .null ↔ is.hasIssues = false) ∧ req.headers = headers := by
  obtain ⟨q, iq, b, ib, hq, hb, rfl, hh, _, hc⟩ := parsePut_split h
  refine ⟨?_, hh⟩
  rcases hc with ⟨h1, h2⟩ | ⟨h1, h2⟩
  · simp [h1, h2]
  · obtain ⟨is1, is2, hp, hn, _⟩ := parseBody_clean hb ((hasIssues_merge_false _ _ _).mp h1).2
    have := (dropReadOnly_reach (process_noIssues hp hn).2 h2).isCont
    simp only [h1, iff_true]
    intro e; rw [e] at this; cases this

/-- **C70** it has none exactly when the query string has none, the body is valid, and no required attribute is
missing. -/
theorem C70_put_accepted (s : Schema) (body headers query : Val) (req : Request) (is : Issues)
    (h : parsePut s body headers query = .ok (req, is)) :
    is.hasIssues = false ↔
      (∃ q iq, parseQuery query = .ok (q, iq) ∧ iq.hasIssues = false) ∧
      ∃ b ib ip, s.parse body = .ok (b, ib) ∧ ib.hasIssues = false ∧
        Checker.call {} b s.attrs .request = .ok ip ∧ ip.hasIssues = false := by
  obtain ⟨q, iq, b, ib, hq, hb, rfl, -⟩ := parsePut_split h
  rw [hasIssues_merge_false]
  constructor
  · rintro ⟨h1, h2⟩
    obtain ⟨is1, is2, hp, hn, hc, hn'⟩ := parseBody_clean hb h2
    exact ⟨⟨q, iq, hq, h1⟩, b, is1, is2, hp, hn, hc, hn'⟩
  · rintro ⟨⟨q', iq', hq', h1⟩, b', is1, is2, hp, hn, hc, hn'⟩
    rw [hq] at hq'; cases hq'
    refine ⟨h1, ?_⟩
    obtain ⟨is1', is2', hp', rfl, _, hcase⟩ := parseBody_split hb
    rw [hp] at hp'; cases hp'
    rw [merge_empty_clean _ hn, canProceed_empty] at hcase
    rcases hcase with ⟨-, hcase⟩ | ⟨hcase, -⟩
    · rw [hc] at hcase; cases hcase
      rw [hasIssues_merge_false, hasIssues_merge_false]
      exact ⟨⟨rfl, hn⟩, hn'⟩
    · cases hcase

/-- **C70** a POST request has a body exactly when it has no issues, and then it is the parsed one; the headers are
kept. -/
theorem C70_post (s : Schema) (body headers query : Val) (req : Request) (is : Issues)
    (h : parsePost s body headers query = .ok (req, is)) :
    (req.body ≠ .null ↔ is.hasIssues = false) ∧ req.headers = headers ∧
      (is.hasIssues = false → ∃ ib, s.parse body = .ok (req.body, ib) ∧ ib.hasIssues = false) := by
  obtain ⟨q, iq, b, ib, hq, hb, rfl, hh, _, hc⟩ := parsePost_split h
  refine ⟨?_, hh, ?_⟩
  · by_cases h1 : (iq.merge ib).hasIssues = true
    · rw [if_pos h1] at hc; simp [h1, hc]
    · have h1 : (iq.merge ib).hasIssues = false := by simpa using h1
      rw [h1] at hc
      simp only [Bool.false_eq_true, if_false] at hc
      obtain ⟨is1, is2, hp, hn, _⟩ := parseBody_clean hb ((hasIssues_merge_false _ _ _).mp h1).2
      have := (process_noIssues hp hn).2.isCont
      simp only [h1, iff_true]
      intro e; rw [← hc, e] at this; cases this
  · intro h1
    rw [h1] at hc
    simp only [Bool.false_eq_true, if_false] at hc
    obtain ⟨is1, is2, hp, hn, _⟩ := parseBody_clean hb ((hasIssues_merge_false _ _ _).mp h1).2
    exact ⟨is1, by rw [hc]; exact hp, hn⟩

/-- **C70** it has none exactly when the query string has none, the body is valid, and no required attribute is missing
but those the server issues. -/
theorem C70_post_accepted (s : Schema) (body headers query : Val) (req : Request) (is : Issues)
    (h : parsePost s body headers query = .ok (req, is)) :
    is.hasIssues = false ↔
      (∃ q iq, parseQuery query = .ok (q, iq) ∧ iq.hasIssues = false) ∧
      ∃ b ib ip, s.parse body = .ok (b, ib) ∧ ib.hasIssues = false ∧
        Checker.call { ignore := (s.attrs.all.filter (fun a => a.info.required && a.info.issuer == .server)).map Attr.rep }
          b s.attrs .request = .ok ip ∧ ip.hasIssues = false := by
  obtain ⟨q, iq, b, ib, hq, hb, rfl, -⟩ := parsePost_split h
  rw [hasIssues_merge_false]
  constructor
  · rintro ⟨h1, h2⟩
    obtain ⟨is1, is2, hp, hn, hc, hn'⟩ := parseBody_clean hb h2
    exact ⟨⟨q, iq, hq, h1⟩, b, is1, is2, hp, hn, hc, hn'⟩
  · rintro ⟨⟨q', iq', hq', h1⟩, b', is1, is2, hp, hn, hc, hn'⟩
    rw [hq] at hq'; cases hq'
    refine ⟨h1, ?_⟩
    obtain ⟨is1', is2', hp', rfl, _, hcase⟩ := parseBody_split hb
    rw [hp] at hp'; cases hp'
    rw [merge_empty_clean _ hn, canProceed_empty] at hcase
    rcases hcase with ⟨-, hcase⟩ | ⟨hcase, -⟩
    · rw [serverRequired, hc] at hcase; cases hcase
      rw [hasIssues_merge_false, hasIssues_merge_false]
      exact ⟨⟨rfl, hn⟩, hn'⟩
    · cases hcase

/-- A finished response has a body exactly when it has no issues. -/
theorem finish_body {headers b : Val} {is : Issues} (hb : is.hasIssues = false → b.Reach) :
    ((finish headers b is).1.body ≠ .null ↔ is.hasIssues = false) := by
  unfold finish
  simp only
  split
  · rename_i h; simp [h]
  · rename_i h
    simp only [h, iff_true]
    obtain ⟨kvs, he⟩ := (hb (by simpa using h)).toDict
    rw [he]; intro e; cases e

/-- **C70** a resource response has a body exactly when it has no issues; its headers are those given, or empty. -/
theorem C70_response (s : Schema) (lr : Bool) (ex st : Int) (body headers : Val) (c : Option Checker) (resp : Response)
    (is : Issues) (h : dumpResource s lr ex st body headers c = .ok (resp, is)) :
    (resp.body ≠ .null ↔ is.hasIssues = false) ∧
      resp.headers = (if headers.truthy then headers else .dict []) := by
  obtain ⟨b, is1, is2, i3, is3, hd, rfl, rfl, _, _, hl, hh, hb⟩ := dumpResource_split h
  refine ⟨?_, hh⟩
  rw [hb]
  refine finish_body (headers := headers) (b := b) (is := is) ?_
  intro hn
  have hn := checkLocations_noIssues hl hn
  simp only [hasIssues_merge_false] at hn
  exact (dump_noIssues hd hn.1.1.1.2).2.1

/-- **C70** so it is with responses to GET and PUT, -/
theorem C70_get_response (s : Schema) (st : Int) (body headers : Val) (c : Option Checker) (resp : Response)
    (is : Issues) (h : dumpGet s st body headers c = .ok (resp, is)) :
    resp.body ≠ .null ↔ is.hasIssues = false := (C70_response _ _ _ _ _ _ _ _ _ h).1

/-- **C70** to POST, unless there is no body, and then none is passed on and nothing is reported, -/
theorem C70_post_response (s : Schema) (st : Int) (body headers : Val) (c : Option Checker) (resp : Response)
    (is : Issues) (h : dumpPost s st body headers c = .ok (resp, is)) :
    (body.truthy = true → (resp.body ≠ .null ↔ is.hasIssues = false)) ∧
    (body.truthy = false → resp.body = .null ∧ is = {} ∧ resp.headers = headers) := by
  unfold dumpPost at h
  split at h
  · rename_i hb
    exact ⟨fun _ => (C70_response _ _ _ _ _ _ _ _ _ h).1, fun h' => by rw [hb] at h'; cases h'⟩
  · rename_i hb
    cases h
    exact ⟨fun h' => absurd h' hb, fun _ => ⟨rfl, rfl, rfl⟩⟩

/-- **C70** to PATCH, unless the status says that there is no content, -/
theorem C70_patch_response (s : Schema) (st : Int) (hst : st ≠ 204) (body headers : Val) (c : Option Checker)
    (resp : Response) (is : Issues) (h : dumpPatch s st body headers c = .ok (resp, is)) :
    resp.body ≠ .null ↔ is.hasIssues = false := by
  unfold dumpPatch at h
  rw [if_neg hst] at h
  exact (C70_response _ _ _ _ _ _ _ _ _ h).1

theorem errorStatus_mono {body : Val} {st : Int} {is r : Issues} (h : errorStatus body st is = .ok r)
    (hn : r.hasIssues = false) : is.hasIssues = false := by
  unfold errorStatus at h
  split at h
  · cases h
  · split at h
    · split at h
      · cases h
      · split at h
        · cases h
        · cases h; exact ((hasIssues_merge_false _ _ _).mp hn).1
    · cases h; exact hn

/-- **C70** and with error responses. -/
theorem C70_error (st : Int) (body headers : Val) (resp : Response) (is : Issues)
    (h : dumpError st body headers = .ok (resp, is)) :
    (resp.body ≠ .null ↔ is.hasIssues = false) ∧ resp.headers = headers := by
  unfold dumpError at h
  split at h
  · cases h
  rename_i b is1 hd
  split at h
  · cases h
  rename_i is2 hc
  split at h
  · cases h
  rename_i is3 hs
  have hfin : finish headers b (is3.merge (errorStatusRange st)) = (resp, is) := by injection h
  have e1 : is3.merge (errorStatusRange st) = is := congrArg Prod.snd hfin
  have e2 : (finish headers b is).1 = resp := by rw [← e1, hfin]
  refine ⟨?_, by rw [← e2]; rfl⟩
  rw [← e2]
  refine finish_body ?_
  intro hn
  rw [← e1, hasIssues_merge_false] at hn
  have hn := errorStatus_mono hs hn.1
  obtain ⟨is3, rfl, _⟩ := checkBody_mono hc
  simp only [hasIssues_merge_false] at hn
  exact (dump_noIssues hd hn.1.2).2.1

/-! ### C76 -/

theorem splitNames_of {v : Option Val} {names : List Str} (h : NamesIn v names) :
    splitNames (v.getD (.list [])) = .list (names.map Val.str) := by
  cases h with
  | absent => rfl
  | text h1 h2 h3 =>
    rename_i parts
    rw [Option.getD_some]
    have : splitChar ',' (joinWith ',' names) = names := splitChar_joinWith _ h1 h2
    cases hj : joinWith ',' names with
    | nil => exact absurd hj h3
    | cons c cs =>
      show Val.list ((splitChar ',' (c :: cs)).map Val.str) = _
      rw [← hj, this]
  | list names => rfl

omit [PyEnv] in
theorem strings_map (names : List Str) : strings (names.map Val.str) = .ok names := by
  induction names with
  | nil => rfl
  | cons n ns ih => simp only [List.map_cons, strings, Val.str] at ih ⊢; rw [ih]

theorem parseNames_wf (ss : List Str) (reps : List AttrRep) (all : Bool) (is : Issues) (h : is.WF) :
    (parseNames ss reps all is).2.2.WF := by
  induction ss generalizing reps all is with
  | nil => exact h
  | cons s ss ih =>
    rw [parseNames]
    split
    · split
      · exact ih _ _ _ h
      · exact ih _ _ _ h
    · exact ih _ _ _ (h.add _ _ _)

theorem checker_parse_wf (names : List Str) (incl : Option Bool) : (Checker.parse names incl).2.WF := by
  unfold Checker.parse
  have := parseNames_wf names [] true {} WF.empty
  rcases hpn : parseNames names [] true {} with ⟨reps, all, issues⟩
  rw [hpn] at this; exact this

theorem parseRequested_wf {q : List (Str × Val)} {c : Val} {is : Issues} (h : parseRequested q = .ok (c, is)) : is.WF := by
  have hp : ∀ {ns incl}, parseNamesAs ns incl = .ok (c, is) → is.WF := by
    intro ns incl h
    unfold parseNamesAs at h
    split at h
    · cases h
    · cases h
      exact WF.empty.merge (checker_parse_wf _ (some incl)) _
  unfold parseRequested requested at h
  split at h
  · cases h; exact WF.empty
  · exact hp h
  · exact hp h
  · cases h; exact (WF.empty.add _ _ _).add _ _ _
  · cases h; exact WF.empty

/-- **C76** when both parameters name attributes, both are reported, and there is no checker. -/
theorem C76_both (q : List (Str × Val)) (a b : List Str) (ha : NamesIn (aget (namesParam true) q) a)
    (hb : NamesIn (aget (namesParam false) q) b) (ha' : a ≠ []) (hb' : b ≠ []) :
    ∃ is, parseRequested q = .ok (.invalid, is) ∧
      ∀ l, is.codesAt l = if l = [.name "attributes".toList] ∨ l = [.name "excludeAttributes".toList] then [30] else [] := by
  obtain ⟨x, xs, rfl⟩ := List.exists_cons_of_ne_nil ha'
  obtain ⟨y, ys, rfl⟩ := List.exists_cons_of_ne_nil hb'
  refine ⟨(Issues.empty.add ⟨30, []⟩ false [.name attributesWord]).add ⟨30, []⟩ false [.name excludeWord], ?_, ?_⟩
  · unfold parseRequested
    rw [show attributesWord = namesParam true from rfl, show excludeWord = namesParam false from rfl,
      splitNames_of ha, splitNames_of hb]
    rfl
  · intro l
    unfold Issues.codesAt
    rw [errorsAt_add, errorsAt_add]
    by_cases h1 : l = [.name "attributes".toList]
    · subst h1; decide
    · by_cases h2 : l = [.name "excludeAttributes".toList]
      · subst h2; decide
      · have e1 : [LKey.name attributesWord] ≠ l := fun h => h1 h.symm
        have e2 : [LKey.name excludeWord] ≠ l := fun h => h2 h.symm
        rw [if_neg (not_or.mpr ⟨h1, h2⟩), if_neg e1, if_neg e2]
        rfl

/-- **C76** when neither names any, there is no checker and nothing is reported. -/
theorem C76_none (q : List (Str × Val)) (ha : NamesIn (aget (namesParam true) q) [])
    (hb : NamesIn (aget (namesParam false) q) []) : parseRequested q = .ok (.null, {}) := by
  unfold parseRequested
  rw [show attributesWord = namesParam true from rfl, show excludeWord = namesParam false from rfl,
    splitNames_of ha, splitNames_of hb]
  rfl

theorem parseRequested_one (q : List (Str × Val)) (incl : Bool) (names : List Str)
    (ha : NamesIn (aget (namesParam incl) q) names) (hn : names ≠ []) (hb : NamesIn (aget (namesParam (!incl)) q) []) :
    parseRequested q = .ok (match (Checker.parse names (some incl)).1 with
        | some c => .obj (.checker c)
        | none => .invalid,
      Issues.empty.merge (Checker.parse names (some incl)).2 [.name (namesParam incl)]) := by
  obtain ⟨x, xs, rfl⟩ := List.exists_cons_of_ne_nil hn
  have key : parseRequested q = parseNamesAs ((x :: xs).map Val.str) incl := by
    unfold parseRequested
    cases incl
    · rw [show attributesWord = namesParam (!false) from rfl, show excludeWord = namesParam false from rfl,
        splitNames_of ha, splitNames_of hb]
      rfl
    · rw [show attributesWord = namesParam true from rfl, show excludeWord = namesParam (!true) from rfl,
        splitNames_of ha, splitNames_of hb]
      rfl
  rw [key, parseNamesAs, strings_map]
  rfl

/-- **C76** when one of them names attributes and all are attribute names, there is a checker for these with the right
polarity and nothing is reported. -/
theorem C76_checker (q : List (Str × Val)) (incl : Bool) (names : List Str)
    (ha : NamesIn (aget (namesParam incl) q) names) (hn : names ≠ []) (hb : NamesIn (aget (namesParam (!incl)) q) [])
    (hok : ∀ n ∈ names, ∃ r, AttrRep.parse n = some r) :
    ∃ reps, names.map AttrRep.parse = reps.map some ∧
      parseRequested q = .ok (.obj (.checker { reps, incl := some incl }), {}) := by
  obtain ⟨c, hc⟩ := (C41_checker_iff names (some incl)).mpr hok
  obtain ⟨h1, h2, h3⟩ := C41_checker names (some incl) c hc
  refine ⟨c.reps, h1, ?_⟩
  rw [parseRequested_one q incl names ha hn hb, hc]
  have hi : (Checker.parse names (some incl)).2.hasIssues = false := by
    cases hb : (Checker.parse names (some incl)).2.hasIssues with
    | false => rfl
    | true =>
      exfalso
      obtain ⟨l, hl⟩ := (hasIssues_iff_errors (checker_parse_wf names (some incl))).mp hb
      apply hl
      have h3 := C41_issues names (some incl) l
      rw [List.filter_eq_nil_iff.mpr] at h3
      · simpa [Issues.codesAt] using h3
      · intro n hn'
        obtain ⟨r, hr⟩ := hok n hn'
        simp [hr]
  have : c = { reps := c.reps, incl := some incl } := by
    cases c; simp only at h2 h3; subst h2; subst h3; rfl
  rw [← this, merge_noIssues _ _ hi]

/-- **C76** and when some are not, there is no checker and exactly these are reported. -/
theorem C76_bad_names (q : List (Str × Val)) (incl : Bool) (names : List Str)
    (ha : NamesIn (aget (namesParam incl) q) names) (hb : NamesIn (aget (namesParam (!incl)) q) [])
    (bad : Str) (hbad : bad ∈ names) (hb' : AttrRep.parse bad = none) :
    ∃ is, parseRequested q = .ok (.invalid, is) ∧
      ∀ l, (is.codesAt l ≠ [] ↔ ∃ n ∈ names, AttrRep.parse n = none ∧ l = [.name (namesParam incl), .name n]) ∧
        ∀ k ∈ is.codesAt l, k = 111 := by
  have hn : names ≠ [] := List.ne_nil_of_mem hbad
  refine ⟨Issues.empty.merge (Checker.parse names (some incl)).2 [.name (namesParam incl)], ?_, ?_⟩
  · rw [parseRequested_one q incl names ha hn hb, (C41_bad_reported names (some incl) bad hbad hb').2]
  · intro l
    have hw := checker_parse_wf names (some incl)
    have hl : (Issues.empty.merge (Checker.parse names (some incl)).2 [.name (namesParam incl)]).codesAt l =
        if [LKey.name (namesParam incl)] <+: l then (Checker.parse names (some incl)).2.codesAt (l.drop 1) else [] := by
      unfold Issues.codesAt
      rw [errorsAt_merge hw]
      split <;> simp
    rw [hl]
    constructor
    · split
      · rename_i hp
        obtain ⟨t, rfl⟩ := hp
        rw [C41_issues]
        simp only [List.cons_append, List.nil_append, List.drop_succ_cons, List.drop_zero, ne_eq, List.map_eq_nil_iff,
          List.filter_eq_nil_iff, Bool.and_eq_true, decide_eq_true_eq, Option.isNone_iff_eq_none, List.cons.injEq, true_and]
        constructor
        · intro h
          apply Classical.byContradiction
          intro h2
          exact h fun n hn h' => h2 ⟨n, hn, h'⟩
        · rintro ⟨n, hn, h1, h2⟩ h
          exact h n hn ⟨h1, h2⟩
      · rename_i hp
        simp only [ne_eq, not_true, false_iff]
        rintro ⟨n, _, _, rfl⟩
        exact hp ⟨[.name n], rfl⟩
    · split
      · intro k hk
        rw [C41_issues, List.mem_map] at hk
        obtain ⟨_, _, rfl⟩ := hk; rfl
      · simp

/-! ### C78 -/

/-- **C78** a response to DELETE has no body, and an issue exactly when the status is not 204. -/
theorem C78_delete (st : Int) (headers : Val) :
    (dumpDelete st headers).1.body = .null ∧ ((dumpDelete st headers).2.hasIssues = true ↔ st ≠ 204) ∧
      (st ≠ 204 → ∀ l, (dumpDelete st headers).2.codesAt l = if l = [.name "status".toList] then [16] else []) := by
  unfold dumpDelete
  refine ⟨rfl, ?_, ?_⟩
  · split
    · rename_i h; simp [h, show Issues.hasIssues {} = false from rfl]
    · rename_i h; simp [h, hasIssues_add]
  · intro h l
    simp only [if_neg h, Issues.codesAt, errorsAt_add, statusLoc]
    by_cases hl : l = [.name "status".toList]
    · rw [if_pos hl, if_pos hl.symm]; rfl
    · rw [if_neg hl, if_neg (Ne.symm hl)]; rfl

/-- **C78** a response to PATCH with the status 204 has no body, and an issue exactly when attributes were asked for or
excluded. -/
theorem C78_patch (s : Schema) (body headers : Val) (c : Option Checker) :
    ∃ is, dumpPatch s 204 body headers c = .ok ({ headers, body := .null }, is) ∧
      (is.hasIssues = true ↔ ∃ c', c = some c' ∧ c'.reps ≠ []) ∧
      ∀ l, is.codesAt l ≠ [] → l = [.name "status".toList] ∧ is.codesAt l = [16] := by
  refine ⟨_, rfl, ?_, ?_⟩
  · cases c with
    | none => simp [show Issues.hasIssues {} = false from rfl]
    | some c => cases h : c.reps <;> simp [h, hasIssues_add, show Issues.hasIssues {} = false from rfl]
  · intro l hl
    split at hl
    · rename_i h
      rw [if_pos h]
      simp only [Issues.codesAt, errorsAt_add, statusLoc] at hl ⊢
      by_cases hl' : l = [.name "status".toList]
      · rw [if_pos hl'.symm]; exact ⟨hl', rfl⟩
      · rw [if_neg (Ne.symm hl')] at hl; exact absurd rfl hl
    · exact absurd rfl hl

/-! ### C79 -/

theorem parseNumber_spec {name : Str} {q q' : List (Str × Val)} {is is' : Issues}
    (h : parseNumber name q is = .ok (q', is')) :
    (is' = is ∧ NumberRead (aget name q) (aget name q') ∧ (∀ k, k ≠ name → aget k q' = aget k q)) ∨
    (∃ x e, aget name q = some x ∧ x.pyInt = .error e ∧ e.isValueError = true ∧ q' = q ∧
      is' = is.add ⟨2, []⟩ false (queryLoc ++ [.name name])) := by
  unfold parseNumber at h
  cases hg : aget name q with
  | none =>
    rw [hg] at h
    simp only [Option.getD_none, Val.null, Except.ok.injEq, Prod.mk.injEq] at h
    obtain ⟨rfl, rfl⟩ := h
    exact .inl ⟨rfl, .inl ⟨.inl rfl, hg⟩, fun _ _ => rfl⟩
  | some x =>
    rw [hg, Option.getD_some] at h
    split at h
    · cases h
      exact .inl ⟨rfl, .inl ⟨.inr rfl, hg⟩, fun _ _ => rfl⟩
    · split at h
      · rename_i i hi
        cases h
        exact .inl ⟨rfl, .inr ⟨x, i, rfl, hi, aget_aset_self _ _ _⟩, fun k hk => aget_aset_ne (Ne.symm hk) _ _⟩
      · rename_i e he
        split at h
        · rename_i hv
          cases h
          exact .inr ⟨x, e, rfl, he, hv, rfl, rfl⟩
        · cases h

theorem parseFiltering_clean {q : List (Str × Val)} {f : Val} {is : Issues} (h : parseFiltering q = .ok (f, is))
    (hn : is.hasIssues = false) : FilterRead (aget filterWord q) (some f) := by
  unfold parseFiltering at h
  cases hg : aget filterWord q with
  | none => rw [hg] at h; cases h; exact .inl ⟨.inl rfl, rfl⟩
  | some x =>
    rw [hg, Option.getD_some] at h
    split at h
    · rename_i s
      split at h
      · cases h
      · rename_i o i hp
        cases h
        exact .inr ⟨s, o, is, rfl, hp, rfl⟩
      · rename_i i hp
        cases h
        have := (C52_invalid_iff_issues s _ hp).mp rfl
        rw [hn] at this; cases this
    · cases h; exact .inl ⟨.inr rfl, rfl⟩
    · cases h; simp [hasIssues_add] at hn

theorem parseSorting_clean {q : List (Str × Val)} {v : Val} {is : Issues} (h : parseSorting q = (v, is))
    (hn : is.hasIssues = false) : SorterRead (aget sortByWord q) (aget sortOrderWord q) (some v) := by
  unfold parseSorting at h
  cases hg : aget sortByWord q with
  | none => rw [hg] at h; cases h; exact .inl ⟨.inl rfl, rfl⟩
  | some x =>
    rw [hg, Option.getD_some] at h
    split at h
    · rename_i s
      unfold SorterCfg.parse at h
      split at h
      · rename_i hp
        split at hp
        · cases hp
        · rename_i r hr
          cases hp
          cases h
          refine .inr ⟨s, r, _, rfl, hr, ?_, rfl⟩
          cases ho : aget sortOrderWord q with
          | none => simp [Val.isText, Val.str]
          | some o =>
            simp only [Option.getD_some, reduceCtorEq, Option.some.injEq, false_or]
            unfold Val.isText
            split
            · rename_i t
              simp only [beq_iff_eq]
              constructor
              · rintro rfl; rfl
              · intro e; cases e; rfl
            · rename_i hne
              constructor
              · intro e; cases e
              · intro e; exact absurd e (hne _)
      · rename_i hp
        split at hp
        · cases hp; cases h; simp [hasIssues_add] at hn
        · cases hp
    · cases h; exact .inl ⟨.inr rfl, rfl⟩
    · cases h; simp [hasIssues_add] at hn

/-- **C79** a list query without issues is a dictionary.  Its `count` and `startIndex` are integers afterwards, or not
given; its `filter` is a parsed filter, or it was not given; its `sorter` goes by the attribute named by `sortBy`,
ascending exactly when `sortOrder` is not given or `"ascending"`; there is a presence checker or none was asked for; and
nothing else is touched. -/
theorem C79_accepted (body headers query : Val) (req : Request) (is : Issues)
    (h : parseListRequest body headers query = .ok (req, is)) (hn : is.hasIssues = false) :
    req.headers = headers ∧ req.body = body ∧ ∃ q q' : List (Str × Val), query = .dict q ∧ req.query = .dict q' ∧
      NumberRead (aget "count".toList q) (aget "count".toList q') ∧
      NumberRead (aget "startIndex".toList q) (aget "startIndex".toList q') ∧
      FilterRead (aget "filter".toList q) (aget "filter".toList q') ∧
      SorterRead (aget "sortBy".toList q) (aget "sortOrder".toList q) (aget "sorter".toList q') ∧
      (∃ c, parseRequested q = .ok (c, {}) ∧ aget "presence_checker".toList q' = some c) ∧
      ∀ k, k ∉ ["count".toList, "startIndex".toList, "filter".toList, "sorter".toList, "presence_checker".toList] →
        aget k q' = aget k q := by
  unfold parseListRequest at h
  split at h
  · rename_i q
    split at h
    · cases h
    · rename_i q' is' hq
      cases h
      refine ⟨rfl, rfl, q, q', rfl, rfl, ?_⟩
      unfold parseListQuery at hq
      split at hq
      · cases hq
      rename_i f i1 hf
      simp only at hq
      split at hq
      · cases hq
      rename_i c i3 hc
      split at hq
      · cases hq
      rename_i q4 i4 h4
      rcases parseNumber_spec hq with ⟨rfl, n5, f5⟩ | ⟨_, _, _, _, _, _, rfl⟩
      case inr => simp [hasIssues_add] at hn
      rcases parseNumber_spec h4 with ⟨rfl, n4, f4⟩ | ⟨_, _, _, _, _, _, rfl⟩
      case inr => simp [hasIssues_add] at hn
      simp only [hasIssues_merge_false] at hn
      obtain ⟨⟨⟨-, hn1⟩, hn2⟩, hn3⟩ := hn
      have hF := parseFiltering_clean hf hn1
      have hS := parseSorting_clean (q := aset filterWord f q) (v := (parseSorting (aset filterWord f q)).1) rfl hn2
      generalize parseSorting (aset filterWord f q) = ps at *
      rw [aget_aset_ne (k' := sortByWord) (by decide), aget_aset_ne (k' := sortOrderWord) (by decide)] at hS
      rw [hn3] at f4 n4
      simp only [Bool.false_eq_true, if_false] at f4 n4
      have hreq : parseRequested (aset sorterWord ps.1 (aset filterWord f q)) = parseRequested q := by
        unfold parseRequested
        rw [aget_aset_ne (by decide), aget_aset_ne (by decide), aget_aset_ne (by decide), aget_aset_ne (by decide)]
      rw [hreq] at hc
      have w : ∀ k, k ≠ countWord → k ≠ startWord → aget k q' = aget k (aset checkerWord c (aset sorterWord
          ps.1 (aset filterWord f q))) := fun k h1 h2 => by rw [f5 k h2, f4 k h1]
      refine ⟨?_, ?_, ?_, ?_, ?_, ?_⟩
      · rw [aget_aset_ne (by decide), aget_aset_ne (by decide), aget_aset_ne (by decide)] at n4
        have := f5 countWord (by decide)
        show NumberRead (aget countWord q) (aget countWord q')
        rw [this]; exact n4
      · rw [f4 startWord (by decide), aget_aset_ne (by decide), aget_aset_ne (by decide), aget_aset_ne (by decide)] at n5
        exact n5
      · show FilterRead (aget filterWord q) (aget filterWord q')
        rw [w filterWord (by decide) (by decide), aget_aset_ne (by decide), aget_aset_ne (by decide), aget_aset_self]
        exact hF
      · show SorterRead (aget sortByWord q) (aget sortOrderWord q) (aget sorterWord q')
        rw [w sorterWord (by decide) (by decide), aget_aset_ne (by decide), aget_aset_self]
        exact hS
      · refine ⟨c, ?_, ?_⟩
        · rw [hc]
          rw [eq_empty_of_noIssues (parseRequested_wf hc) hn3]
        · show aget checkerWord q' = _
          rw [w checkerWord (by decide) (by decide), aget_aset_self]
      · intro k hk
        simp only [List.mem_cons, List.not_mem_nil, or_false, not_or] at hk
        obtain ⟨k1, k2, k3, k4, k5⟩ := hk
        rw [w k k1 k2, aget_aset_ne (k := checkerWord) (Ne.symm k5), aget_aset_ne (k := sorterWord) (Ne.symm k4),
          aget_aset_ne (k := filterWord) (Ne.symm k3)]
  · cases h; simp [hasIssues_add] at hn
  · cases h; simp [hasIssues_add] at hn

/-- **C79** a `count` or `startIndex` that is no number is reported at its place. -/
theorem C79_bad_number (body headers : Val) (q : List (Str × Val)) (req : Request) (is : Issues)
    (h : parseListRequest body headers (.dict q) = .ok (req, is)) (name : Str)
    (hname : name = "count".toList ∨ name = "startIndex".toList) (x : Val) (hx : aget name q = some x)
    (hx0 : x ≠ .null) (e : PyErr) (he : x.pyInt = .error e) :
    2 ∈ is.codesAt [.name "query_string".toList, .name name] := by
  have hbad : ∀ {w w' : Option Val}, w = some x → NumberRead w w' → False := by
    rintro w w' rfl (⟨h1 | h1, _⟩ | ⟨y, i, h1, h2, _⟩)
    · cases h1
    · cases h1; exact hx0 rfl
    · cases h1; rw [he] at h2; cases h2
  unfold parseListRequest at h
  simp only at h
  split at h
  · cases h
  rename_i q' is' hq
  cases h
  unfold parseListQuery at hq
  split at hq
  · cases hq
  rename_i f i1 hf
  simp only at hq
  generalize parseSorting (aset filterWord f q) = ps at *
  split at hq
  · cases hq
  rename_i c i3 hc
  split at hq
  · cases hq
  rename_i q4 i4 h4
  have hsame : ∀ k, k = countWord ∨ k = startWord → aget k (if i3.hasIssues = true then aset sorterWord ps.1 (aset filterWord f q)
      else aset checkerWord c (aset sorterWord ps.1 (aset filterWord f q))) = aget k q := by
    intro k hk
    have n1 : sorterWord ≠ k := by rcases hk with rfl | rfl <;> decide
    have n2 : filterWord ≠ k := by rcases hk with rfl | rfl <;> decide
    have n3 : checkerWord ≠ k := by rcases hk with rfl | rfl <;> decide
    split
    · rw [aget_aset_ne n1, aget_aset_ne n2]
    · rw [aget_aset_ne n3, aget_aset_ne n1, aget_aset_ne n2]
  rcases hname with rfl | rfl
  · rcases parseNumber_spec h4 with ⟨_, n4, _⟩ | ⟨_, _, _, _, _, _, h4'⟩
    · exact (hbad ((hsame _ (.inl rfl)).trans hx) n4).elim
    · have hmem : 2 ∈ i4.codesAt (queryLoc ++ [.name countWord]) := by
        rw [h4', Issues.codesAt, errorsAt_add, if_pos rfl]; simp
      rcases parseNumber_spec hq with ⟨rfl, _⟩ | ⟨_, _, _, _, _, _, rfl⟩
      · exact hmem
      · rw [Issues.codesAt, errorsAt_add, if_neg (by decide), List.append_nil]; exact hmem
  · have hq4 : aget startWord q4 = aget startWord q := by
      rw [← hsame _ (.inr rfl)]
      rcases parseNumber_spec h4 with ⟨_, _, h5⟩ | ⟨_, _, _, _, _, h5, _⟩
      · exact h5 _ (by decide)
      · rw [h5]
    rcases parseNumber_spec hq with ⟨_, n4, _⟩ | ⟨_, _, _, _, _, _, rfl⟩
    · exact (hbad (hq4.trans hx) n4).elim
    · show 2 ∈ Issues.codesAt _ (queryLoc ++ [.name startWord])
      rw [Issues.codesAt, errorsAt_add, if_pos rfl]; simp

/-- **C76** the checker is put into the query string as `presence_checker`; nothing else in it changes, and the issues
stand below `query_string`. -/
theorem C76_query (q : List (Str × Val)) (r : Val) (is : Issues) (h : parseQuery (.dict q) = .ok (r, is)) :
    ∃ c i, parseRequested q = .ok (c, i) ∧
      (∀ l, is.codesAt (.name "query_string".toList :: l) = i.codesAt l) ∧ is.codesAt [] = [] ∧
      ((i.hasIssues = true ∧ r = .dict q) ∨
        (i.hasIssues = false ∧ ∃ q', r = .dict q' ∧ aget "presence_checker".toList q' = some c ∧
          ∀ k, k ≠ "presence_checker".toList → aget k q' = aget k q)) := by
  unfold parseQuery at h
  simp only at h
  split at h
  · cases h
  rename_i c i hc
  have h1 : r = .dict (if i.hasIssues then q else aset checkerWord c q) := by cases h; rfl
  have h2 : is = Issues.empty.merge i queryLoc := by cases h; rfl
  refine ⟨c, i, hc, ?_, ?_, ?_⟩
  · intro l
    rw [h2, Issues.codesAt, errorsAt_merge (parseRequested_wf hc), if_pos ⟨l, rfl⟩]
    rfl
  · rw [h2, Issues.codesAt, errorsAt_merge (parseRequested_wf hc), if_neg (by decide)]
    rfl
  · cases hi : i.hasIssues with
    | true => rw [hi] at h1; exact .inl ⟨rfl, h1⟩
    | false =>
      rw [hi] at h1
      exact .inr ⟨rfl, _, h1, aget_aset_self _ _ _, fun k hk => aget_aset_ne (Ne.symm hk) _ _⟩

end Scim

namespace Scim.Examples.Requests
local instance requestsEnv : PyEnv := asciiEnv
open V

/-- the outcome of a request: whether there is a body, and the codes at a location -/
def outcome (r : PyM (Request × Issues)) (l : Loc) : Option (Bool × List Nat) :=
  r.toOption.map (fun p => (p.1.body.isCont, p.2.codesAt l))

/-- the outcome of a response -/
def sent (r : PyM (Response × Issues)) (l : Loc) : Option (Bool × List Nat) :=
  r.toOption.map (fun p => (p.1.body.isDict, p.2.codesAt l))

/-- a group -/
def group : List (Str × Val) :=
  [("schemas".toList, .list [.str GroupA.urn]), ("displayName".toList, .str "x".toList), ("id".toList, .str "1".toList)]

/-- **C70** -/
example : outcome (parsePut GroupA.schema (.dict group) .null (.dict [])) [] = some (true, []) := by decide +kernel
example : outcome (parsePut GroupA.schema (.dict (group.take 2)) .null (.dict [])) [.name "body".toList, .name "id".toList] =
    some (false, [15]) := by decide +kernel
example : outcome (parsePost GroupA.schema (.dict (group.take 2)) .null (.dict [])) [] = some (true, []) := by decide +kernel
example : outcome (parsePost GroupA.schema (.dict group) .null (.dict [("attributes".toList, .str "a b".toList)]))
    [.name "query_string".toList, .name "attributes".toList, .name "a b".toList] = some (false, [111]) := by decide +kernel
example : sent (dumpGet GroupA.schema 200 (.dict (group ++ [("meta".toList, .dict [("resourceType".toList, .str "Group".toList),
    ("location".toList, .str "/Groups/1".toList)])])) (.dict [("Location".toList, .str "/Groups/1".toList)]) none) [] =
    some (true, []) := by decide +kernel
example : sent (dumpPost GroupA.schema 201 .null .null none) [] = some (false, []) := by decide +kernel
example : sent (dumpPatch GroupA.schema 200 (.dict group) .null none) [.name "status".toList] =
    some (true, []) := by decide +kernel
example : sent (dumpError 404 (.dict [("schemas".toList, .list [.str ErrorA.urn]), ("status".toList, .str "404".toList)]) .null) [] =
    some (true, []) := by decide +kernel

/-- the checker of a query -/
def checkerOf (q : List (Str × Val)) : Option (Option Checker × Bool) :=
  (parseRequested q).toOption.map (fun p => ((match p.1 with | .obj (.checker c) => some c | _ => none), p.2.hasIssues))

/-- **C76** -/
example : NamesIn (aget (namesParam true) [("attributes".toList, .str "a,b.c".toList)]) ["a".toList, "b.c".toList] := by
  have : Val.str "a,b.c".toList = Val.str (joinWith ',' ["a".toList, "b.c".toList]) := by decide +kernel
  have h : aget (namesParam true) [("attributes".toList, Val.str "a,b.c".toList)] = some (.str "a,b.c".toList) := rfl
  rw [h, this]
  exact .text (by decide) (by decide) (by decide)
example : checkerOf [("attributes".toList, .str "a,b.c".toList)] =
    some (some { reps := [{ attr := "a".toList }, { attr := "b".toList, sub := "c".toList }], incl := some true }, false) := by
  decide +kernel
example : checkerOf [("excludeAttributes".toList, .list [.str "a".toList])] =
    some (some { reps := [{ attr := "a".toList }], incl := some false }, false) := by
  decide +kernel
example : checkerOf [("excludeAttributes".toList, .str "a".toList), ("attributes".toList, .str "b".toList)] = some (none, true) := by
  decide +kernel
/-- an empty text, unlike an absent one, gives an invalid checker without any issue -/
example : ((parseRequested [("attributes".toList, .str [])]).toOption.map (fun p => (p.1.isInvalid, p.2.hasIssues))) =
    some (true, false) := by decide +kernel

/-- **C78** -/
example : (dumpDelete 200 .null).2.codesAt [.name "status".toList] = [16] := by decide +kernel
example : ((dumpPatch GroupA.schema 204 .null .null (some { reps := [{ attr := "a".toList }], incl := some true })).toOption.map
    (·.2.codesAt [.name "status".toList])) = some [16] := by decide +kernel

/-- **C79** -/
def listQuery : Val := .dict [("count".toList, .str "10".toList), ("filter".toList, .str "a eq 1".toList),
  ("sortBy".toList, .str "name.first".toList), ("sortOrder".toList, .str "descending".toList)]
def readOf (r : PyM (Request × Issues)) (k : String) : Option Val :=
  r.toOption.bind (fun p => match p.1.query with | .dict q => aget k.toList q | _ => none)
example : (parseListRequest .null .null listQuery).toOption.map (·.2.hasIssues) = some false := by decide +kernel
example : readOf (parseListRequest .null .null listQuery) "count" = some (.int 10) := by decide +kernel
example : (readOf (parseListRequest .null .null listQuery) "sorter").map (fun v => match v with
    | .obj (.sorter c) => some c | _ => none) =
    some (some { rep := { attr := "name".toList, sub := "first".toList }, asc := false }) := by decide +kernel
example : (parseListRequest .null .null (.dict [("count".toList, .str "x".toList)])).toOption.map
    (·.2.codesAt [.name "query_string".toList, .name "count".toList]) = some [2] := by decide +kernel

end Scim.Examples.Requests
