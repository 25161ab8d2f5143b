import Verif.Lemmas.BulkRequest
import Verif.Lemmas.Totality

/-! From the body of a bulk response to its operations. -/

namespace Scim
open Issues
variable [PyEnv]

theorem one_mode {i : AttrInfo} (ht : i.type ≠ .dateTime) (m : Mode) (l : Loc) (z : Val) (s : Issues) :
    i.processOne m l z s = i.processOne .parse l z s := by
  cases m with
  | parse => rfl
  | dump =>
    unfold AttrInfo.processOne
    have : i.type.conv .dump z = i.type.conv .parse z := by
      unfold AttrType.conv AttrType.dump
      cases h : i.type <;> first | rfl | exact absurd h ht
    rw [this]

namespace BulkA

/-! ### The schema -/

/-- The parts of an operation of a response. -/
def responseSubs : List Attr := [methodA, idA, versionA, locationA, statusA, responseA]

theorem responseSubs_plain : PlainSubs responseSubs := by
  refine ⟨?_, ?_, ?_⟩
  · intro a ha
    simp only [responseSubs, List.mem_cons, List.not_mem_nil, or_false] at ha
    rcases ha with rfl | rfl | rfl | rfl | rfl | rfl <;> exact ⟨rfl, rfl, rfl⟩
  · intro a ha
    simp only [responseSubs, List.mem_cons, List.not_mem_nil, or_false] at ha
    rcases ha with rfl | rfl | rfl | rfl | rfl | rfl
    · exact show methodWord ≠ [] by decide
    · exact show idWord ≠ [] by decide
    · exact show versionWord ≠ [] by decide
    · exact show locationWord ≠ [] by decide
    · exact show statusWord ≠ [] by decide
    · exact show responseWord ≠ [] by decide
  · have hl : responseSubs.map (fun s => lower s.rep.attr) =
        ["method".toList, "bulkid".toList, "version".toList, "location".toList, "status".toList, "response".toList] := by
      simp only [responseSubs, List.map_cons, List.map_nil, methodA, idA, versionA, locationA, statusA, responseA, mkAttr,
        Attr.rep, Attr.info]
      rw [PyEnv.lower_ascii _ (by decide), PyEnv.lower_ascii _ (by decide), PyEnv.lower_ascii _ (by decide),
        PyEnv.lower_ascii _ (by decide), PyEnv.lower_ascii _ (by decide), PyEnv.lower_ascii _ (by decide)]
      rfl
    rw [hl]; decide

theorem procSane_validateStatus : ProcSane validateStatus := by
  intro v r is h
  unfold validateStatus at h
  split at h
  · split at h
    · cases h; exact WF.empty.add _ _ _
    · cases h
  · cases h; exact WF.empty

theorem responseSubs_sane : SaneAll responseSubs := by
  rw [saneAll_iff]
  intro a ha
  simp only [responseSubs, List.mem_cons, List.not_mem_nil, or_false] at ha
  rcases ha with rfl | rfl | rfl | rfl | rfl | rfl
  case inr.inr.inr.inr.inl =>
    intro p hp
    rcases hp with hp | hp
    · exact absurd hp (by simp)
    · simp only [List.mem_singleton] at hp
      subst hp
      exact procSane_validateStatus
  all_goals (intro p hp; rcases hp with hp | hp <;> simp at hp)

/-- `Operations`, bound to the schema of responses. -/
def responseOpsB : Attr := bindAttr responseOps (responseRep [])

theorem responseOps_subs : responseOps.subs = responseSubs := by
  unfold responseOps mkComplex
  rw [show [methodA, idA, versionA, locationA, statusA, responseA] = responseSubs from rfl, ofList_all responseSubs_plain.keys]
  rfl

theorem responseOpsB_eq : responseOpsB = .complex (opsInfo responseUrn) responseSubs [validateSinglePrimary]
    [validateResponse, validateSinglePrimary] := by
  unfold responseOpsB responseOps mkComplex
  rw [show [methodA, idA, versionA, locationA, statusA, responseA] = responseSubs from rfl, ofList_all responseSubs_plain.keys]
  rfl

/-- The names of the schema. -/
def responseNames : List (AttrRep × List AttrRep) := @declNames (@schemasAttr asciiEnv :: [@responseOps asciiEnv])

theorem responseNames_eq : declNames (schemasAttr :: [responseOps]) = responseNames := rfl

theorem response_noClash (urn : Str) (hu : urn ∈ [responseUrn, requestUrn]) :
    ∀ d ∈ schemasAttr :: [responseOps], lower d.rep.attr ≠ lower urn :=
  fun d hd => noClash_of responseNames_eq (by decide +kernel) (urns := [responseUrn, requestUrn]) (by decide +kernel) d hd _ hu

theorem response_wf : responseSchema.WF :=
  mkSchema_wf (declarations_of responseNames_eq (by decide +kernel)) (by decide +kernel)
    (response_noClash _ (by simp))

theorem responseOpsB_mem : responseOpsB ∈ responseSchema.attrs.top :=
  mkSchema_mem (u := responseUrn) (as := [responseOps]) (d := responseOps) (by simp)

theorem responseOpsB_rep : responseOpsB.rep = responseRep [] := bindAttr_rep _ _

theorem response_top : ∀ a ∈ responseSchema.attrs.top, a = bindAttr schemasAttr { schema := responseUrn, attr := "schemas".toList } ∨
    a = responseOpsB := by
  intro a ha
  obtain ⟨d, hd, rfl⟩ := mkSchema_top_named (u := responseUrn) (as := [responseOps]) (by
    intro d hd s hs
    simp only [List.mem_cons, List.not_mem_nil, or_false] at hd
    subst hd
    rw [responseOps_subs] at hs
    exact responseSubs_plain.named s hs) ha
  simp only [List.mem_cons, List.not_mem_nil, or_false] at hd
  rcases hd with rfl | rfl
  · exact .inl rfl
  · exact .inr rfl

theorem response_low {urn : Str} (hu : urn ∈ [responseUrn, requestUrn]) :
    ∀ a ∈ responseSchema.attrs.top, lower a.rep.attr ≠ lower urn := by
  intro a ha
  rcases response_top a ha with rfl | rfl
  · rw [bindAttr_rep]
    exact response_noClash urn hu schemasAttr (by simp)
  · rw [responseOpsB_rep]
    exact response_noClash urn hu responseOps (by simp)

/-! ### The check of the operations of a response -/

omit [PyEnv] in
theorem notNull_of_truthy {v : Val} (h : v.truthy = true) : v.isNoneOrMissing = false := by
  rw [← Bool.not_eq_true]
  intro h'
  unfold Val.isNoneOrMissing at h'
  split at h'
  · cases h
  · cases h
  · cases h'

/-- What the check of a response says about an operation without issues. -/
structure ResponseOk (o : Val) : Prop where
  parts : ∃ m b st, o.getItem { attr := methodWord } = .ok m ∧ m.isNoneOrMissing = false ∧
    o.getItem { attr := idWord } = .ok b ∧ (m.isText postWord = true → b.isNoneOrMissing = false) ∧
    o.getItem { attr := statusWord } = .ok st ∧ st.isNoneOrMissing = false ∧
    (st.truthy = true → ∃ l r, o.getItem { attr := locationWord } = .ok l ∧ o.getItem { attr := responseWord } = .ok r ∧
      (l.isNoneOrMissing = true → m.truthy = true → m.isText postWord = true ∧ ∃ n, st.pyInt = .ok n ∧ ¬ n < 300) ∧
      (r.isNoneOrMissing = true → ∃ n, st.pyInt = .ok n ∧ ¬ n ≥ 300))

theorem checkOutcome_spec {i : Nat} {m st l r : Val} {s t : Issues} (h : checkOutcome i m st l r s = .ok t) :
    (s.WF → t.WF) ∧ (∀ q, (∀ l', q ≠ .idx i :: l') → t.errorsAt q = s.errorsAt q) ∧
    (t.hasIssues = false → s.hasIssues = false ∧
      (l.isNoneOrMissing = true → m.truthy = true → m.isText postWord = true ∧ ∃ n, st.pyInt = .ok n ∧ ¬ n < 300) ∧
      (r.isNoneOrMissing = true → ∃ n, st.pyInt = .ok n ∧ ¬ n ≥ 300)) := by
  unfold checkOutcome at h
  split at h
  · cases h
  rename_i b hb
  dsimp only at h
  split at h
  · cases h
  rename_i b' hb'
  cases h
  refine ⟨fun hs => missingAt_wf (missingAt_wf hs), fun q hq => by rw [missingAt_errors hq, missingAt_errors hq], ?_⟩
  intro hn
  rw [missingAt_has, missingAt_has] at hn
  obtain ⟨⟨h1, rfl⟩, rfl⟩ := hn
  refine ⟨h1, ?_, ?_⟩
  · intro hl hm
    rw [hl, hm] at hb
    simp only [Bool.true_and] at hb
    split at hb
    · rename_i hpost
      refine ⟨hpost, ?_⟩
      cases hp : st.pyInt with
      | error e => rw [hp] at hb; cases hb
      | ok n =>
        rw [hp] at hb
        simp only [Except.map, Except.ok.injEq, decide_eq_false_iff_not] at hb
        exact ⟨n, rfl, hb⟩
    · cases hb
  · intro hr
    rw [hr] at hb'
    simp only [if_true] at hb'
    cases hp : st.pyInt with
    | error e => rw [hp] at hb'; cases hb'
    | ok n =>
      rw [hp] at hb'
      simp only [Except.map, Except.ok.injEq, decide_eq_false_iff_not] at hb'
      exact ⟨n, rfl, hb'⟩

theorem checkResponseOp_spec {i : Nat} {o : Val} {s r : Issues} (h : checkResponseOp i o s = .ok r) :
    (s.WF → r.WF) ∧ (∀ l, (∀ l', l ≠ .idx i :: l') → r.errorsAt l = s.errorsAt l) ∧
    (r.hasIssues = false → s.hasIssues = false ∧ ResponseOk o) := by
  unfold checkResponseOp at h
  split at h
  · cases h
  rename_i method hme
  dsimp only at h
  split at h
  · cases h
  rename_i id hid
  split at h
  · cases h
  rename_i status hst
  have hpost : ∀ {s' : Issues}, (missingAt i idWord (method.isText postWord && id.isNoneOrMissing) (methodExists i method s)).hasIssues = false →
      s.hasIssues = false ∧ method.isNoneOrMissing = false ∧ (method.isText postWord = true → id.isNoneOrMissing = false) := by
    intro _ hn
    rw [missingAt_has, methodExists_has] at hn
    refine ⟨hn.1.1, hn.1.2, fun hp => ?_⟩
    have := hn.2
    rw [hp] at this
    simpa using this
  have hwf : s.WF → (missingAt i idWord (method.isText postWord && id.isNoneOrMissing) (methodExists i method s)).WF :=
    fun hs => missingAt_wf (methodExists_wf hs)
  have herr : ∀ l, (∀ l', l ≠ .idx i :: l') →
      (missingAt i idWord (method.isText postWord && id.isNoneOrMissing) (methodExists i method s)).errorsAt l = s.errorsAt l :=
    fun l hl => by rw [missingAt_errors hl, methodExists_errors hl]
  unfold checkStatus at h
  split at h
  · rename_i htr
    split at h
    · cases h
    rename_i l hl
    split at h
    · cases h
    rename_i rr hrr
    obtain ⟨a1, a2, a3⟩ := checkOutcome_spec h
    refine ⟨fun hs => a1 (hwf hs), fun q hq => by rw [a2 q hq, herr q hq], ?_⟩
    intro hn
    obtain ⟨b1, b2, b3⟩ := a3 hn
    obtain ⟨c1, c2, c3⟩ := hpost (s' := s) b1
    exact ⟨c1, ⟨method, id, status, hme, c2, hid, c3, hst, notNull_of_truthy htr, fun _ => ⟨l, rr, hl, hrr, b2, b3⟩⟩⟩
  · rename_i htr
    cases h
    refine ⟨fun hs => missingAt_wf (hwf hs), fun q hq => by rw [missingAt_errors hq, herr q hq], ?_⟩
    intro hn
    rw [missingAt_has] at hn
    obtain ⟨c1, c2, c3⟩ := hpost (s' := s) hn.1
    exact ⟨c1, ⟨method, id, status, hme, c2, hid, c3, hst, hn.2, fun h => absurd h htr⟩⟩

theorem responseLoop_spec {k : Nat} {os : List Val} {s r : Issues} (h : responseLoop k os s = .ok r) :
    (s.WF → r.WF) ∧ r.errorsAt [] = s.errorsAt [] ∧
    (r.hasIssues = false → s.hasIssues = false ∧ ∀ o ∈ os, ResponseOk o) := by
  induction os generalizing k s with
  | nil => rw [responseLoop] at h; cases h; exact ⟨id, rfl, fun hn => ⟨hn, by simp⟩⟩
  | cons o os ih =>
    rw [responseLoop] at h
    split at h
    · cases h
    rename_i s1 ho
    obtain ⟨a1, a2, a3⟩ := checkResponseOp_spec ho
    obtain ⟨b1, b2, b3⟩ := ih h
    refine ⟨fun hs => b1 (a1 hs), by rw [b2, a2 [] (by simp)], ?_⟩
    intro hn
    obtain ⟨c1, c2⟩ := b3 hn
    obtain ⟨d1, d2⟩ := a3 c1
    exact ⟨d1, by simpa using ⟨d2, c2⟩⟩

theorem procSane_validateResponse : ProcSane validateResponse := by
  intro v r is h
  unfold validateResponse at h
  split at h
  · split at h
    · cases h
    · rename_i hh
      cases h
      exact (responseLoop_spec hh).1 WF.empty
  · cases h

theorem response_sane : SaneAll responseSchema.attrs.top := by
  rw [saneAll_iff]
  intro a ha
  rcases response_top a ha with rfl | rfl
  · intro p hp
    rcases hp with hp | hp <;> exact absurd hp (by simp)
  · rw [responseOpsB_eq]
    refine ⟨?_, responseSubs_sane⟩
    intro p hp
    simp only [opsInfo, List.not_mem_nil, List.mem_cons, or_false, false_or] at hp
    rcases hp with rfl | rfl | rfl
    · exact fun _ _ _ h => (validateSinglePrimary_wf h).2
    · exact procSane_validateResponse
    · exact fun _ _ _ h => (validateSinglePrimary_wf h).2

theorem response_lower {s : Attr} (hs : s ∈ responseSubs) : lower s.rep.attr ≠ [] ∧ lower s.rep.attr ≠ "primary".toList := by
  simp only [responseSubs, List.mem_cons, List.not_mem_nil, or_false] at hs
  rcases hs with rfl | rfl | rfl | rfl | rfl | rfl
  · rw [show lower methodA.rep.attr = _ from PyEnv.lower_ascii methodWord (by decide)]; decide
  · rw [show lower idA.rep.attr = _ from PyEnv.lower_ascii idWord (by decide)]; decide
  · rw [show lower versionA.rep.attr = _ from PyEnv.lower_ascii versionWord (by decide)]; decide
  · rw [show lower locationA.rep.attr = _ from PyEnv.lower_ascii locationWord (by decide)]; decide
  · rw [show lower statusA.rep.attr = _ from PyEnv.lower_ascii statusWord (by decide)]; decide
  · rw [show lower responseA.rep.attr = _ from PyEnv.lower_ascii responseWord (by decide)]; decide

end BulkA

/-- A container has nothing under a name that is not among its keys. -/
theorem getItem_undeclared {y : Val} (hr : y.Reach) (h0 : y.NoKeyFor []) {a : Str} (ha : y.NoKeyFor a) :
    y.getItem { attr := a } = .ok .missing := by
  obtain ⟨d, lc, rfl, hi⟩ := hr.inv
  rw [getItem_noKey (hi.noKey h0), hi.noKey ha]

namespace BulkA

theorem validatesOnly_validateResponse : ValidatesOnly validateResponse := by
  intro v r is h
  refine ⟨?_, procSane_validateResponse v r is h⟩
  unfold validateResponse at h
  split at h
  · split at h
    · cases h
    · cases h; rfl
  · cases h

theorem responseOpsB_cprocs : (Attr.complex (opsInfo responseUrn) responseSubs [validateSinglePrimary]
    [validateResponse, validateSinglePrimary]).cprocs .dump = [validateResponse, validateSinglePrimary] := rfl

/-- The items of a list of operations that has been dumped have only declared parts. -/
theorem response_keys {xs os : List Val} {is1 : Issues}
    (h1 : (Attr.complex (opsInfo responseUrn) responseSubs [] []).process .dump (.list xs) = .ok (.list os, is1)) :
    ∀ o ∈ os, o.Reach ∧ o.NoKeyFor [] ∧ o.NoKeyFor "primary".toList := by
  intro o ho
  have hreach := multi_reach (m := .dump) (info := opsInfo responseUrn) rfl (opsInfo_decl _ _) h1 o ho
  obtain ⟨ys, e, hlen, hbad, hgood, -⟩ := C27_multi .dump (opsInfo responseUrn) _ [] [] (opsInfo_decl _ _) rfl
    responseSubs_plain responseSubs_sane (by simp [Attr.cprocs]) xs _ _ h1
  cases e
  have hk : ∀ k ∈ o.keys, ∃ s ∈ responseSubs, s.rep.attr = k := by
    obtain ⟨i, hi⟩ := List.getElem?_of_mem ho
    have hlt : i < xs.length := by
      rw [← hlen]
      exact (List.getElem?_eq_some_iff.mp hi).1
    have hx : xs[i]? = some xs[i] := List.getElem?_eq_getElem hlt
    cases hc : (xs[i]).isCont with
    | false =>
      obtain ⟨⟨y, hy, -, hk⟩, -⟩ := hbad i _ hx hc
      rw [hi] at hy
      cases hy
      rw [hk]; simp
    | true =>
      obtain ⟨y, hy, hsr, -⟩ := hgood i _ hx hc
      rw [hi] at hy
      cases hy
      intro k hk
      obtain ⟨s, hs, e, -⟩ := hsr.declared k hk
      exact ⟨s, hs, e⟩
  refine ⟨hreach, ?_, ?_⟩
  · intro k hk'
    obtain ⟨s, hs, rfl⟩ := hk k hk'
    rw [show lower ([] : Str) = [] from PyEnv.lower_ascii [] (by simp)]
    exact (response_lower hs).1
  · intro k hk'
    obtain ⟨s, hs, rfl⟩ := hk k hk'
    rw [show lower "primary".toList = "primary".toList from PyEnv.lower_ascii "primary".toList (by decide)]
    exact (response_lower hs).2

theorem no_primaries {os : List Val} (h : ∀ o ∈ os, o.Reach ∧ o.NoKeyFor [] ∧ o.NoKeyFor "primary".toList) (k : Nat) :
    primaryEntries k os = .ok [] := by
  induction os generalizing k with
  | nil => rfl
  | cons o os ih =>
    obtain ⟨h1, h2, h3⟩ := h o (by simp)
    have hg : o.getName "primary".toList = .ok .missing := by
      have := getItem_undeclared h1 h2 h3
      obtain ⟨d, lc, rfl, -⟩ := h1.inv
      simp only [Val.getName, primary_parse]
      exact this
    rw [primaryEntries, hg, ih (fun o ho => h o (by simp [ho]))]
    rfl

/-- What becomes of the operations of a response. -/
theorem response_process {xs : List Val} {w : Val} {j : Issues} (h : responseOpsB.process .dump (.list xs) = .ok (w, j)) :
    ∃ os is1, w = .list os ∧ os.length = xs.length ∧ j.WF ∧ j.errorsAt [] = [] ∧
      (Attr.complex (opsInfo responseUrn) responseSubs [] []).process .dump (.list xs) = .ok (.list os, is1) ∧
      (j.hasIssues = false → is1 = {} ∧ ∀ o ∈ os, ResponseOk o) := by
  rw [responseOpsB_eq] at h
  obtain ⟨ys, is1, h1, hw, hlen, hnil, hcase⟩ := complex_list_split (opsInfo_decl _ _) rfl responseSubs_plain responseSubs_sane
    ⟨rfl, rfl⟩ h
  rcases hcase with ⟨rfl, rfl, hi⟩ | ⟨rfl, hrun⟩
  · exact ⟨ys, _, rfl, hlen, hw, hnil, h1, fun hn => by rw [hi] at hn; cases hn⟩
  · simp only [responseOpsB_cprocs, runProcs, validateResponse] at hrun
    cases hv : responseLoop 0 ys {} with
    | error e => rw [hv] at hrun; cases hrun
    | ok iv =>
      rw [hv] at hrun
      simp only at hrun
      obtain ⟨a1, a3, a4⟩ := responseLoop_spec hv
      have hwv := a1 WF.empty
      have hsp : validateSinglePrimary (.list ys) = .ok (.list ys, {}) := by
        simp only [validateSinglePrimary, no_primaries (response_keys h1)]
        rfl
      rw [hsp] at hrun
      cases hrun
      refine ⟨ys, _, rfl, hlen, (WF.empty.merge hwv _).merge WF.empty _, ?_, h1, ?_⟩
      · rw [errorsAt_merge WF.empty, errorsAt_merge hwv]
        simp [a3]
      · intro hn
        rw [hasIssues_merge_false, hasIssues_merge_false] at hn
        exact ⟨rfl, (a4 hn.1.2).2⟩

end BulkA

namespace BulkA

theorem method_canonical (s : Str) : (methodA.info.isCanonical (.str s)) =
    ["get".toList, "post".toList, "patch".toList, "put".toList, "delete".toList].contains (lower s) := by
  unfold methodA mkAttr
  simp only [Attr.info, AttrInfo.isCanonical, normCanonical, Option.map_some, List.map_cons, List.map_nil, Prim.normCase,
    Bool.false_eq_true, if_false]
  rw [PyEnv.lower_ascii getWord (by decide), PyEnv.lower_ascii postWord (by decide), PyEnv.lower_ascii patchWord (by decide),
    PyEnv.lower_ascii putWord (by decide), PyEnv.lower_ascii deleteWord (by decide)]
  generalize lower s = t
  have e : ∀ a b : Str, Prim.pyEq (.str a) (.str b) = (a == b) := fun a b => by
    rw [Bool.eq_iff_iff]; simp [Prim.pyEq]
  simp only [List.any_cons, List.any_nil, e, List.contains_cons, List.contains_nil]
  rfl

theorem method_dump {z w : Val} {j : Issues} (h : methodA.process .dump z = .ok (w, j)) :
    (w = z ∧ (z = .null ∨ ∃ s, z = .str s ∧
      ["get".toList, "post".toList, "patch".toList, "put".toList, "delete".toList].contains (lower s) = true) ∧ j = {}) ∨
    (w = .invalid ∧ j.hasIssues = true ∧ ∀ s, z = .str s →
      ["get".toList, "post".toList, "patch".toList, "put".toList, "delete".toList].contains (lower s) = false) := by
  by_cases hz : z.isNone = true
  · rw [isNone_iff.mp hz, C25_null] at h
    cases h
    exact .inl ⟨(isNone_iff.mp hz).symm, .inl (isNone_iff.mp hz), rfl⟩
  · have e : methodA = .simple methodA.info := rfl
    rw [e, single_process rfl (by simpa using hz), one_mode (show AttrType.string ≠ .dateTime by decide)] at h
    rcases one_string (i := methodA.info) rfl z with ⟨s, rfl, ⟨hc, e⟩ | ⟨hc, hv, e⟩⟩ | ⟨hne, e⟩
    · rw [e] at h
      simp only [has_empty, Bool.false_eq_true, if_false] at h
      cases h
      refine .inl ⟨rfl, .inr ⟨s, rfl, ?_⟩, rfl⟩
      rw [← method_canonical]
      have : methodA.info.validateCanon = true := rfl
      simpa [this] using hc
    · rw [e] at h
      simp only [hasIssues_add, if_true] at h
      cases h
      refine .inr ⟨rfl, hasIssues_add _ _ _ _, ?_⟩
      intro s' e'
      cases e'
      rw [← method_canonical]; exact hc
    · rw [e] at h
      have : (Issues.merge {} (blocking 2)).hasIssues = true := rfl
      simp only [this, if_true] at h
      cases h
      exact .inr ⟨rfl, this, fun s e => absurd e (hne s)⟩

theorem status_dump {z w : Val} {j : Issues} (h : statusA.process .dump z = .ok (w, j)) :
    (w = z ∧ (z = .null ∨ ∃ s n, z = .str s ∧ parseInt s = some n) ∧ j = {}) ∨
    (w = .invalid ∧ j.hasIssues = true ∧ ∀ s, z = .str s → parseInt s = none) := by
  by_cases hz : z.isNone = true
  · rw [isNone_iff.mp hz, C25_null] at h
    cases h
    exact .inl ⟨(isNone_iff.mp hz).symm, .inl (isNone_iff.mp hz), rfl⟩
  · have e : statusA = .simple statusA.info := rfl
    rw [e, single_process rfl (by simpa using hz), one_mode (show AttrType.string ≠ .dateTime by decide)] at h
    rcases one_string (i := statusA.info) rfl z with ⟨s, rfl, ⟨hc, e⟩ | ⟨hc, hv, e⟩⟩ | ⟨hne, e⟩
    · rw [e] at h
      simp only [has_empty, Bool.false_eq_true, if_false] at h
      have hp : statusA.info.procs .dump = [validateStatus] := rfl
      rw [hp] at h
      simp only [runProcs, validateStatus, Val.pyInt] at h
      cases hi : parseInt s with
      | none =>
        rw [hi] at h
        simp only [PyErr.isValueError, if_true] at h
        cases h
        refine .inr ⟨rfl, rfl, ?_⟩
        intro s' e'; cases e'; exact hi
      | some n =>
        rw [hi] at h
        cases h
        exact .inl ⟨rfl, .inr ⟨s, n, rfl, hi⟩, rfl⟩
    · have : statusA.info.validateCanon = false := rfl
      rw [this] at hv; cases hv
    · rw [e] at h
      have : (Issues.merge {} (blocking 2)).hasIssues = true := rfl
      simp only [this, if_true] at h
      cases h
      exact .inr ⟨rfl, this, fun s e => absurd e (hne s)⟩

theorem response_dump (m : Mode) (z : Val) : responseA.process m z = .ok (z, {}) := by
  by_cases hz : z.isNone = true
  · rw [isNone_iff.mp hz]; exact C25_null m _
  · unfold responseA mkAttr
    rw [single_process rfl (by simpa using hz), one_unknown rfl rfl]
    cases m <;> rfl

end BulkA

namespace BulkA

/-- Whether the loop over the operations counts an operation with these parts as failed. -/
def failedParts (m st r : Val) : Bool :=
  m.truthy && (st.truthy && r.truthy) && (match st.pyInt with | .ok n => decide (n ≥ 300) | .error _ => false)

omit [PyEnv] in
theorem truthy_null : Val.null.truthy = false := rfl

theorem missing_eq {z : Val} (hz : z.isMissing = true) : z = .missing := by
  cases z <;> simp [Val.isMissing] at hz; rfl

/-- A dumped operation counts as failed exactly when the operation given does. -/
theorem failed_item {x o m st r : Val} (hs : SubResult .dump responseSubs x o)
    (hm : o.getItem { attr := methodWord } = .ok m) (hst : o.getItem { attr := statusWord } = .ok st)
    (hr : o.getItem { attr := responseWord } = .ok r) : failedParts m st r = failedOperation x := by
  have hread : ∀ s ∈ responseSubs, ∃ z w, x.getItem s.rep = .ok z ∧ o.getItem s.rep = .ok w ∧
      ((z = .missing ∧ w = .missing) ∨ ∃ j, s.process .dump z = .ok (w, j)) := by
    intro s hsm
    obtain ⟨z, hz⟩ := hs.read s hsm
    cases hmz : z.isMissing with
    | true =>
      have := missing_eq hmz
      subst this
      exact ⟨_, _, hz, hs.absent s hsm hz, .inl ⟨rfl, rfl⟩⟩
    | false =>
      obtain ⟨w, j, hp, hw⟩ := hs.present s hsm z hz hmz
      exact ⟨z, w, hz, hw, .inr ⟨j, hp⟩⟩
  obtain ⟨zm, wm, xm, om, cm⟩ := hread methodA (by simp [responseSubs])
  obtain ⟨zs, ws, xs, os, cs⟩ := hread statusA (by simp [responseSubs])
  obtain ⟨zr, wr, xr, or, cr⟩ := hread responseA (by simp [responseSubs])
  have em : wm = m := Except.ok.inj (om.symm.trans hm)
  have es : ws = st := Except.ok.inj (os.symm.trans hst)
  have er' : wr = r := Except.ok.inj (or.symm.trans hr)
  subst em es er'
  have er : zr = wr := by
    rcases cr with ⟨rfl, rfl⟩ | ⟨j, hp⟩
    · rfl
    · rw [response_dump] at hp; cases hp; rfl
  subst er
  have fm : x.getItem { attr := "method".toList } = .ok zm := xm
  have fs : x.getItem { attr := "status".toList } = .ok zs := xs
  have fr : x.getItem { attr := "response".toList } = .ok zr := xr
  have mfalse : wm.truthy = false → (∀ s, zm = .str s →
      ["get".toList, "post".toList, "patch".toList, "put".toList, "delete".toList].contains (lower s) = false) →
      failedParts wm ws zr = failedOperation x := by
    intro h1 h2
    unfold failedOperation
    rw [fm, fs, fr]
    rw [show failedParts wm ws zr = false by simp [failedParts, h1]]
    symm
    split
    · rename_i e1 _ _
      cases e1
      rw [h2 _ rfl]; rfl
    · rfl
  have sfalse : ws.truthy = false → (∀ s, zs = .str s → s = [] ∨ parseInt s = none) → failedParts wm ws zr = failedOperation x := by
    intro h1 h2
    unfold failedOperation
    rw [fm, fs, fr]
    rw [show failedParts wm ws zr = false by simp [failedParts, h1]]
    symm
    split
    · rename_i _ e1 _
      cases e1
      rcases h2 _ rfl with rfl | h2
      · simp
      · rw [h2]; simp
    · rfl
  rcases cm with ⟨rfl, rfl⟩ | ⟨jm, hpm⟩
  · exact mfalse rfl (fun s e => by cases e)
  rcases method_dump hpm with ⟨e, hz, -⟩ | ⟨rfl, -, hno⟩
  case inr => exact mfalse rfl hno
  subst e
  rcases hz with hz | ⟨sm, hz, hcm⟩
  · exact mfalse (by rw [hz]; rfl) (fun s e => by rw [hz] at e; cases e)
  subst hz
  rcases cs with ⟨rfl, rfl⟩ | ⟨js, hps⟩
  · exact sfalse rfl (fun s e => by cases e)
  rcases status_dump hps with ⟨e, hz, -⟩ | ⟨rfl, -, hno⟩
  case inr => exact sfalse rfl (fun s e => .inr (hno s e))
  subst e
  rcases hz with hz | ⟨ss, n, hz, hn⟩
  · exact sfalse (by rw [hz]; rfl) (fun s e => by rw [hz] at e; cases e)
  subst hz
  unfold failedOperation
  rw [fm, fs, fr]
  simp only [hcm, hn, failedParts, Val.pyInt, Bool.true_and]
  have hsm : Val.truthy (.str sm) = true := by
    have : sm ≠ [] := by
      rintro rfl
      rw [show lower ([] : Str) = [] from PyEnv.lower_ascii [] (by simp)] at hcm
      revert hcm; decide
    show (sm != []) = true
    simpa using this
  rw [hsm]
  show (true && ((ss != []) && zr.truthy) && decide (n ≥ 300)) = _
  cases (ss != []) <;> cases zr.truthy <;> cases decide (n ≥ 300) <;> rfl

/-- An operation that is no object does not count. -/
theorem failed_bad {x : Val} (h : x.isCont = false) : failedOperation x = false := by
  unfold failedOperation
  split
  · rename_i h1 _ _
    exfalso
    cases x <;> simp [Val.isCont, Val.getItem, Val.getX] at h h1
  · rfl

end BulkA

namespace V
open BulkA (requestRep responseRep failedParts)

/-! ### The loop over the operations -/

theorem add_part {i : Nat} {w : Str} {t : Loc} {s : Issues} {e : VErr} {p : Bool} :
    (s.add e p (opPartLoc i w ++ t)).errorsAt opsLoc = s.errorsAt opsLoc := by
  rw [errorsAt_add, if_neg, List.append_nil]
  intro h
  exact opPartLoc_ne i w ⟨t, h⟩

theorem add_part' {i : Nat} {w : Str} {s : Issues} {e : VErr} {p : Bool} :
    (s.add e p (opPartLoc i w)).errorsAt opsLoc = s.errorsAt opsLoc := by
  have := add_part (i := i) (w := w) (t := []) (s := s) (e := e) (p := p)
  rwa [List.append_nil] at this

/-- The step leaves the issues at the operations themselves alone and removes none. -/
structure Grows (s r : Issues) : Prop where
  ops : r.errorsAt opsLoc = s.errorsAt opsLoc
  mono : s.hasIssues = true → r.hasIssues = true

omit [PyEnv] in
theorem Grows.refl (s : Issues) : Grows s s := ⟨rfl, id⟩

omit [PyEnv] in
theorem Grows.trans {s t r : Issues} (h1 : Grows s t) (h2 : Grows t r) : Grows s r :=
  ⟨h2.ops.trans h1.ops, fun h => h2.mono (h1.mono h)⟩

theorem Grows.add_part {i : Nat} {w : Str} {t : Loc} {s : Issues} {e : VErr} {p : Bool} :
    Grows s (s.add e p (opPartLoc i w ++ t)) :=
  ⟨V.add_part, fun _ => hasIssues_add _ _ _ _⟩

theorem Grows.add_part' {i : Nat} {w : Str} {s : Issues} {e : VErr} {p : Bool} :
    Grows s (s.add e p (opPartLoc i w)) :=
  ⟨V.add_part', fun _ => hasIssues_add _ _ _ _⟩

theorem Grows.mergeCopy {s c r : Issues} {i : Nat} {w : Str} (h : s.mergeCopy c (opPartLoc i w) = .ok r) : Grows s r := by
  rw [mergeCopy_ok h]
  exact ⟨errorsAt_merge_other (opPartLoc_ne _ _), fun hs => (hasIssues_merge _ _ _).mpr (.inl hs)⟩

theorem disagree_grows {i : Nat} {w : Str} {b : Bool} {s : Issues} : Grows s (disagree i w b s) := by
  unfold disagree
  split
  · exact Grows.trans Grows.add_part Grows.add_part'
  · exact Grows.refl _

theorem validatorFor_grows {vs : List (Str × Schema)} {i : Nat} {m l : Val} {s r : Issues} {v : Option (Method × Schema)}
    (h : validatorFor vs i m l s = .ok (v, r)) : Grows s r := by
  unfold validatorFor at h
  repeat' split at h
  all_goals first
    | (cases h; done)
    | (cases h; exact Grows.refl _)
    | (cases h; exact Grows.add_part')

end V

namespace V
open BulkA (requestRep responseRep failedParts)

theorem failedOp_grows {i : Nat} {o r o' : Val} {st : Int} {s t : Issues} (h : failedOp i o st r s = .ok (o', t)) : Grows s t := by
  unfold failedOp at h
  split at h
  · cases h
  split at h
  · cases h
  rename_i h1
  split at h
  · cases h
  rename_i h2
  split at h
  · cases h
  cases h
  exact (Grows.mergeCopy h1).trans (Grows.mergeCopy h2)

theorem checkVersion_grows {i : Nat} {v b r : Val} {s t : Issues} (h : checkVersion i v b s = .ok (r, t)) : Grows s t := by
  unfold checkVersion at h
  split at h
  · cases h; exact Grows.refl _
  split at h
  · cases h
  split at h
  · split at h
    · cases h
    · cases h; exact disagree_grows
  · cases h; exact Grows.refl _

theorem doneOp_grows {m : Method} {sch : Schema} {i : Nat} {o r l v o' : Val} {st : Int} {s t : Issues}
    (h : doneOp m sch i o st r l v s = .ok (o', t)) : Grows s t := by
  unfold doneOp at h
  split at h
  · cases h
  dsimp only at h
  split at h
  · cases h
  rename_i h1
  split at h
  · cases h
  rename_i h2
  split at h
  · cases h
  cases h
  exact ((Grows.mergeCopy h1).trans disagree_grows).trans (checkVersion_grows h2)

theorem responseOne_spec {vs : List (Str × Schema)} {i : Nat} {o m st r l v o' : Val} {s t : Issues} {b : Bool}
    (h : responseOne vs i o m st r l v s = .ok ((o', t), b)) : Grows s t ∧ b = failedParts m st r := by
  unfold responseOne at h
  unfold failedParts
  split at h
  · rename_i hm
    cases h
    simp at hm
    exact ⟨Grows.refl _, by simp [hm]⟩
  rename_i hm
  simp only [Bool.not_eq_true, Bool.not_eq_false'] at hm
  split at h
  · cases h
  rename_i w s1 hv
  have g := validatorFor_grows hv
  split at h
  · rename_i hc
    cases h
    simp only [Bool.not_eq_true'] at hc
    exact ⟨g, by simp only [hc]; simp⟩
  rename_i hc
  simp only [Bool.not_eq_true, Bool.not_eq_false'] at hc
  rw [hm, hc]
  unfold outcomeOp at h
  split at h
  · cases h
  rename_i n hn
  rw [hn]
  split at h
  · rename_i hge
    cases hf : failedOp i o n r s1 with
    | error e => rw [hf] at h; cases h
    | ok q =>
      obtain ⟨o1, t1⟩ := q
      rw [hf] at h
      cases h
      exact ⟨g.trans (failedOp_grows hf), by simp [hge]⟩
  · rename_i hge
    split at h
    · rename_i mm ss
      cases hf : doneOp mm ss i o n r l v s1 with
      | error e => rw [hf] at h; cases h
      | ok q =>
        obtain ⟨o1, t1⟩ := q
        rw [hf] at h
        cases h
        exact ⟨g.trans (doneOp_grows hf), by simp [hge]⟩
    · cases h
      exact ⟨g, by simp [hge]⟩

theorem responsesLoop_spec {vs : List (Str × Schema)} {k : Nat} {os os' : List Val} {ps : List Parts} {s t : Issues} {n : Nat}
    (hlen : ps.length = os.length) (h : responsesLoop vs k os ps s = .ok ((os', t), n)) :
    os'.length = os.length ∧ Grows s t ∧ n = ps.countP (fun p => failedParts p.method p.status p.response) := by
  induction os generalizing k ps os' s n with
  | nil =>
    have : ps = [] := by simpa using hlen
    subst this
    rw [responsesLoop] at h
    · cases h; exact ⟨rfl, Grows.refl _, rfl⟩
    · simp
  | cons o os ih =>
    cases ps with
    | nil => simp at hlen
    | cons p ps =>
      rw [responsesLoop] at h
      split at h
      · cases h
      rename_i o1 s1 b ho
      split at h
      · cases h
      rename_i os1 s2 n' hos
      cases h
      obtain ⟨a1, a2⟩ := responseOne_spec ho
      obtain ⟨b1, b2, b3⟩ := ih (by simpa using hlen) hos
      refine ⟨by simp [b1], a1.trans b2, ?_⟩
      rw [List.countP_cons, ← b3, a2]
      cases failedParts p.method p.status p.response <;> simp <;> omega

/-- Without issues the loop handles every operation. -/
theorem responsesLoop_clean {vs : List (Str × Schema)} {k : Nat} {os os' : List Val} {ps : List Parts} {t : Issues} {n : Nat}
    (hlen : ps.length = os.length) (h : responsesLoop vs k os ps {} = .ok ((os', t), n)) (hn : t.hasIssues = false)
    (hone : ∀ {i o m st r l v o' s b}, responseOne vs i o m st r l v {} = .ok ((o', s), b) → s.hasIssues = false → s = {}) :
    t = {} ∧ ∀ (i : Nat) (o : Val) (p : Parts), os[i]? = some o → ps[i]? = some p →
      ∃ o' b, os'[i]? = some o' ∧ responseOne vs (k + i) o p.method p.status p.response p.location p.version {} = .ok ((o', {}), b) := by
  induction os generalizing k ps os' n with
  | nil =>
    have : ps = [] := by simpa using hlen
    subst this
    rw [responsesLoop] at h
    · cases h; exact ⟨rfl, by simp⟩
    · simp
  | cons o os ih =>
    cases ps with
    | nil => simp at hlen
    | cons p ps =>
      rw [responsesLoop] at h
      split at h
      · cases h
      rename_i o1 s1 b ho
      split at h
      · cases h
      rename_i os1 s2 n' hos
      cases h
      have hs1 : s1.hasIssues = false := by
        rw [← Bool.not_eq_true]
        intro hs
        rw [(responsesLoop_spec (by simpa using hlen) hos).2.1.mono hs] at hn; cases hn
      have he := hone ho hs1
      subst he
      obtain ⟨c1, c2⟩ := ih (by simpa using hlen) hos
      refine ⟨c1, ?_⟩
      intro i
      cases i with
      | zero => intro o' p' a b; simp at a b; subst a b; exact ⟨o1, _, rfl, ho⟩
      | succ i =>
        intro o' p' a b
        have := c2 i o' p' (by simpa using a) (by simpa using b)
        rw [show k + (i + 1) = k + 1 + i by omega]
        simpa using this

omit [PyEnv] in
theorem zipParts_length {ms ss rs ls vers : List Val} {n : Nat} (h1 : ms.length = n) (h2 : ss.length = n) (h3 : rs.length = n)
    (h4 : ls.length = n) (h5 : vers.length = n) : (zipParts ms ss rs ls vers).length = n := by
  induction n generalizing ms ss rs ls vers with
  | zero => simp at h1; subst h1; rfl
  | succ n ih =>
    match ms, ss, rs, ls, vers with
    | _ :: _, _ :: _, _ :: _, _ :: _, _ :: _ =>
      simp at h1 h2 h3 h4 h5
      simp [zipParts, ih h1 h2 h3 h4 h5]

omit [PyEnv] in
theorem zipParts_get {ms ss rs ls vers : List Val} {i : Nat} {m s r l v : Val} (h1 : ms[i]? = some m) (h2 : ss[i]? = some s)
    (h3 : rs[i]? = some r) (h4 : ls[i]? = some l) (h5 : vers[i]? = some v) :
    (zipParts ms ss rs ls vers)[i]? = some ⟨m, s, r, l, v⟩ := by
  induction i generalizing ms ss rs ls vers with
  | zero =>
    match ms, ss, rs, ls, vers with
    | _ :: _, _ :: _, _ :: _, _ :: _, _ :: _ =>
      simp at h1 h2 h3 h4 h5
      simp [zipParts, h1, h2, h3, h4, h5]
  | succ i ih =>
    match ms, ss, rs, ls, vers with
    | _ :: _, _ :: _, _ :: _, _ :: _, _ :: _ =>
      simp only [List.getElem?_cons_succ] at h1 h2 h3 h4 h5
      simp [zipParts, ih h1 h2 h3 h4 h5]

end V

namespace V
open BulkA (requestRep responseRep failedParts)

omit [PyEnv] in
theorem countP_index {α β : Type} {p : α → Bool} {q : β → Bool} {xs : List α} {ys : List β} (hlen : ys.length = xs.length)
    (h : ∀ (i : Nat) (x : α) (y : β), xs[i]? = some x → ys[i]? = some y → q y = p x) : ys.countP q = xs.countP p := by
  induction xs generalizing ys with
  | nil => have : ys = [] := by simpa using hlen
           subst this; rfl
  | cons x xs ih =>
    cases ys with
    | nil => simp at hlen
    | cons y ys =>
      rw [List.countP_cons, List.countP_cons, ih (by simpa using hlen) (fun i a b ha hb => h (i + 1) a b (by simpa using ha) (by simpa using hb)),
        h 0 x y rfl rfl]

/-- The presence check of a response says nothing about its operations, unless there are none. -/
theorem response_presence {d : Val} {is2 : Issues} (h : Checker.call {} d BulkA.responseSchema.attrs .response = .ok is2)
    {os : List Val} (hd : d.getItem (responseRep []) = .ok (.list os)) (hne : os ≠ []) :
    is2.errorsAt [.name BulkA.opsWord] = [] := by
  cases he : is2.errorsAt [.name BulkA.opsWord] with
  | nil => rfl
  | cons e es =>
    exfalso
    obtain ⟨a, ha, v, hobs, hce⟩ := (call_errors _ _ _ _ _ h _ e).mp (by rw [he]; simp)
    have hkey : a.rep.sub = [] ∧ a.rep.attr = BulkA.opsWord ∧ d.getItem a.rep = .ok v := by
      generalize hl : ([.name BulkA.opsWord] : Loc) = l at hobs
      cases hobs with
      | top h1 h2 h3 => simp at hl; exact ⟨h1, hl.symm, h2⟩
      | sub => simp at hl
      | null => simp at hl
      | item => simp at hl
    obtain ⟨h1, h2, h3⟩ := hkey
    have hat : a ∈ BulkA.responseSchema.attrs.top := by
      rw [BulkA.response_wf.topAll]
      exact List.mem_filter.mpr ⟨ha, by rw [h1]; rfl⟩
    rcases BulkA.response_top a hat with rfl | rfl
    · rw [bindAttr_rep] at h2
      exact absurd h2 (by decide)
    · rw [BulkA.responseOpsB_rep, hd] at h3
      cases h3
      have hem : (Val.list os).isEmptyish = false := by
        cases os with
        | nil => exact absurd rfl hne
        | cons _ _ => rfl
      have hret : BulkA.responseOpsB.info.returned = .default := by rw [BulkA.responseOpsB_eq]; rfl
      unfold Checker.checkPresence at hce
      rw [hem, hret] at hce
      simp at hce

theorem call_no_root {c : Checker} {d : Val} {attrs : Attributes} {dir : Direction} {is2 : Issues}
    (h : Checker.call c d attrs dir = .ok is2) : is2.errorsAt [] = [] := by
  cases he : is2.errorsAt [] with
  | nil => rfl
  | cons e es =>
    exfalso
    obtain ⟨a, ha, v, hobs, hce⟩ := (call_errors _ _ _ _ _ h _ e).mp (by rw [he]; simp)
    generalize hl : ([] : Loc) = l at hobs
    cases hobs <;> simp at hl

/-- The dumped body of a response in terms of its operations. -/
theorem response_body {body b : Val} {is0 : Issues} (hobj : body.isCont = true ∨ body.isDict = true)
    (h : BulkA.responseSchema.dump body = .ok (b, is0)) {xs : List Val}
    (hx : body.toCont.getItem (responseRep []) = .ok (.list xs)) :
    ∃ os is1 j dd lc, b = .cont dd lc ∧ aget (lower BulkA.responseUrn) lc = none ∧ aget (lower BulkA.requestUrn) lc = none ∧
      BulkA.responseSchema.process .dump body = .ok (b, is1) ∧ is0.WF ∧ is0.errorsAt [] = [] ∧
      BulkA.responseOpsB.process .dump (.list xs) = .ok (.list os, j) ∧
      (∀ l, is0.errorsAt (.name BulkA.opsWord :: l) = j.errorsAt l) ∧ b.getItem (responseRep []) = .ok (.list os) := by
  obtain ⟨is1, is2, hb, rfl, hw2, he2⟩ := dump_split h
  have hw1 : is1.WF := schema_process_wf BulkA.response_wf BulkA.response_sane hb
  have hobj' : (body.isCont || body.isDict) = true := by simpa using hobj
  obtain ⟨htr, ⟨dd, lc, rfl, hnk⟩, -⟩ := process_spec BulkA.response_wf hobj' hb
  have hnk' : aget (lower BulkA.responseUrn) lc = none := hnk
  have hreach := schema_process_reach hobj' hb
  have hrep : BulkA.responseOpsB.rep = responseRep [] := BulkA.responseOpsB_rep
  obtain ⟨y, j, hp, hy⟩ := htr.present BulkA.responseOpsB BulkA.responseOpsB_mem (.list xs) (by rw [hrep]; exact hx) rfl
  rw [hrep] at hy
  obtain ⟨os, -, rfl, -⟩ := BulkA.response_process hp
  have hreq : aget (lower BulkA.requestUrn) lc = none := by
    obtain ⟨d', lc', e, hinv⟩ := hreach.inv
    cases e
    apply hinv.noKey
    intro k hk
    rcases htr.declared k hk with ⟨a, ha, -, rfl⟩ | ⟨a, ha, he, -⟩
    · exact BulkA.response_low (by simp) a ha
    · rcases BulkA.response_top a ha with rfl | rfl
      · rw [bindAttr_rep] at he; cases he
      · rw [hrep] at he; cases he
  obtain ⟨c1, c2⟩ := C82_locations .dump BulkA.responseSchema BulkA.response_wf BulkA.response_sane body _ is1 hobj hb
  refine ⟨os, is1, j, dd, lc, rfl, hnk', hreq, hb, hw1.merge hw2 _, ?_, hp, ?_, hy⟩
  · rw [errorsAt_merge hw2]
    simp only [List.prefix_nil, if_true, List.length_nil, List.drop_nil]
    rw [he2 [] (by decide), List.append_nil]
    apply Classical.byContradiction
    intro hne
    obtain ⟨a, ha, x, y, i, l', -, -, -, e, -⟩ := c2 [] (by simp) hne
    have : a.reportLoc ≠ [] := by
      unfold Attr.reportLoc
      rcases BulkA.response_top a ha with rfl | rfl
      · rw [bindAttr_rep]; decide
      · rw [hrep]; decide
    simp at e
    exact this e.1
  · intro l
    obtain ⟨y', i', hp', c3⟩ := c1 BulkA.responseOpsB BulkA.responseOpsB_mem _ (by rw [hrep]; exact hx) rfl
    rw [hp] at hp'
    cases hp'
    have hrl : BulkA.responseOpsB.reportLoc = [.name BulkA.opsWord] := by unfold Attr.reportLoc; rw [hrep]; rfl
    rw [hrl] at c3
    rw [errorsAt_merge hw2]
    simp only [List.nil_prefix, if_true, List.length_nil, List.drop_zero]
    rw [he2 _ (by simp [resourceTypeLoc]; intro e; exact absurd e (by decide)), List.append_nil]
    apply c3
    intro e
    simp only [List.singleton_append, List.cons.injEq, LKey.name.injEq] at e
    exact absurd e.1 (by decide)

end V

namespace V
open BulkA (requestRep responseRep failedParts)

/-- The issues about a response before its operations are looked at. -/
def beforeOps (is0 is2 : Issues) (status : Int) : Issues :=
  ((Issues.empty.merge is0 bodyLoc).merge is2 bodyLoc).merge (statusIs 200 status) statusLoc

omit [PyEnv] in
theorem beforeOps_errors {is0 is2 : Issues} (h0 : is0.WF) (h2 : is2.WF) {status : Int} {l : Loc} :
    (beforeOps is0 is2 status).errorsAt (.name "body".toList :: l) = is0.errorsAt l ++ is2.errorsAt l := by
  unfold beforeOps
  rw [errorsAt_merge_other (by
    intro h
    have := (List.cons_prefix_cons.mp h).1
    simp only [LKey.name.injEq] at this
    exact absurd this (by decide)), errorsAt_merge h2, errorsAt_merge h0]
  have hp : bodyLoc <+: .name "body".toList :: l := ⟨l, rfl⟩
  rw [if_pos hp, if_pos hp]
  rfl

omit [PyEnv] in
theorem beforeOps_root {is0 is2 : Issues} {status : Int} : (beforeOps is0 is2 status).errorsAt [] = [] := by
  unfold beforeOps
  rw [errorsAt_merge_other (by intro h; simpa [statusLoc] using h.length_le),
    errorsAt_merge_other (by intro h; simpa [bodyLoc] using h.length_le),
    errorsAt_merge_other (by intro h; simpa [bodyLoc] using h.length_le)]
  rfl

omit [PyEnv] in
theorem statusIs_wf' {ex st : Int} : (statusIs ex st).WF := by
  unfold statusIs
  split
  · exact WF.empty
  · exact WF.empty.add _ _ _

omit [PyEnv] in
theorem beforeOps_wf {is0 is2 : Issues} (h0 : is0.WF) (h2 : is2.WF) {status : Int} : (beforeOps is0 is2 status).WF :=
  ((WF.empty.merge h0 _).merge h2 _).merge statusIs_wf' _

/-- `dump_response` in terms of the operations of the body. -/
theorem dumpBulk_bridge {vs : List (Str × Schema)} {status : Int} {body headers : Val} {fail : Option Int} {resp : Response}
    {is : Issues} (hobj : body.isCont = true ∨ body.isDict = true) (h : dumpBulk vs status body headers fail = .ok (resp, is))
    {xs : List Val} (hx : body.toCont.getItem (responseRep []) = .ok (.list xs)) :
    ∃ b is0 is2 os j, BulkA.responseSchema.dump body = .ok (b, is0) ∧ is0.WF ∧
      Checker.call {} b BulkA.responseSchema.attrs .response = .ok is2 ∧ is2.WF ∧
      BulkA.responseOpsB.process .dump (.list xs) = .ok (.list os, j) ∧ os.length = xs.length ∧
      (∀ l, is0.errorsAt (.name BulkA.opsWord :: l) = j.errorsAt l) ∧ resp.headers = headers ∧
      ((xs = [] ∧ resp.body = .null ∧ is = beforeOps is0 is2 status ∧ is.hasIssues = true) ∨
        ∃ ms ss rs ls vers os' is3 n, getMap os { attr := BulkA.methodWord } = .ok ms ∧
          getMap os { attr := BulkA.statusWord } = .ok ss ∧ getMap os { attr := BulkA.responseWord } = .ok rs ∧
          getMap os { attr := BulkA.locationWord } = .ok ls ∧ getMap os { attr := BulkA.versionWord } = .ok vers ∧
          responsesLoop vs 0 os (zipParts ms ss rs ls vers) (beforeOps is0 is2 status) = .ok ((os', is3), n) ∧
          is = checkFailures fail n is3 ∧ n = xs.countP failedOperation ∧ os'.length = xs.length ∧
          (is.hasIssues = true → resp.body = .null) ∧
          (is.hasIssues = false → resp.body.getItem (responseRep []) = .ok (.list os'))) := by
  unfold dumpBulk at h
  split at h
  · cases h
  rename_i b is0 hb
  split at h
  · cases h
  rename_i is2 hcall
  have hw2 : is2.WF := call_wf hcall
  obtain ⟨os, is1, j, dd, lc, rfl, hnk, hreq, hb1, hw0, hroot, hp, hloc, hops⟩ := response_body hobj hb hx
  obtain ⟨os0, is1', e, hlen, hwj, hj0, hbase, -⟩ := BulkA.response_process hp
  cases e
  change dumpBulkBody vs fail _ headers (beforeOps is0 is2 status) = _ at h
  refine ⟨_, is0, is2, os, j, hb, hw0, hcall, hw2, hp, hlen, hloc, ?_⟩
  unfold dumpBulkBody at h
  cases hcp : (beforeOps is0 is2 status).canProceed [opsLoc] with
  | false =>
    rw [hcp] at h
    simp only [Bool.not_false, if_true] at h
    cases h
    refine ⟨rfl, .inl ⟨?_, rfl, rfl, ?_⟩⟩
    · apply Classical.byContradiction
      intro hne
      have hos : os ≠ [] := by
        rintro rfl
        simp at hlen
        exact hne (List.length_eq_zero_iff.mp hlen.symm)
      have : (beforeOps is0 is2 status).canProceed [opsLoc] = true := by
        apply canProceed_of_noErrors (beforeOps_wf hw0 hw2)
        intro q hq
        rcases List.prefix_cons_iff.mp hq with rfl | ⟨q', rfl, hq'⟩
        · exact beforeOps_root
        rcases List.prefix_cons_iff.mp hq' with rfl | ⟨q'', rfl, hq''⟩
        · rw [beforeOps_errors hw0 hw2, hroot, call_no_root hcall]; rfl
        · have : q'' = [] := by simpa using hq''
          subst this
          rw [beforeOps_errors hw0 hw2, hloc, hj0, response_presence hcall hops hos]; rfl
      rw [this] at hcp; cases hcp
    · rw [← Bool.not_eq_false]
      intro hn
      rw [eq_empty_of_noIssues (beforeOps_wf hw0 hw2) hn, canProceed_empty] at hcp
      cases hcp
  | true =>
  rw [hcp] at h
  simp only [Bool.not_true, Bool.false_eq_true, if_false] at h
  have hopsR : (Val.cont dd lc).getItem (requestRep []) = .ok (.list os) := by
    have e1 := getItem_noKey (data := dd) (lc := lc) (r := requestRep []) hreq
    have e2 := getItem_noKey (data := dd) (lc := lc) (r := responseRep []) hnk
    rw [e1]
    rw [e2] at hops
    exact hops
  have part1 : ∀ w ∈ [BulkA.statusWord, BulkA.responseWord, BulkA.locationWord, BulkA.versionWord],
      (Val.cont dd lc).getItem (responseRep w) = Val.getX true (.list os) { attr := w } := by
    intro w hw
    refine getItem_part hnk ?_ hops
    revert hw; revert w; decide
  have part2 : (Val.cont dd lc).getItem (requestRep BulkA.methodWord) = Val.getX true (.list os) { attr := BulkA.methodWord } :=
    getItem_part hreq (by simp) hopsR
  rw [hopsR, part1 _ (by simp), part1 _ (by simp), part1 _ (by simp), part1 _ (by simp), part2] at h
  split at h
  case h_1 =>
    rename_i ops ss rs ls ms vers e hss hrs hls hms hvers
    cases e
    obtain ⟨ss, e, hss⟩ := getX_list (bulk_word_name (by simp)) hss
    cases e
    obtain ⟨rs, e, hrs⟩ := getX_list (bulk_word_name (by simp)) hrs
    cases e
    obtain ⟨ls, e, hls⟩ := getX_list (bulk_word_name (by simp)) hls
    cases e
    obtain ⟨ms, e, hms⟩ := getX_list (bulk_word_name (by simp)) hms
    cases e
    obtain ⟨vers, e, hvers⟩ := getX_list (bulk_word_name (by simp)) hvers
    cases e
    unfold dumpBulkOps at h
    split at h
    · cases h
    rename_i os' is3 n hloop
    split at h
    · cases h
    rename_i b' hset
    cases h
    obtain ⟨l1, g1⟩ := getMap_spec hss
    obtain ⟨l2, g2⟩ := getMap_spec hrs
    obtain ⟨l3, g3⟩ := getMap_spec hls
    obtain ⟨l4, g4⟩ := getMap_spec hms
    obtain ⟨l5, g5⟩ := getMap_spec hvers
    have hzl := zipParts_length l4 l1 l2 l3 l5
    obtain ⟨hlen', -, hcount⟩ := responsesLoop_spec hzl hloop
    obtain ⟨ys, e, -, hbad, hgood, -⟩ := C27_multi .dump (BulkA.opsInfo BulkA.responseUrn) _ [] [] (BulkA.opsInfo_decl _ _) rfl
      BulkA.responseSubs_plain BulkA.responseSubs_sane (by simp [Attr.cprocs]) xs _ _ hbase
    cases e
    refine ⟨rfl, .inr ⟨_, _, _, _, _, os', is3, n, hms, hss, hrs, hls, hvers, hloop, rfl, ?_, by rw [hlen', hlen], ?_, ?_⟩⟩
    · rw [hcount]
      apply countP_index (by rw [hzl, hlen])
      intro i x p hxi hpi
      have hi : i < os.length := by
        rw [hlen]
        exact (List.getElem?_eq_some_iff.mp hxi).1
      obtain ⟨v1, a1, b1⟩ := g1 i _ (List.getElem?_eq_getElem hi)
      obtain ⟨v2, a2, b2⟩ := g2 i _ (List.getElem?_eq_getElem hi)
      obtain ⟨v3, a3, b3⟩ := g3 i _ (List.getElem?_eq_getElem hi)
      obtain ⟨v4, a4, b4⟩ := g4 i _ (List.getElem?_eq_getElem hi)
      obtain ⟨v5, a5, b5⟩ := g5 i _ (List.getElem?_eq_getElem hi)
      rw [zipParts_get a4 a1 a2 a3 a5] at hpi
      cases hpi
      cases hxc : x.isCont with
      | true =>
        obtain ⟨y, hy, hsr, -⟩ := hgood i x hxi hxc
        rw [List.getElem?_eq_getElem hi] at hy
        cases hy
        exact BulkA.failed_item hsr b4 b1 b2
      | false =>
        rw [BulkA.failed_bad hxc]
        obtain ⟨⟨y, hy, -, hk⟩, -⟩ := hbad i x hxi hxc
        rw [List.getElem?_eq_getElem hi] at hy
        cases hy
        obtain ⟨r1, r2, -⟩ := BulkA.response_keys hbase _ (List.getElem_mem hi)
        rw [getItem_undeclared r1 r2 (by intro k hk'; rw [hk] at hk'; cases hk')] at b4
        cases b4
        rfl
    · intro hi; simp [hi]
    · intro hi
      simp only [hi, Bool.false_eq_true, if_false]
      have hobj' : (body.isCont || body.isDict) = true := by simpa using hobj
      refine setOps_get BulkA.response_wf hobj' hb1 ?_ ⟨_, BulkA.responseOpsB_mem, by rw [BulkA.responseOpsB_rep]; rfl⟩ hset
        (BulkA.response_low (by simp))
      intro a ha
      rcases BulkA.response_top a ha with rfl | rfl
      · rw [bindAttr_rep]
      · rw [BulkA.responseOpsB_rep]; rfl
  all_goals cases h

end V
end Scim
