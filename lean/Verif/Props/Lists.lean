import Verif.Lemmas.Lists
import Verif.Props.Responses
import Verif.Props.Sorter

/-! List responses: C73, C77, C92. -/

namespace Scim
open Issues V
variable [PyEnv]

/-! ### The checks give well-formed issues -/

theorem skipIfBad_wf {p : PyM Issues} {r : Issues} (hp : ∀ i, p = .ok i → i.WF) (h : skipIfBad p = .ok r) : r.WF := by
  unfold skipIfBad at h
  split at h
  · split at h
    · cases h; exact WF.empty
    · cases h
  · rename_i i
    cases h; exact hp _ rfl

theorem validateStartIndex_wf {n : Int} {b : Val} {r : Issues} (h : validateStartIndex n b = .ok r) : r.WF := by
  unfold validateStartIndex at h
  split at h
  · cases h
  · cases h; split
    · exact WF.empty.add _ _ _
    · exact WF.empty

theorem validateNumber_wf {c : Option Int} {t : Val} {n : Nat} {r : Issues} (h : validateNumber c t n = .ok r) : r.WF := by
  unfold validateNumber at h
  split at h
  · cases h
  rename_i low _
  have hw : (if low = true then Issues.empty.add ⟨22, []⟩ true else {}).WF := by
    split
    · exact WF.empty.add _ _ _
    · exact WF.empty
  simp only at h
  generalize (if low = true then Issues.empty.add ⟨22, []⟩ true else {}) = i at *
  split at h
  · split at h
    · cases h
    · cases h; split
      · exact hw.add _ _ _
      · exact hw
  · cases h; split
    · exact hw.add _ _ _
    · exact hw

theorem validatePagination_wf {c : Option Int} {t s p : Val} {n : Nat} {r : Issues}
    (h : validatePagination c t n s p = .ok r) : r.WF := by
  unfold validatePagination at h
  refine skipIfBad_wf ?_ h
  intro i hi
  split at hi
  · split at hi
    · cases hi
    · cases hi; exact WF.empty
    · have hw : (if s.isNoneOrMissing = true then Issues.empty.add ⟨15, []⟩ false [.name "startIndex".toList] else {}).WF := by
        split
        · exact WF.empty.add _ _ _
        · exact WF.empty
      simp only at hi
      generalize (if s.isNoneOrMissing = true then Issues.empty.add ⟨15, []⟩ false [.name "startIndex".toList] else {}) = j at *
      cases hi; split
      · exact hw.add _ _ _
      · exact hw
  · cases hi; exact WF.empty

theorem filteredLoop_wf {o : Op} {table : List Schema} {st : Bool} {i : Nat} {xs : List Val} {ids : List (Option Nat)}
    {is r : Issues} (hw : is.WF) (h : filteredLoop o table st i xs ids is = .ok r) : r.WF := by
  induction xs generalizing i ids is with
  | nil => unfold filteredLoop at h; cases h; exact hw
  | cons x xs ih =>
    cases ids with
    | nil => unfold filteredLoop at h; cases h; exact hw
    | cons t ts =>
      rw [filteredLoop] at h
      repeat' split at h
      all_goals first
        | (cases h; done)
        | exact ih hw h
        | exact ih (hw.add _ _ _) h

theorem presenceLoop_wf {c : Checker} {table : List Schema} {i : Nat} {xs : List Val} {ids : List (Option Nat)}
    {is r : Issues} (hw : is.WF) (h : presenceLoop c table i xs ids is = .ok r) : r.WF := by
  induction xs generalizing i ids is with
  | nil => unfold presenceLoop at h; cases h; exact hw
  | cons x xs ih =>
    cases ids with
    | nil => unfold presenceLoop at h; cases h; exact hw
    | cons t ts =>
      rw [presenceLoop] at h
      split at h
      · cases h
      split at h
      · cases h
      rename_i is1 hc
      exact ih (hw.merge (call_wf hc) _) h

theorem filteredIf_wf {schemas : List Schema} {ids : List (Option Nat)} {f : Option Op} {xs : List Val} {r : Issues}
    (h : filteredIf schemas ids f xs = .ok r) : r.WF := by
  cases f with
  | none => cases h; exact WF.empty
  | some o => exact skipIfBad_wf (fun i hi => filteredLoop_wf WF.empty hi) h

theorem sortedIf_wf {schemas : List Schema} {ids : List (Option Nat)} {f : Option SorterCfg} {xs : List Val} {r : Issues}
    (h : sortedIf schemas ids f xs = .ok r) : r.WF := by
  cases f with
  | none => cases h; exact WF.empty
  | some o =>
    refine skipIfBad_wf (fun i hi => ?_) h
    repeat' split at hi
    all_goals first
      | (cases hi; done)
      | (cases hi; exact WF.empty)
      | (cases hi; exact WF.empty.add _ _ _)

/-! ### What an accepted list response went through -/

/-- A step of the validator: it yields well-formed issues, and if there are none, there were none before and `P`. -/
def Checked (is r : Issues) (P : Prop) : Prop := r.WF ∧ (r.hasIssues = false → is.hasIssues = false ∧ P)

theorem checkStart_step {n : Int} {b : Val} {is r : Issues} (hw : is.WF) (h : checkStart n b is = .ok r) :
    Checked is r (∃ v, b.getItem (ListA.rep ListA.startWord) = .ok v ∧ (v.truthy = true → validateStartIndex n v = .ok {})) := by
  unfold checkStart at h
  split at h
  · split at h
    · cases h
    rename_i v hv
    split at h
    · split at h
      · cases h
      rename_i i hi
      cases h
      have hwi := validateStartIndex_wf hi
      refine ⟨hw.merge hwi _, fun hn => ?_⟩
      rw [hasIssues_merge_false] at hn
      exact ⟨hn.1, v, hv, fun _ => by rw [hi, eq_empty_of_noIssues hwi hn.2]⟩
    · rename_i ht
      cases h
      exact ⟨hw, fun hn => ⟨hn, v, hv, fun e => absurd e ht⟩⟩
  · rename_i hc
    cases h
    refine ⟨hw, fun hn => ?_⟩
    rw [hw.blocked (by simpa using hc)] at hn
    cases hn

theorem checkPages_step {c : Option Int} {t : Val} {n : Nat} {b : Val} {is r : Issues} (hw : is.WF)
    (h : checkPages c t n b is = .ok r) :
    Checked is r (∃ s p, b.getItem (ListA.rep ListA.startWord) = .ok s ∧ b.getItem (ListA.rep ListA.itemsWord) = .ok p ∧
      validatePagination c t n s p = .ok {}) := by
  unfold checkPages at h
  split at h
  · split at h
    · cases h
    rename_i s hs
    split at h
    · cases h
    rename_i p hp
    split at h
    · cases h
    rename_i i hi
    cases h
    have hwi := validatePagination_wf hi
    refine ⟨hw.merge hwi _, fun hn => ?_⟩
    rw [hasIssues_merge_false] at hn
    exact ⟨hn.1, s, p, hs, hp, by rw [hi, eq_empty_of_noIssues hwi hn.2]⟩
  · rename_i hc
    cases h
    refine ⟨hw, fun hn => ?_⟩
    rw [hw.blocked (by simpa using hc)] at hn
    cases hn

theorem checkNumbers_step {c : Option Int} {n : Nat} {b : Val} {is r : Issues} (hw : is.WF)
    (h : checkNumbers c n b is = .ok r) :
    Checked is r (∃ t s p, b.getItem (ListA.rep ListA.totalWord) = .ok t ∧ validateNumber c t n = .ok {} ∧
      b.getItem (ListA.rep ListA.startWord) = .ok s ∧ b.getItem (ListA.rep ListA.itemsWord) = .ok p ∧
      validatePagination c t n s p = .ok {}) := by
  unfold checkNumbers at h
  split at h
  · split at h
    · cases h
    rename_i t ht
    split at h
    · cases h
    rename_i i hi
    have hwi := validateNumber_wf hi
    obtain ⟨hwr, hr⟩ := checkPages_step (hw.merge hwi _) h
    refine ⟨hwr, fun hn => ?_⟩
    obtain ⟨hn1, s, p, h1, h2, h3⟩ := hr hn
    rw [hasIssues_merge_false] at hn1
    exact ⟨hn1.1, t, s, p, ht, by rw [hi, eq_empty_of_noIssues hwi hn1.2], h1, h2, h3⟩
  · rename_i hc
    cases h
    refine ⟨hw, fun hn => ?_⟩
    rw [hw.blocked (by simpa using hc)] at hn
    cases hn

theorem checkResources_step {schemas : List Schema} {f : Option Op} {so : Option SorterCfg} {c : Option Checker}
    {xs : List Val} {is r : Issues} (hw : is.WF) (h : checkResources schemas f so c xs is = .ok r) :
    Checked is r (∃ ids, ListA.schemasFor schemas xs = .ok ids ∧ filteredIf schemas ids f xs = .ok {} ∧
      sortedIf schemas ids so xs = .ok {} ∧ validateResourcesPresence (c.getD {}) xs schemas ids = .ok {}) := by
  unfold checkResources at h
  split at h
  · cases h
  rename_i ids hids
  split at h
  · cases h
  rename_i i1 hf
  simp only at h
  split at h
  · cases h
  rename_i i2 hs
  split at h
  · cases h
  rename_i i3 hp
  cases h
  have w1 := filteredIf_wf hf
  have w2 := sortedIf_wf hs
  have w3 : i3.WF := presenceLoop_wf WF.empty hp
  refine ⟨((hw.merge w1 _).merge w2 _).merge w3 _, fun hn => ?_⟩
  simp only [hasIssues_merge_false] at hn
  obtain ⟨⟨⟨h0, h1⟩, h2⟩, h3⟩ := hn
  refine ⟨h0, ids, hids, ?_, ?_, ?_⟩
  · rw [hf, eq_empty_of_noIssues w1 h1]
  · rw [hs, eq_empty_of_noIssues w2 h2]
  · rw [hp, eq_empty_of_noIssues w3 h3]

omit [PyEnv] in
theorem hasIssues_of_at {is : Issues} {l : Loc} (h : is.hasIssues [l] = true) : is.hasIssues = true := by
  cases hn : is.hasIssues with
  | true => rfl
  | false =>
    have := (hasIssues_false_iff is).mp hn
    simp [Issues.hasIssues, Issues.hasIssuesAt, this] at h

theorem dumpListRest_step {schemas : List Schema} {headers : Val} {count : Option Int} {f : Option Op}
    {so : Option SorterCfg} {c : Option Checker} {b : Val} {xs : List Val} {is is' : Issues} {resp : Response} (hw : is.WF)
    (h : dumpListRest schemas headers count f so c b xs is = .ok (resp, is')) :
    resp.headers = headers ∧ (is'.hasIssues = true → resp.body = .null) ∧ Checked is is' (resp.body = b.toDict ∧
      (∃ t s p, b.getItem (ListA.rep ListA.totalWord) = .ok t ∧ validateNumber count t xs.length = .ok {} ∧
        b.getItem (ListA.rep ListA.startWord) = .ok s ∧ b.getItem (ListA.rep ListA.itemsWord) = .ok p ∧
        validatePagination count t xs.length s p = .ok {}) ∧
      (∃ ids, ListA.schemasFor schemas xs = .ok ids ∧ filteredIf schemas ids f xs = .ok {} ∧
        sortedIf schemas ids so xs = .ok {} ∧ validateResourcesPresence (c.getD {}) xs schemas ids = .ok {})) := by
  unfold dumpListRest at h
  split at h
  · cases h
  rename_i i1 hn1
  obtain ⟨w1, s1⟩ := checkNumbers_step hw hn1
  split at h
  · rename_i hi
    cases h
    have := hasIssues_of_at hi
    refine ⟨rfl, fun _ => rfl, w1, fun hn => ?_⟩
    rw [hn] at this; cases this
  · split at h
    · cases h
    rename_i i2 hr
    obtain ⟨w2, s2⟩ := checkResources_step w1 hr
    cases h
    refine ⟨rfl, fun hn => ?_, w2, fun hn => ?_⟩
    · simp [finish, hn]
    · obtain ⟨hn1, p2⟩ := s2 hn
      obtain ⟨hn0, p1⟩ := s1 hn1
      refine ⟨hn0, ?_, p1, p2⟩
      simp [finish, hn]

/-- What has been checked when a list response is accepted. -/
theorem dumpList_spec {schemas : List Schema} (hall : ∀ s ∈ schemas, s.WF ∧ SaneAll s.attrs.top) {status : Int}
    {body headers : Val} {start : Int} {count : Option Int} {f : Option Op} {so : Option SorterCfg} {c : Option Checker}
    {resp : Response} {is : Issues} (h : dumpList schemas status body headers start count f so c = .ok (resp, is)) :
    is.WF ∧ resp.headers = headers ∧ (is.hasIssues = true → resp.body = .null) ∧
    (is.hasIssues = false → ∃ b xs, ListA.dump schemas body = .ok (b, {}) ∧ resp.body = b.toDict ∧ status = 200 ∧
      Checker.call {} b ListA.schema.attrs .response = .ok {} ∧
      (∃ v, b.getItem (ListA.rep ListA.startWord) = .ok v ∧ (v.truthy = true → validateStartIndex start v = .ok {})) ∧
      (b.getItem (ListA.rep ListA.resourcesWord) = .ok .missing ∧ xs = [] ∨
        b.getItem (ListA.rep ListA.resourcesWord) = .ok (.list xs)) ∧
      (∃ t s p, b.getItem (ListA.rep ListA.totalWord) = .ok t ∧ validateNumber count t xs.length = .ok {} ∧
        b.getItem (ListA.rep ListA.startWord) = .ok s ∧ b.getItem (ListA.rep ListA.itemsWord) = .ok p ∧
        validatePagination count t xs.length s p = .ok {}) ∧
      (∃ ids, ListA.schemasFor schemas xs = .ok ids ∧ filteredIf schemas ids f xs = .ok {} ∧
        sortedIf schemas ids so xs = .ok {} ∧ validateResourcesPresence (c.getD {}) xs schemas ids = .ok {})) := by
  unfold dumpList at h
  split at h
  · cases h
  rename_i b i0 hd
  obtain ⟨w0, -⟩ := ListA.dump_spec hall hd
  have wb := WF.empty.merge w0 bodyLoc
  simp only at h
  split at h
  · rename_i hc
    cases h
    refine ⟨wb, rfl, fun _ => rfl, fun hn => ?_⟩
    rw [wb.blocked (by simpa using hc)] at hn; cases hn
  split at h
  · cases h
  rename_i i1 hcall
  have w1 := call_wf hcall
  split at h
  · cases h
  rename_i i2 hst
  obtain ⟨w2, s2⟩ := checkStart_step ((wb.merge w1 _).merge statusIs_wf _) hst
  split at h
  · rename_i hc
    cases h
    refine ⟨w2, rfl, fun _ => rfl, fun hn => ?_⟩
    rw [w2.blocked (by simpa using hc)] at hn; cases hn
  split at h
  · cases h
  · rename_i hg
    obtain ⟨e1, e2, w3, s3⟩ := dumpListRest_step w2 h
    refine ⟨w3, e1, e2, fun hn => ?_⟩
    obtain ⟨hn2, p1, p2, p3⟩ := s3 hn
    obtain ⟨hn1, p4⟩ := s2 hn2
    simp only [hasIssues_merge_false] at hn1
    refine ⟨b, [], ?_, p1, (statusIs_clean.mp hn1.2).symm, ?_, p4, .inl ⟨hg, rfl⟩, p2, p3⟩
    · rw [hd, eq_empty_of_noIssues w0 hn1.1.1.2]
    · rw [hcall, eq_empty_of_noIssues w1 hn1.1.2]
  · rename_i xs hg
    obtain ⟨e1, e2, w3, s3⟩ := dumpListRest_step w2 h
    refine ⟨w3, e1, e2, fun hn => ?_⟩
    obtain ⟨hn2, p1, p2, p3⟩ := s3 hn
    obtain ⟨hn1, p4⟩ := s2 hn2
    simp only [hasIssues_merge_false] at hn1
    refine ⟨b, xs, ?_, p1, (statusIs_clean.mp hn1.2).symm, ?_, p4, .inr hg, p2, p3⟩
    · rw [hd, eq_empty_of_noIssues w0 hn1.1.1.2]
    · rw [hcall, eq_empty_of_noIssues w1 hn1.1.2]
  · cases h

/-! ### C73 -/

omit [PyEnv] in
theorem IsInt.num {v : Val} {t : Int} (h : v.IsInt t) : ∃ p : Prim, v = .prim p ∧ p.num? = some (.fin (t : Rat)) ∧ ∀ s, p ≠ .str s := by
  cases h with
  | int t => exact ⟨_, rfl, rfl, by simp⟩
  | bool b => refine ⟨_, rfl, ?_, by simp⟩; cases b <;> rfl

theorem pyLt_ints {v w : Val} {t u : Int} (h : v.IsInt t) (h' : w.IsInt u) : v.pyLt w = .ok (decide (t < u)) := by
  obtain ⟨p, rfl, hp, hps⟩ := IsInt.num h
  obtain ⟨q, rfl, hq, -⟩ := IsInt.num h'
  have : Prim.pyLt p q = .ok ((PyFloat.fin (t : Rat)).lt (.fin (u : Rat))) := by
    unfold Prim.pyLt
    split
    · exact absurd rfl (hps _)
    · rw [hp, hq]
  rw [Val.pyLt, this]
  simp only [PyFloat.lt, Rat.intCast_lt_intCast]

/-- **C73** the number of resources: below `totalResults` at least, all of them when no count was requested, at most
the requested count otherwise. -/
theorem C73_number (count : Option Int) (total : Val) (t : Int) (ht : total.IsInt t) (n : Nat) :
    ∃ is, validateNumber count total n = .ok is ∧ (∀ l, l ≠ [] → is.codesAt l = []) ∧
      (22 ∈ is.codesAt [] ↔ t < n) ∧
      (23 ∈ is.codesAt [] ↔ count = none ∧ n < t) ∧
      (21 ∈ is.codesAt [] ↔ ∃ c, count = some c ∧ c < n) ∧
      (is.hasIssues = true ↔ t < n ∨ (count = none ∧ n < t) ∨ ∃ c, count = some c ∧ c < n) := by
  unfold validateNumber
  rw [pyLt_ints ht (.int (n : Int)), pyLt_ints (.int (n : Int)) ht]
  have key : ∀ (P Q : Prop) [Decidable P] [Decidable Q] (c : Nat) (i : Issues), i = (if Q then
      (if P then Issues.empty.add ⟨22, []⟩ true else {}).add ⟨c, []⟩ true
        else (if P then Issues.empty.add ⟨22, []⟩ true else {})) →
      (∀ l, l ≠ [] → i.codesAt l = []) ∧ (i.codesAt [] = (if P then [22] else []) ++ if Q then [c] else []) ∧
      (i.hasIssues = true ↔ P ∨ Q) := by
    intro P Q _ _ c i hi
    subst hi
    refine ⟨?_, ?_, ?_⟩
    · intro l hl
      have := Ne.symm hl
      by_cases P <;> by_cases Q <;> simp [Issues.codesAt, errorsAt_add, *]
    · by_cases P <;> by_cases Q <;> simp [Issues.codesAt, errorsAt_add, *]
    · by_cases P <;> by_cases Q <;> simp [hasIssues_add, *, show Issues.hasIssues {} = false from rfl]
  simp only [decide_eq_true_eq]
  cases count with
  | none =>
    refine ⟨_, rfl, ?_⟩
    obtain ⟨k1, k2, k3⟩ := key (t < n) ((n : Int) < t) 23 _ rfl
    refine ⟨k1, ?_, ?_, ?_, ?_⟩
    · rw [k2]; by_cases t < n <;> by_cases (n : Int) < t <;> simp [*]
    · rw [k2]; by_cases t < n <;> by_cases (n : Int) < t <;> simp [*]
    · rw [k2]; by_cases t < n <;> by_cases (n : Int) < t <;> simp [*]
    · rw [k3]; simp
  | some c =>
    refine ⟨_, rfl, ?_⟩
    obtain ⟨k1, k2, k3⟩ := key (t < n) (c < n) 21 _ rfl
    refine ⟨k1, ?_, ?_, ?_, ?_⟩
    · rw [k2]; by_cases t < n <;> by_cases c < n <;> simp [*]
    · rw [k2]; by_cases t < n <;> by_cases c < n <;> simp [*]
    · rw [k2]; by_cases t < n <;> by_cases c < n <;> simp [*]
    · rw [k3]; simp

/-- **C73** pages: when a count was requested and not all results are there, `startIndex` and `itemsPerPage` are
required. -/
theorem C73_pages (count : Option Int) (total : Val) (t : Int) (ht : total.IsInt t) (n : Nat) (s p : Val) :
    ∃ is, validatePagination count total n s p = .ok is ∧
      (15 ∈ is.codesAt [.name "startIndex".toList] ↔ (∃ c, count = some c ∧ 0 < c) ∧ n < t ∧ (s = .null ∨ s = .missing)) ∧
      (15 ∈ is.codesAt [.name "itemsPerPage".toList] ↔ (∃ c, count = some c ∧ 0 < c) ∧ n < t ∧ (p = .null ∨ p = .missing)) ∧
      (is.hasIssues = true ↔
        (∃ c, count = some c ∧ 0 < c) ∧ n < t ∧ (s = .null ∨ s = .missing ∨ p = .null ∨ p = .missing)) := by
  have hnm : ∀ v : Val, v.isNoneOrMissing = true ↔ (v = .null ∨ v = .missing) := by
    intro v
    cases v with
    | prim q => cases q <;> simp [Val.isNoneOrMissing, Val.null]
    | _ => simp [Val.isNoneOrMissing, Val.null]
  have hc : (∃ c, count = some c ∧ 0 < c) ↔ 0 < count.getD 0 := by cases count <;> simp
  unfold validatePagination
  rw [pyLt_ints (.int (n : Int)) ht, hc]
  by_cases h1 : 0 < count.getD 0
  · rw [if_pos h1]
    by_cases h2 : (n : Int) < t
    · simp only [h2, decide_true, skipIfBad]
      refine ⟨_, rfl, ?_⟩
      have hs := hnm s
      have hp := hnm p
      have e : ([.name "itemsPerPage".toList] : Loc) ≠ [.name "startIndex".toList] := by decide
      generalize ([.name "itemsPerPage".toList] : Loc) = L at *
      generalize ([.name "startIndex".toList] : Loc) = M at *
      cases hs1 : s.isNoneOrMissing <;> cases hp1 : p.isNoneOrMissing <;> rw [hs1] at hs <;> rw [hp1] at hp <;>
        simp only [Bool.false_eq_true, true_iff, false_iff] at hs hp <;>
        simp [Issues.codesAt, errorsAt_add, hasIssues_add, e, e.symm, h1, hs, hp, ← or_assoc, not_or.mp,
          show Issues.hasIssues {} = false from rfl] <;> grind
    · simp only [h2, decide_false, skipIfBad]
      exact ⟨_, rfl, by simp [Issues.codesAt, show Issues.hasIssues {} = false from rfl]⟩
  · rw [if_neg h1]
    exact ⟨_, rfl, by simp [Issues.codesAt, h1, show Issues.hasIssues {} = false from rfl]⟩

omit [PyEnv] in
theorem dictItems_length (xs : List Val) : (dictItems xs).length = xs.length := by
  induction xs with
  | nil => rfl
  | cons x xs ih => cases x <;> simp [dictItems, ih]

/-- The number of resources in the dictionary that is sent. -/
def ResourcesIn (kvs : List (Str × Val)) (n : Nat) : Prop :=
  (∃ ys, aget "Resources".toList kvs = some (.list ys) ∧ ys.length = n) ∨
    ((∀ ys, aget "Resources".toList kvs ≠ some (.list ys)) ∧ n = 0)

/-- The integer under a name in the dictionary that is sent. -/
def IntIn (kvs : List (Str × Val)) (name : Str) (t : Int) : Prop := ∃ v, aget name kvs = some v ∧ v.IsInt t

/-- An integer attribute of a list response without issues: absent, null or an integer. -/
theorem list_int {data r : Val} (hobj : (data.isCont || data.isDict) = true)
    (hp : ListA.schema.process .dump data = .ok (r, {})) {a : Attr} (ha : a ∈ ListA.schema.attrs.top) (he : a.rep.ext = false)
    (hns : a.rep.attr ≠ "schemas".toList) {i : AttrInfo} (hai : a = .simple i) (ht : i.type = .integer)
    (hmu : i.multi = false) (hpr : i.dumpers = []) (hc : i.canonical = none) {v : Val} (hv : r.getItem a.rep = .ok v) :
    v = .missing ∨ v = .null ∨ ∃ t, v.IsInt t := by
  rcases clean_value ListA.wf ListA.sane hobj hp ha he hns hv with h | ⟨x, hx⟩
  · exact .inl h
  · rw [hai] at hx
    exact .inr (integer_clean (m := .dump) ht hmu hpr hc hx)

/-- **C73** an accepted list response has consistent counts. -/
theorem C73_accepted (schemas : List Schema) (hall : ∀ s ∈ schemas, s.WF ∧ SaneAll s.attrs.top) (status : Int)
    (body headers : Val) (start : Int) (count : Option Int) (f : Option Op) (so : Option SorterCfg) (c : Option Checker)
    (resp : Response) (is : Issues) (h : dumpList schemas status body headers start count f so c = .ok (resp, is))
    (hn : is.hasIssues = false) :
    status = 200 ∧ ∃ kvs t n, resp.body = .dict kvs ∧ IntIn kvs "totalResults".toList t ∧ ResourcesIn kvs n ∧ n ≤ t ∧
      (count = none → t = n) ∧ (∀ c, count = some c → n ≤ c) ∧
      (∀ c, count = some c → 0 < c → n < t →
        (∃ i, IntIn kvs "startIndex".toList i) ∧ ∃ i, IntIn kvs "itemsPerPage".toList i) ∧
      (∀ i, IntIn kvs "startIndex".toList i → i ≠ 0 → i ≤ start) ∧
      (∀ i ys, IntIn kvs "itemsPerPage".toList i → aget "Resources".toList kvs = some (.list ys) → i = n) := by
  obtain ⟨-, -, -, hacc⟩ := dumpList_spec hall h
  obtain ⟨b, xs, hd, hb, hst, hcall, ⟨sv, hsv, hstart⟩, hres, ⟨tv, sv', pv, htv, hnum, hsv', hpv, hpag⟩, -⟩ := hacc hn
  rw [hsv] at hsv'; cases hsv'
  refine ⟨hst, ?_⟩
  obtain ⟨-, hclean⟩ := ListA.dump_spec hall hd
  obtain ⟨hobj, d0, lc0, d, lc, hp, rfl, hv0, hv, hsame, hR⟩ := hclean rfl
  -- the values of the attributes
  have get : ∀ (w : Str) (a : Attr), a ∈ ListA.schema.attrs.top → a.rep = ListA.rep w → w ≠ ListA.resourcesWord →
      (Val.cont d lc).getItem (ListA.rep w) = .ok ((aget w d).getD .missing) ∧
      (Val.cont d0 lc0).getItem a.rep = .ok ((aget w d).getD .missing) := by
    intro w a ha hr hw
    have e1 := hv.get ListA.wf ha (by rw [hr]; rfl)
    have e0 := hv0.get ListA.wf ha (by rw [hr]; rfl)
    rw [hr] at e1
    rw [show a.rep.attr = w by rw [hr]; rfl, ← hsame w hw] at e0
    exact ⟨e1, e0⟩
  have hdict : ∀ w v, aget w d = some v → ∀ i, v.IsInt i → IntIn (dictPairs d) w i := by
    intro w v hw i hi
    refine ⟨v, ?_, hi⟩
    rw [aget_dictPairs, hw]
    cases hi <;> rfl
  have hdict' : ∀ w i, IntIn (dictPairs d) w i → ∃ v, aget w d = some v ∧ v.IsInt i := by
    rintro w i ⟨v, hv, hi⟩
    rw [aget_dictPairs] at hv
    cases ha : aget w d with
    | none => rw [ha] at hv; cases hv
    | some u =>
      rw [ha] at hv
      refine ⟨u, rfl, ?_⟩
      have e := Option.some.inj hv
      cases hi <;> cases u <;> simp [dictVal] at e <;> subst e <;> constructor
  have int : ∀ (w : Str) (a : Attr), a ∈ ListA.schema.attrs.top → a.rep = ListA.rep w → w ≠ ListA.resourcesWord →
      w ≠ "schemas".toList → (∃ i, a = .simple i ∧ i.type = .integer ∧ i.multi = false ∧ i.dumpers = [] ∧ i.canonical = none) →
      ((aget w d).getD .missing = .missing ∨ (aget w d).getD .missing = .null ∨ ∃ t, ((aget w d).getD .missing).IsInt t) := by
    rintro w a ha hr hw hs ⟨i, hai, h1, h2, h3, h4⟩
    exact list_int hobj hp ha (by rw [hr]; rfl) (by rw [hr]; exact hs) hai h1 h2 h3 h4 (get w a ha hr hw).2
  have some_of : ∀ w t, ((aget w d).getD .missing).IsInt t → ∃ v, aget w d = some v ∧ v.IsInt t := by
    intro w t ht
    cases ha : aget w d with
    | none => rw [ha] at ht; cases ht
    | some v => rw [ha] at ht; exact ⟨v, rfl, ht⟩
  have gt := (get _ _ ListA.total_mem ListA.total_rep (by decide)).1
  have gs := (get _ _ ListA.start_mem ListA.start_rep (by decide)).1
  have gp := (get _ _ ListA.items_mem ListA.items_rep (by decide)).1
  rw [htv] at gt; rw [hsv] at gs; rw [hpv] at gp
  have gt := Except.ok.inj gt
  have gs := Except.ok.inj gs
  have gp := Except.ok.inj gp
  have it := int _ _ ListA.total_mem ListA.total_rep (by decide) (by decide) ⟨_, rfl, rfl, rfl, rfl, rfl⟩
  have is_ := int _ _ ListA.start_mem ListA.start_rep (by decide) (by decide) ⟨_, rfl, rfl, rfl, rfl, rfl⟩
  have ip := int _ _ ListA.items_mem ListA.items_rep (by decide) (by decide) ⟨_, rfl, rfl, rfl, rfl, rfl⟩
  rw [← gt] at it; rw [← gs] at is_; rw [← gp] at ip
  obtain ⟨t, ht⟩ : ∃ t, tv.IsInt t := by
    have hne : ¬ tv.Empty := by
      intro hem
      have := C36_simple {} (by simp) _ _ _ _ hcall ListA.total (ListA.wf.top_all _ ListA.total_mem)
        (.inl (by rw [ListA.total_rep]; rfl)) tv (by rw [ListA.total_rep]; exact htv) hem rfl (by rintro ⟨x, hx, -⟩; cases hx)
      simp [Issues.codesAt] at this
    rcases it with rfl | rfl | ⟨t, ht⟩
    · exact absurd (.inr (.inr (.inr rfl))) hne
    · exact absurd (.inl rfl) hne
    · exact ⟨t, ht⟩
  obtain ⟨in1, hin1, -, -, -, -, hnn⟩ := C73_number count tv t ht xs.length
  rw [hnum] at hin1; cases hin1
  have hnn := not_or.mp ((not_congr hnn).mp (by simp [show Issues.hasIssues {} = false from rfl]))
  have hnn2 := not_or.mp hnn.2
  obtain ⟨in2, hin2, -, -, hpp⟩ := C73_pages count tv t ht xs.length sv pv
  rw [hpag] at hin2; cases hin2
  have hpp := (not_congr hpp).mp (by simp [show Issues.hasIssues {} = false from rfl])
  have hkey : ∀ {w : Str} {v : Val}, v = (aget w d).getD .missing → ∀ {t}, v.IsInt t → IntIn (dictPairs d) w t := by
    intro w v hv' t ht'
    rw [hv'] at ht'
    obtain ⟨u, hu, hut⟩ := some_of w t ht'
    exact hdict w u hu t hut
  refine ⟨dictPairs d, t, xs.length, hb, hkey gt ht, ?_, ?_, ?_, ?_, ?_, ?_, ?_⟩
  · have gr := hv.get ListA.wf ListA.resources_mem (by rw [ListA.resources_rep]; rfl)
    rw [ListA.resources_rep, show (ListA.rep ListA.resourcesWord).attr = ListA.resourcesWord from rfl] at gr
    unfold ResourcesIn
    rw [aget_dictPairs, show "Resources".toList = ListA.resourcesWord from rfl]
    rcases hres with ⟨hg, rfl⟩ | hg
    · right
      rw [hg] at gr
      refine ⟨?_, rfl⟩
      intro ys hys
      cases ha : aget ListA.resourcesWord d with
      | none => rw [ha] at hys; cases hys
      | some u =>
        rw [ha] at hys gr
        have := Except.ok.inj gr
        simp only [Option.getD_some] at this
        subst this
        cases hys
    · left
      rw [hg] at gr
      cases ha : aget ListA.resourcesWord d with
      | none => rw [ha] at gr; cases gr
      | some u =>
        rw [ha] at gr
        have := Except.ok.inj gr
        simp only [Option.getD_some] at this
        subst this
        refine ⟨_, rfl, ?_⟩
        exact dictItems_length xs
  · omega
  · intro hc
    have := hnn2.1
    have h1 := hnn.1
    have : ¬ ((xs.length : Int) < t) := fun e => this ⟨hc, e⟩
    omega
  · intro c hc
    have : ¬ (c < xs.length) := fun e => hnn2.2 ⟨c, hc, e⟩
    omega
  · intro c hc h0 hlt
    have hnot : ¬ (sv = .null ∨ sv = .missing ∨ pv = .null ∨ pv = .missing) := fun e => hpp ⟨⟨c, hc, h0⟩, hlt, e⟩
    simp only [not_or] at hnot
    constructor
    · rcases is_ with h | h | ⟨i, hi⟩
      · exact absurd h hnot.2.1
      · exact absurd h hnot.1
      · exact ⟨i, hkey gs hi⟩
    · rcases ip with h | h | ⟨i, hi⟩
      · exact absurd h hnot.2.2.2
      · exact absurd h hnot.2.2.1
      · exact ⟨i, hkey gp hi⟩
  · intro i hi h0
    obtain ⟨v, hv', hvi⟩ := hdict' _ _ hi
    have : sv = v := by
      rw [gs, show ListA.startWord = "startIndex".toList from rfl, hv']; rfl
    subst this
    have htr : sv.truthy = true := by
      cases hvi with
      | int t => simpa [Val.truthy] using h0
      | bool b => cases b <;> simp [Val.truthy] at h0 ⊢
    have := hstart htr
    unfold validateStartIndex at this
    rw [pyLt_ints (.int start) hvi] at this
    by_cases hlt : start < i
    · simp only [hlt, decide_true, if_true, Except.ok.injEq] at this
      have e := congrArg (fun x : Issues => x.hasIssues) this
      simp [hasIssues_add, show Issues.hasIssues {} = false from rfl] at e
    · omega
  · intro i ys hi hys
    obtain ⟨v, hv', hvi⟩ := hdict' _ _ hi
    rcases hR with hm | ⟨xs0, ys0, -, hys0, hRes⟩
    · exfalso
      rw [aget_dictPairs, show "Resources".toList = ListA.resourcesWord from rfl] at hys
      cases ha : aget ListA.resourcesWord d with
      | none => rw [ha] at hys; cases hys
      | some u =>
        rw [ha] at hys hm
        simp only [Option.getD_some] at hm
        subst hm
        cases hys
    · have e1 := hRes.items v i (by
        rw [(get _ _ ListA.items_mem ListA.items_rep (by decide)).1, show ListA.itemsWord = "itemsPerPage".toList from rfl, hv']
        rfl) hvi
      rw [e1, ← hRes.length]
      have gr := hv.get ListA.wf ListA.resources_mem (by rw [ListA.resources_rep]; rfl)
      rw [ListA.resources_rep, show (ListA.rep ListA.resourcesWord).attr = ListA.resourcesWord from rfl, hys0] at gr
      rcases hres with ⟨hg, -⟩ | hg
      · rw [hg] at gr; cases gr
      · rw [hg] at gr; cases gr; rfl

/-! ### C77 -/

/-- The verdict of a filter on a resource of the schema at a position of the table. -/
def Verdict (table : List Schema) (o : Op) (x : Val) (t : Option Nat) (b : Bool) : Prop :=
  ∃ n s st, t = some n ∧ table[n]? = some s ∧ Filter.call o x s.attrs.all false = .ok st ∧ st.toBool = .ok b

theorem Verdict.unique {table : List Schema} {o : Op} {x : Val} {t : Option Nat} {a b : Bool}
    (h : Verdict table o x t a) (h' : Verdict table o x t b) : a = b := by
  obtain ⟨n, s, st, rfl, hs, hc, hb⟩ := h
  obtain ⟨n', s', st', e, hs', hc', hb'⟩ := h'
  cases e
  rw [hs] at hs'; cases hs'
  rw [hc] at hc'; cases hc'
  rw [hb] at hb'; cases hb'
  rfl

theorem filteredLoop_spec {table : List Schema} {o : Op} {xs : List Val} {ids : List (Option Nat)} (hlen : ids.length = xs.length)
    (hv : ∀ (k : Nat) (x : Val) (t : Option Nat), xs[k]? = some x → ids[k]? = some t → ∃ b, Verdict table o x t b)
    (i : Nat) (is : Issues) :
    ∃ r, filteredLoop o table false i xs ids is = .ok r ∧
      ∀ (l : Loc) (e : VErr), e ∈ r.errorsAt l ↔ e ∈ is.errorsAt l ∨
        (e = ⟨25, []⟩ ∧ ∃ (k : Nat) (x : Val) (t : Option Nat), xs[k]? = some x ∧ ids[k]? = some t ∧
          Verdict table o x t false ∧ l = [.idx (i + k)]) := by
  induction xs generalizing ids i is with
  | nil => exact ⟨is, by unfold filteredLoop; rfl, by simp⟩
  | cons x xs ih =>
    cases ids with
    | nil => simp at hlen
    | cons t ts =>
      simp only [List.length_cons, Nat.add_right_cancel_iff] at hlen
      obtain ⟨b, hb⟩ := hv 0 x t rfl rfl
      have hb0 := hb
      obtain ⟨n, s, st, rfl, hs, hc, hst⟩ := hb
      obtain ⟨r, hr, hspec⟩ := ih hlen (fun k x t hx ht => hv (k + 1) x t hx ht) (i + 1)
        (if b then is else is.add ⟨25, []⟩ true [.idx i])
      refine ⟨r, ?_, ?_⟩
      · rw [filteredLoop, attrsOf, hs]
        simp only [hc, hst]
        exact hr
      · intro l e
        rw [hspec]
        have hadd : e ∈ (if b = true then is else is.add ⟨25, []⟩ true [.idx i]).errorsAt l ↔
            e ∈ is.errorsAt l ∨ (e = ⟨25, []⟩ ∧ b = false ∧ l = [.idx i]) := by
          cases b with
          | true => simp
          | false =>
            simp only [Bool.false_eq_true, if_false, errorsAt_add, List.mem_append]
            split <;> rename_i hl
            · subst hl; simp
            · simp [Ne.symm hl]
        rw [hadd]
        constructor
        · rintro ((h | ⟨rfl, hbf, rfl⟩) | ⟨rfl, k, x', t', hx, ht, hv', rfl⟩)
          · exact .inl h
          · subst hbf
            exact .inr ⟨rfl, 0, x, _, rfl, rfl, hb0, rfl⟩
          · exact .inr ⟨rfl, k + 1, x', t', hx, ht, hv', by rw [Nat.add_assoc, Nat.add_comm 1 k]⟩
        · rintro (h | ⟨rfl, k, x', t', hx, ht, hv', rfl⟩)
          · exact .inl (.inl h)
          · cases k with
            | zero =>
              simp only [List.getElem?_cons_zero, Option.some.injEq] at hx ht
              subst hx; subst ht
              exact .inl (.inr ⟨rfl, hb0.unique hv', rfl⟩)
            | succ k =>
              exact .inr ⟨rfl, k, x', t', hx, ht, hv', by rw [Nat.add_assoc, Nat.add_comm 1 k]⟩

/-- **C77** when matching raises for no resource, there is an issue 25 at the index of exactly the resources that fail
the filter, and no other issue. -/
theorem C77_issues (table : List Schema) (o : Op) (xs : List Val) (ids : List (Option Nat)) (hlen : ids.length = xs.length)
    (hv : ∀ (k : Nat) (x : Val) (t : Option Nat), xs[k]? = some x → ids[k]? = some t → ∃ b, Verdict table o x t b) :
    ∃ is, validateFiltered xs o table ids false = .ok is ∧
      (∀ (k : Nat) (x : Val) (t : Option Nat), xs[k]? = some x → ids[k]? = some t →
        (25 ∈ is.codesAt [.idx k] ↔ Verdict table o x t false)) ∧
      (∀ l c, c ∈ is.codesAt l → c = 25 ∧ ∃ k, k < xs.length ∧ l = [.idx k]) := by
  obtain ⟨r, hr, hspec⟩ := filteredLoop_spec hlen hv 0 {}
  refine ⟨r, by unfold validateFiltered; rw [hr]; rfl, ?_, ?_⟩
  · intro k x t hx ht
    rw [mem_codesAt]
    constructor
    · rintro ⟨e, he, -⟩
      rw [hspec] at he
      rcases he with he | ⟨-, k', x', t', hx', ht', hv', hl⟩
      · cases he
      · have : k = k' := by simpa using hl
        subst this
        rw [hx] at hx'; cases hx'
        rw [ht] at ht'; cases ht'
        exact hv'
    · intro hv'
      exact ⟨⟨25, []⟩, (hspec _ _).mpr (.inr ⟨rfl, k, x, t, hx, ht, hv', by simp⟩), rfl⟩
  · intro l c hc
    rw [mem_codesAt] at hc
    obtain ⟨e, he, rfl⟩ := hc
    rw [hspec] at he
    rcases he with he | ⟨rfl, k, x, t, hx, ht, -, rfl⟩
    · cases he
    · refine ⟨rfl, k, ?_, by simp⟩
      exact (List.getElem?_eq_some_iff.mp hx).1

/-- **C77** in an accepted list response to a filtered request every resource matches the filter, provided matching
raises for none of them. -/
theorem C77_accepted (schemas : List Schema) (hall : ∀ s ∈ schemas, s.WF ∧ SaneAll s.attrs.top) (status : Int)
    (body headers : Val) (start : Int) (count : Option Int) (o : Op) (so : Option SorterCfg) (c : Option Checker)
    (resp : Response) (is : Issues) (h : dumpList schemas status body headers start count (some o) so c = .ok (resp, is))
    (hn : is.hasIssues = false) :
    ∃ b xs ids, ListA.dump schemas body = .ok (b, {}) ∧ resp.body = b.toDict ∧
      (b.getItem (ListA.rep "Resources".toList) = .ok .missing ∧ xs = [] ∨
        b.getItem (ListA.rep "Resources".toList) = .ok (.list xs)) ∧
      ListA.schemasFor schemas xs = .ok ids ∧ ids.length = xs.length ∧
      ((∀ (k : Nat) (x : Val) (t : Option Nat), xs[k]? = some x → ids[k]? = some t → ∃ b, Verdict schemas o x t b) →
        ∀ (k : Nat) (x : Val) (t : Option Nat), xs[k]? = some x → ids[k]? = some t → Verdict schemas o x t true) := by
  obtain ⟨-, -, -, hacc⟩ := dumpList_spec hall h
  obtain ⟨b, xs, hd, hb, -, -, -, hres, -, ids, hids, hf, -⟩ := hacc hn
  have hlen := ListA.schemasFor_length hids
  refine ⟨b, xs, ids, hd, hb, hres, hids, hlen, ?_⟩
  intro hv k x t hx ht
  obtain ⟨r, hr, h1, -⟩ := C77_issues schemas o xs ids hlen hv
  have : validateFiltered xs o schemas ids false = .ok {} := hf
  rw [hr] at this
  cases this
  obtain ⟨bb, hbb⟩ := hv k x t hx ht
  cases bb with
  | true => exact hbb
  | false =>
    have := (h1 k x t hx ht).mpr hbb
    simp [Issues.codesAt] at this

/-- The limit of **C77**: when matching raises one of the swallowed exceptions for some resource, nothing is reported,
whatever the verdicts on the others. -/
theorem C77_raises (table : List Schema) (o : Op) (xs : List Val) (ids : List (Option Nat)) (strict : Bool) (e : PyErr)
    (h : filteredLoop o table strict 0 xs ids {} = .error e) (he : e.isBadData = true) :
    validateFiltered xs o table ids strict = .ok {} := by
  unfold validateFiltered
  rw [h]
  simp [skipIfBad, he]

/-! ### C92 -/

/-- The answer of the presence check for a resource of the schema at a position of the table. -/
def PresenceOf (table : List Schema) (c : Checker) (x : Val) (t : Option Nat) (is : Issues) : Prop :=
  ∃ n s, t = some n ∧ table[n]? = some s ∧ c.call x s.attrs .response = .ok is

theorem attrsOf_ok {table : List Schema} {t : Option Nat} {a : Attributes} (h : attrsOf table t = .ok a) :
    ∃ n s, t = some n ∧ table[n]? = some s ∧ a = s.attrs := by
  cases t with
  | none => cases h
  | some n =>
    simp only [attrsOf] at h
    split at h
    · rename_i s hs
      cases h
      exact ⟨n, s, rfl, hs, rfl⟩
    · cases h

theorem presenceLoop_spec {c : Checker} {table : List Schema} {i : Nat} {xs : List Val} {ids : List (Option Nat)}
    {is r : Issues} (h : presenceLoop c table i xs ids is = .ok r) :
    (∀ (k : Nat) (x : Val) (t : Option Nat), xs[k]? = some x → ids[k]? = some t → ∃ p, PresenceOf table c x t p) ∧
    ∀ (l : Loc) (e : VErr), e ∈ r.errorsAt l ↔ e ∈ is.errorsAt l ∨
      ∃ (k : Nat) (x : Val) (t : Option Nat) (p : Issues) (l' : Loc), xs[k]? = some x ∧ ids[k]? = some t ∧
        PresenceOf table c x t p ∧ l = .idx (i + k) :: l' ∧ e ∈ p.errorsAt l' := by
  induction xs generalizing i ids is with
  | nil => unfold presenceLoop at h; cases h; simp
  | cons x xs ih =>
    cases ids with
    | nil => unfold presenceLoop at h; cases h; simp
    | cons t ts =>
      rw [presenceLoop] at h
      split at h
      · cases h
      rename_i a ha
      split at h
      · cases h
      rename_i p hp
      obtain ⟨n, s, rfl, hs, rfl⟩ := attrsOf_ok ha
      have hP : PresenceOf table c x (some n) p := ⟨n, s, rfl, hs, hp⟩
      obtain ⟨h1, h2⟩ := ih h
      refine ⟨?_, ?_⟩
      · intro k x' t' hx ht
        cases k with
        | zero => cases hx; cases ht; exact ⟨p, hP⟩
        | succ k => exact h1 k x' t' hx ht
      · intro l e
        rw [h2, errorsAt_merge (call_wf hp), List.mem_append]
        constructor
        · rintro ((h | h) | ⟨k, x', t', p', l', hx, ht, hp', rfl, he⟩)
          · exact .inl h
          · split at h
            · rename_i hpre
              obtain ⟨l', rfl⟩ := hpre
              exact .inr ⟨0, x, _, p, l', rfl, rfl, hP, rfl, by simpa using h⟩
            · cases h
          · exact .inr ⟨k + 1, x', t', p', l', hx, ht, hp', by rw [show i + 1 + k = i + (k + 1) by omega], he⟩
        · rintro (h | ⟨k, x', t', p', l', hx, ht, hp', rfl, he⟩)
          · exact .inl (.inl h)
          · cases k with
            | zero =>
              cases hx; cases ht
              obtain ⟨n', s', e1, hs', hp'⟩ := hp'
              cases e1
              rw [hs] at hs'; cases hs'
              rw [hp] at hp'; cases hp'
              exact .inl (.inr (by simpa using he))
            | succ k => exact .inr ⟨k, x', t', p', l', hx, ht, hp', by rw [show i + 1 + k = i + (k + 1) by omega], he⟩

/-- **C92** **C38** what is reported about the presence of attributes in the resources of a list response is what is
reported about each resource on its own, at the index of the resource. -/
theorem C92_presence (table : List Schema) (c : Checker) (xs : List Val) (ids : List (Option Nat))
    (hlen : ids.length = xs.length) (is : Issues) (h : validateResourcesPresence c xs table ids = .ok is) :
    (∀ (k : Nat) (x : Val) (t : Option Nat), xs[k]? = some x → ids[k]? = some t → ∃ p, PresenceOf table c x t p ∧
      ∀ (l : Loc) (e : VErr), e ∈ is.errorsAt (.idx k :: l) ↔ e ∈ p.errorsAt l) ∧
    (∀ (l : Loc) (e : VErr), e ∈ is.errorsAt l → ∃ k l', k < xs.length ∧ l = .idx k :: l') := by
  obtain ⟨h1, h2⟩ := presenceLoop_spec h
  refine ⟨?_, ?_⟩
  · intro k x t hx ht
    obtain ⟨p, hp⟩ := h1 k x t hx ht
    refine ⟨p, hp, fun l e => ?_⟩
    rw [h2]
    constructor
    · rintro (he | ⟨k', x', t', p', l', hx', ht', hp', hl, he⟩)
      · cases he
      · rw [Nat.zero_add] at hl
        cases hl
        rw [hx] at hx'; cases hx'
        rw [ht] at ht'; cases ht'
        obtain ⟨n, s, rfl, hs, hc⟩ := hp
        obtain ⟨n', s', e1, hs', hc'⟩ := hp'
        cases e1
        rw [hs] at hs'; cases hs'
        rw [hc] at hc'; cases hc'
        exact he
    · intro he
      exact .inr ⟨k, x, t, p, l, hx, ht, hp, by rw [Nat.zero_add], he⟩
  · intro l e he
    rw [h2] at he
    rcases he with he | ⟨k, x, t, p, l', hx, -, -, rfl, -⟩
    · cases he
    · exact ⟨k, l', (List.getElem?_eq_some_iff.mp hx).1, by rw [Nat.zero_add]⟩

/-- **C92** in an accepted list response, the presence check has nothing to say about any resource, and the sort the
client asked for leaves an equal resource at every position. -/
theorem C92_accepted (schemas : List Schema) (hall : ∀ s ∈ schemas, s.WF ∧ SaneAll s.attrs.top) (status : Int)
    (body headers : Val) (start : Int) (count : Option Int) (f : Option Op) (so : Option SorterCfg) (c : Option Checker)
    (resp : Response) (is : Issues) (h : dumpList schemas status body headers start count f so c = .ok (resp, is))
    (hn : is.hasIssues = false) :
    ∃ b xs ids, ListA.dump schemas body = .ok (b, {}) ∧ resp.body = b.toDict ∧
      (b.getItem (ListA.rep "Resources".toList) = .ok .missing ∧ xs = [] ∨
        b.getItem (ListA.rep "Resources".toList) = .ok (.list xs)) ∧
      ListA.schemasFor schemas xs = .ok ids ∧ ids.length = xs.length ∧
      (∀ (k : Nat) (x : Val) (t : Option Nat), xs[k]? = some x → ids[k]? = some t →
        PresenceOf schemas (c.getD {}) x t {}) ∧
      (∀ s r, so = some s → (∀ x ∈ xs, x.pyEq x = .ok true) → (∀ x ∈ xs, ∀ y ∈ xs, ∃ b, x.pyEq y = .ok b) →
        s.call xs (.many schemas ids) = .ok r →
        ∀ (k : Nat) (x y : Val), xs[k]? = some x → r[k]? = some y → x.pyEq y = .ok true) := by
  obtain ⟨-, -, -, hacc⟩ := dumpList_spec hall h
  obtain ⟨b, xs, hd, hb, -, -, -, hres, -, ids, hids, -, hso, hpr⟩ := hacc hn
  have hlen := ListA.schemasFor_length hids
  refine ⟨b, xs, ids, hd, hb, hres, hids, hlen, ?_, ?_⟩
  · intro k x t hx ht
    obtain ⟨p, hp, hs⟩ := (C92_presence schemas (c.getD {}) xs ids hlen {} hpr).1 k x t hx ht
    have hpe : p = {} := by
      obtain ⟨n, s, -, -, hc⟩ := hp
      refine eq_empty_of_noIssues (call_wf hc) ?_
      cases hi : p.hasIssues with
      | false => rfl
      | true =>
        obtain ⟨l, hl⟩ := (hasIssues_iff_errors (call_wf hc)).mp hi
        obtain ⟨e, he⟩ := List.exists_mem_of_ne_nil _ hl
        have := (hs l e).mpr he
        cases this
    rwa [hpe] at hp
  · intro s r e hr ht hcall k x y hx hy
    subst e
    rcases (C66_equal_iff s xs (.many schemas ids) hr ht r hcall).2 with ⟨-, h2⟩ | ⟨h1, -⟩
    · exact h2 k x y hx hy
    · rw [sortedIf, h1] at hso
      have e := congrArg (fun i : PyM Issues => i.toOption.map (·.hasIssues)) hso
      cases e

end Scim

namespace Scim.Examples.Lists
open Issues V
local instance listsEnv : PyEnv := asciiEnv

def outcome (r : PyM (Response × Issues)) : Option (Val × List (Loc × List Nat)) :=
  match r with
  | .error _ => none
  | .ok (resp, is) => some (resp.body, is.issues.map fun p => (p.1, p.2.map (·.code)))

def group (id name : String) : Val :=
  .dict [("schemas".toList, .list [.str "urn:ietf:params:scim:schemas:core:2.0:Group".toList]), ("id".toList, .str id.toList),
    ("displayName".toList, .str name.toList)]

def listOf (total : Int) (more : List (Str × Val)) (xs : List Val) : Val :=
  .dict ([("schemas".toList, .list [.str "urn:ietf:params:scim:api:messages:2.0:ListResponse".toList]),
    ("totalResults".toList, .int total)] ++ more ++ [("Resources".toList, .list xs)])

def filterOf (s : String) : Option Op :=
  match Filter.parse s.toList with
  | .ok (o, _) => o
  | .error _ => none

def answer (total : Int) (more : List (Str × Val)) (xs : List Val) (count : Option Int) (f : Option Op) :
    Option (List (Loc × List Nat)) :=
  (outcome (dumpList [GroupA.schema] 200 (listOf total more xs) .null 1 count f none none)).map (·.2)

def resourcesAt (l : Loc) : Loc := [.name "body".toList, .name "Resources".toList] ++ l

-- C73: accepted, and the four kinds of mismatch
example : answer 2 [] [group "1" "a", group "2" "b"] none none = some [] := by decide +kernel
example : (outcome (dumpList [GroupA.schema] 200 (listOf 2 [] [group "1" "a", group "2" "b"]) .null 1 none none none none)).map
    (·.1) = some (listOf 2 [] [group "1" "a", group "2" "b"]) := by decide +kernel
example : answer 1 [] [group "1" "a", group "2" "b"] none none = some [(resourcesAt [], [22])] := by decide +kernel
example : answer 3 [] [group "1" "a", group "2" "b"] none none = some [(resourcesAt [], [23])] := by decide +kernel
example : answer 2 [] [group "1" "a", group "2" "b"] (some 1) none = some [(resourcesAt [], [21])] := by decide +kernel
example : answer 3 [] [group "1" "a"] (some 2) none =
    some [([.name "body".toList, .name "startIndex".toList], [15]), ([.name "body".toList, .name "itemsPerPage".toList], [15])] := by
  decide +kernel
example : answer 3 [("startIndex".toList, .int 1), ("itemsPerPage".toList, .int 1)] [group "1" "a"] (some 2) none = some [] := by
  decide +kernel

-- C77: accepted, and a resource that fails
example : answer 1 [] [group "1" "a"] none (filterOf "displayName eq \"a\"") = some [] := by decide +kernel
example : answer 2 [] [group "1" "a", group "2" "b"] none (filterOf "displayName eq \"a\"") =
    some [(resourcesAt [.idx 1], [25])] := by decide +kernel
example : Verdict [GroupA.schema] ((filterOf "displayName eq \"a\"").getD (.and [])) (group "1" "a").toCont (some 0) true := by
  refine ⟨0, _, .passed, rfl, rfl, ?_, rfl⟩
  decide +kernel

-- C92: what the presence check says about a resource is found at its index; a list in the wrong order
def without (a : String) : Checker := { reps := [{ attr := a.toList }], incl := some false }
def answer' (xs : List Val) (so : Option SorterCfg) (c : Option Checker) : Option (List (Loc × List Nat)) :=
  (outcome (dumpList [GroupA.schema] 200 (listOf xs.length [] xs) .null 1 none none so c)).map (·.2)
example : answer' [group "1" "a", group "2" "b"] none (some (without "displayName")) =
    some [(resourcesAt [.idx 0, .name "displayName".toList], [19]), (resourcesAt [.idx 1, .name "displayName".toList], [19])] := by
  decide +kernel
example : answer' [group "1" "a", group "2" "b"] (some { rep := { attr := "displayName".toList }, asc := true })
    (some (without "externalId")) = some [] := by decide +kernel
example : answer' [group "1" "a", group "2" "b"] (some { rep := { attr := "displayName".toList }, asc := false }) none =
    some [(resourcesAt [], [26])] := by decide +kernel
example : (group "1" "a").toCont.pyEq (group "1" "a").toCont = .ok true ∧
    (group "1" "a").toCont.pyEq (group "2" "b").toCont = .ok false := by decide +kernel

def groupWith (id ext : String) : Val :=
  .dict [("schemas".toList, .list [.str "urn:ietf:params:scim:schemas:core:2.0:Group".toList]), ("id".toList, .str id.toList),
    ("displayName".toList, .str "a".toList), ("externalId".toList, .str ext.toList)]

-- One resource for which matching raises (a string compared to a number) hides the failure of another one.
example : answer 1 [] [group "1" "b"] none (filterOf "displayName eq \"a\" and externalId gt 5") = some [(resourcesAt [.idx 0], [25])] := by
  decide +kernel
example : answer 2 [] [group "1" "b", groupWith "2" "e"] none (filterOf "displayName eq \"a\" and externalId gt 5") = some [] := by decide +kernel

end Scim.Examples.Lists
