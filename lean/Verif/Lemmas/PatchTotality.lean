import Verif.Spec.PatchTotality
import Verif.Props.PatchRequests
import Verif.Lemmas.ListTotality

/-! Helper lemmas for C103: patch requests. -/

namespace Scim
open Issues PatchA
variable [PyEnv]

/-- Processing with further processors, in terms of processing without. -/
theorem complex_join {m : Mode} {info : AttrInfo} {subs : List Attr} (ps ds : List Proc) {v r1 : Val} {is1 : Issues}
    (h : (Attr.complex info subs [] []).process m v = .ok (r1, is1)) :
    (Attr.complex info subs ps ds).process m v = .ok (r1, is1) ∨
    (is1.hasIssues = false ∧ r1.isNone = false ∧
      (Attr.complex info subs ps ds).process m v = runProcs ((Attr.complex info subs ps ds).cprocs m) r1 is1) := by
  rw [complex_process_eq] at h ⊢
  split at h
  · cases h
  · rename_i value issues hv
    split at h
    · rename_i hc
      cases h
      rw [if_pos hc]
      exact .inl rfl
    · rename_i hc
      rw [if_neg hc]
      split at h
      · cases h
      · rename_i parsed is1 hb
        split at h
        · rename_i hi
          cases h
          rw [if_pos hi]
          exact .inl rfl
        · rename_i hi
          rw [if_neg hi]
          right
          cases m <;> (simp only [Attr.cprocs, runProcs] at h; cases h; refine ⟨by simpa using hi, ?_, rfl⟩)
          all_goals
            unfold complexBody at hb
            split at hb
            · split at hb
              · split at hb
                · cases hb
                · cases hb; rfl
              · cases hb
            · cases r1 <;> first | rfl | skip
              rename_i p
              cases p <;> first | rfl | skip
              have := processSubs_reach emptyCont_reach hb
              obtain ⟨d, lc, e, -⟩ := this.inv
              cases e

/-- A list of items is processed without exception when the sub-attributes are. -/
theorem multi_total {m : Mode} {info : AttrInfo} {subs : List Attr} (hd : ComplexDecl m info) (hm : info.multi = true)
    (hpl : PlainSubs subs) {xs : List Val} (hx : TameCList xs)
    (hok : ∀ x ∈ xs, x.isCont = true → ∀ s ∈ subs, ∃ y, x.getItem s.rep = .ok y ∧ ∃ o, s.process m y = .ok o)
    (hmiss : ∀ s ∈ subs, ∃ o, s.process m .missing = .ok o) :
    ∃ ys is, (Attr.complex info subs [] []).process m (.list xs) = .ok (.list ys, is) ∧ ∀ y ∈ ys, y.Plainly := by
  obtain ⟨⟨zs, is0⟩, hpi⟩ := processItems_total (m := m) info 0 xs {} (by rw [hd.type]; exact fun _ _ => trivial)
  have hi := complexItem_conts hd.type hd.canon _ _ _ _ _ hpi
  have hstop := processItems_stop hpi rfl
  obtain ⟨ys, is2, h1, -⟩ := complexItems_total (m := m) hpl 0 zs is0 (by
    intro x hx s hs
    rcases hi x hx with rfl | ⟨hmem, hc⟩
    · refine ⟨.missing, ?_, hmiss s hs⟩
      rw [Val.toCont, getItem_noKey (r := s.rep) rfl] <;> first | rfl | simp
    · have e : x.toCont = x := by cases x <;> simp [Val.isCont] at hc; rw [Val.toCont]
      rw [e]
      exact hok x hmem hc s hs)
  refine ⟨ys, is2, ?_, complexItems_plainly hpl h1⟩
  rw [complex_process_eq, info_process_eq]
  simp only [Val.isNone, Bool.false_eq_true, if_false, AttrInfo.base, hm, if_true, hpi, hd.procs, runProcs, ite_self,
    (canProceed_nil_iff _).2 hstop, Bool.not_true, Bool.or_self, complexBody, h1]
  split
  · rfl
  · cases m <;> rfl

/-! ### The attribute `Operations` -/

theorem opAttr_total {z : Val} (hz : z.TameC) : ∃ o, opAttr.process .parse z = .ok o :=
  process_total opAttr (by unfold opAttr mkAttr; exact .inl rfl) z hz (handles_of_easy _ rfl _)

theorem pathAttr_total {z : Val} (hp : ∀ s, z = .str s → ∃ o, PatchPath.parse s = .ok o) :
    ∃ o, pathAttr.process .parse z = .ok o := by
  by_cases hz : z.isNone = true
  · rw [isNone_iff.mp hz, C25_null]; exact ⟨_, rfl⟩
  · unfold pathAttr mkAttr
    rw [single_process rfl (by simpa using hz)]
    rcases one_string (i := { rep := { attr := pathWord }, type := .string, parsers := [pathProc], canonical := normCanonical false none, refTypes := normRefTypes .string [] }) rfl z
      with ⟨s, rfl, ⟨hc, e⟩ | ⟨hc, hv, e⟩⟩ | ⟨hne, e⟩
    · rw [e]
      have e2 : pathProc (.str s) = match PatchPath.parse s with
        | .error e => .error e
        | .ok (some p, issues) => .ok (.obj (.path p), issues)
        | .ok (none, issues) => .ok (.invalid, issues) := rfl
      simp only [has_empty, AttrInfo.procs, runProcs, e2, Bool.false_eq_true, if_false]
      obtain ⟨⟨o, ip⟩, ho⟩ := hp s rfl
      rw [ho]
      cases o <;> exact ⟨_, rfl⟩
    · cases hv
    · rw [e]
      have : (Issues.merge {} (blocking 2)).hasIssues = true := rfl
      simp only [this]
      exact ⟨_, rfl⟩

/-- What the check of the operations needs. -/
def Readable (y : Val) : Prop :=
  y.Plainly ∧ ∃ p, y.getItem { attr := pathWord } = .ok p ∧ (p.isNoneOrMissing = true ∨ ∃ q, p = .obj (.path q))

theorem validateOperation_total (i : Nat) {y : Val} (hy : Readable y) (acc : Issues) :
    ∃ o is, validateOperation i y acc = .ok (o, is) ∧ o.Plainly := by
  obtain ⟨hpl, p, hp, hpc⟩ := hy
  obtain ⟨t, ht⟩ := Plainly.get hpl opWord
  obtain ⟨v, hv⟩ := Plainly.get hpl valWord
  unfold validateOperation
  rw [ht, hp, hv]
  dsimp only
  split
  · obtain ⟨o, ho⟩ := Plainly.delOk hpl valWord false (word_name (by simp))
    have hd : y.delItem { attr := valWord } = .ok o := ho
    rw [hd]
    exact ⟨_, _, rfl, (Plainly.del hpl ho).1⟩
  · split
    · have hf : ∃ b, filterWithoutSub p = .ok b := by
        rcases hpc with hpc | ⟨q, rfl⟩
        · cases p with
          | prim z => cases z <;> simp [Val.isNoneOrMissing] at hpc; exact ⟨_, rfl⟩
          | missing => exact ⟨_, rfl⟩
          | _ => simp [Val.isNoneOrMissing] at hpc
        · exact ⟨_, rfl⟩
      obtain ⟨b, hb⟩ := hf
      rw [hb]
      exact ⟨_, _, rfl, hpl⟩
    · exact ⟨_, _, rfl, hpl⟩

theorem validateOpsLoop_total : ∀ (k : Nat) (ys : List Val) (acc : Issues), (∀ y ∈ ys, Readable y) →
    ∃ os is, validateOpsLoop k ys acc = .ok (os, is) ∧ ∀ o ∈ os, o.Plainly
  | _, [], acc, _ => ⟨[], acc, by rw [validateOpsLoop], by simp⟩
  | k, y :: ys, acc, h => by
    obtain ⟨o, is1, h1, h2⟩ := validateOperation_total k (h y (by simp)) acc
    obtain ⟨os, is2, h3, h4⟩ := validateOpsLoop_total (k + 1) ys is1 (fun z hz => h z (List.mem_cons_of_mem _ hz))
    refine ⟨o :: os, is2, by rw [validateOpsLoop, h1]; simp only [h3], ?_⟩
    intro z hz
    rcases List.mem_cons.mp hz with rfl | hz
    · exact h2
    · exact h4 z hz

theorem Plainly.primary {v : Val} (h : v.Plainly) : ∃ x, v.getName "primary".toList = .ok x := by
  obtain ⟨x, hx⟩ := Plainly.get h "primary".toList
  obtain ⟨d, l, rfl, -⟩ := h
  exact ⟨x, by simp only [Val.getName, primary_parse, hx]⟩

/-- The operations are read without exception, and every item can be read afterwards. -/
theorem ops_total {x : Val} (hx : x.TameC)
    (hp : ∀ xs, x = .list xs → ∀ y ∈ xs, y.isCont = true → ∀ s, y.getItem { attr := pathWord } = .ok (.str s) →
      ∃ o, PatchPath.parse s = .ok o) :
    ∃ w j, opsA.process .parse x = .ok (w, j) ∧ (∀ os, w = .list os → ∀ o ∈ os, o.Plainly) ∧
      (x.isNone = false → (∀ xs, x ≠ .list xs) → j = blocking 2) := by
  by_cases hl : ∃ xs, x = .list xs
  · obtain ⟨xs, rfl⟩ := hl
    have hx' : TameCList xs := by simpa only [Val.TameC] using hx
    obtain ⟨ys, is1, h1, hpl⟩ := multi_total (m := .parse) (info := opsInfo) (opsInfo_decl _) rfl ops_subs_plain hx' (by
      intro y hy hc s hs
      obtain ⟨z, hz, hzt⟩ := sub_read (tameCList_iff.mp hx' y hy) hc s (ops_subs_plain.plain s hs)
      have e : y.toCont = y := by cases y <;> simp [Val.isCont] at hc; rw [Val.toCont]
      rw [e] at hz
      refine ⟨z, hz, ?_⟩
      simp only [List.mem_cons, List.not_mem_nil, or_false] at hs
      rcases hs with rfl | rfl | rfl
      · exact opAttr_total hzt
      · exact pathAttr_total (fun s e => hp xs rfl y hy hc s (by rw [← e]; exact hz))
      · exact ⟨_, valueAttr_process _ _⟩) (by
      intro s hs
      simp only [List.mem_cons, List.not_mem_nil, or_false] at hs
      rcases hs with rfl | rfl | rfl
      · exact opAttr_total (by simp [Val.TameC])
      · exact pathAttr_total (fun s e => by cases e)
      · exact ⟨_, valueAttr_process _ _⟩)
    obtain ⟨ys', e, hlen, hw1, -, hitem⟩ := ops_items h1
    cases e
    rw [opsA_eq]
    rcases complex_join [validateOperations, validateSinglePrimary] [validateSinglePrimary] h1 with hj | ⟨hn, -, hj⟩
    · exact ⟨_, _, hj, fun os e => by cases e; exact hpl, fun _ h => absurd rfl (h xs)⟩
    · have he := eq_empty_of_noIssues hw1 hn
      subst he
      have hread : ∀ y ∈ ys, Readable y := by
        intro y hy
        refine ⟨hpl y hy, ?_⟩
        obtain ⟨i, hi⟩ := List.getElem?_of_mem hy
        have hix : i < xs.length := by
          rw [← hlen]; exact (List.getElem?_eq_some_iff.mp hi).1
        obtain ⟨o, t, p, v, b1, -, -, b4, -, b6, -⟩ := hitem i xs[i] (List.getElem?_eq_getElem hix) (fun _ => rfl)
        rw [hi] at b1; cases b1
        refine ⟨p, b4, ?_⟩
        rcases b6.pth with ⟨-, h⟩ | ⟨s, q, -, -, h⟩
        · exact .inl h
        · exact .inr ⟨q, h⟩
      obtain ⟨os, iv, hv, hos⟩ := validateOpsLoop_total 0 ys {} hread
      obtain ⟨ip, hip⟩ := C26_total os (fun o ho => Plainly.primary (hos o ho))
      refine ⟨.list os, ((Issues.merge {} iv).merge ip), ?_, fun os' e => by cases e; exact hos, fun _ h => absurd rfl (h xs)⟩
      rw [hj]
      simp only [Attr.cprocs, runProcs, validateOperations, hv, hip]
  · have hl' : ∀ xs, x ≠ .list xs := fun xs e => hl ⟨xs, e⟩
    by_cases hn : x.isNone = true
    · rw [isNone_iff.mp hn, C25_null]
      exact ⟨_, _, rfl, fun os e => (by cases e), fun h => (by cases h)⟩
    · have hn' : x.isNone = false := by simpa using hn
      refine ⟨.invalid, blocking 2, ?_, fun os e => (by cases e), fun _ _ => rfl⟩
      rw [opsA_eq, complex_process_eq, info_process_eq, hn']
      have hm : opsInfo.multi = true := rfl
      have hb : (blocking 2).canProceed = false := rfl
      simp only [Bool.false_eq_true, if_false, AttrInfo.base, hm, if_true]
      cases x <;> first
        | exact absurd rfl (hl' _)
        | (simp only [hb, Bool.not_false, Bool.true_or, if_true])

/-! ### The base schema -/

/-- What is reported about an attribute stops everything at that place. -/
theorem process_stop_key {m : Mode} {s : Schema} (hs : s.WF) {data r : Val} {is : Issues}
    (hobj : (data.isCont || data.isDict) = true) (h : s.process m data = .ok (r, is)) {a : Attr} (ha : a ∈ s.attrs.top) {x y : Val}
    {i : Issues} (hx : data.toCont.getItem a.rep = .ok x) (hm : x.isMissing = false) (hp : a.process m x = .ok (y, i)) {l : Loc}
    (hl : l ∈ i.issues.map (·.1)) : is.canProceed [a.topLoc ++ l] = false := by
  obtain ⟨_, _, is1, h1, sv, _, h2⟩ := process_spec hs hobj h
  have hk : (aget (a.topLoc ++ l) is1.stop).isSome := by
    rw [h1, stop_merge_isSome]
    refine .inr ⟨_, aget_isSome_iff.mp (mergeAll_isSome (.inr ⟨(a.topLoc, i), ?_, l, hl, rfl⟩)), rfl⟩
    exact List.mem_map.mpr ⟨(_, y, i), List.mem_filterMap.mpr ⟨_, ha, topOut_of hx hm hp⟩, rfl⟩
  have hk' : (aget (a.topLoc ++ l) is.stop).isSome := by
    rcases h2 with ⟨-, xs, is2, -, -, rfl⟩ | ⟨-, rfl⟩
    · rw [stop_merge_isSome]; exact .inl hk
    · exact hk
  simp only [Issues.canProceed, List.all_cons, List.all_nil, Bool.and_true]
  exact (canProceedAt_false_iff _ _).mpr ⟨_, List.prefix_refl _, hk'⟩

omit [PyEnv] in
theorem hasIssues_one_of_merge {s o : Issues} {loc l : Loc} (h : (s.merge o loc).hasIssues [l] = false) : s.hasIssues [l] = false := by
  rw [← Bool.not_eq_true]
  intro hs
  unfold hasIssues hasIssuesAt at hs
  simp only [List.any_cons, List.any_nil, Bool.or_false] at hs
  obtain ⟨p, hp, hpre⟩ := List.any_eq_true.mp hs
  have hpre' : l <+: p.1 := by
    have : List.take l.length p.1 = l := by simpa using hpre
    exact ⟨p.1.drop l.length, by have e := List.take_append_drop l.length p.1; rw [this] at e; exact e⟩
  obtain ⟨t, ht⟩ := hpre'
  refine noKey_below h t ?_
  rw [issues_merge_isSome, ht]
  exact .inl (aget_isSome_iff.mpr (List.mem_map.mpr ⟨p, hp, rfl⟩))

theorem opsLoop_total {r : Schema} : ∀ (k : Nat) (ops paths values : List Val) (acc : Issues),
    (∀ (i : Nat) t p v, ops[i]? = some t → paths[i]? = some p → values[i]? = some v → acc.hasIssues [opLoc (k + i)] = false →
      ∃ o, parseOne r t p v = .ok o) → ∃ out is, opsLoop r k ops paths values acc = .ok (out, is)
  | k, op :: ops, path :: paths, value :: values, acc, h => by
    rw [opsLoop]
    by_cases hi : acc.hasIssues [opLoc k] = true
    · rw [if_pos hi]
      obtain ⟨out, is, e⟩ := opsLoop_total (r := r) (k + 1) ops paths values acc (by
        intro i t p v a b c d
        refine h (i + 1) t p v a b c ?_
        rw [show k + (i + 1) = k + 1 + i by omega]; exact d)
      rw [e]
      exact ⟨_, _, rfl⟩
    · rw [if_neg hi]
      obtain ⟨⟨o, io⟩, ho⟩ := h 0 op path value rfl rfl rfl (by simpa using hi)
      rw [ho]
      obtain ⟨out, is, e⟩ := opsLoop_total (r := r) (k + 1) ops paths values (acc.merge io (opLoc k)) (by
        intro i t p v a b c d
        refine h (i + 1) t p v a b c ?_
        rw [show k + (i + 1) = k + 1 + i by omega]; exact hasIssues_one_of_merge d)
      simp only [e]
      exact ⟨_, _, rfl⟩
  | _, [], _, _, acc, _ => ⟨[], acc, by simp only [opsLoop]⟩
  | _, _ :: _, [], _, acc, _ => ⟨[], acc, by simp only [opsLoop]⟩
  | _, _ :: _, _ :: _, [], acc, _ => ⟨[], acc, by simp only [opsLoop]⟩

/-! ### One operation -/

theorem readOnlyLoop_total {b : Val} : ∀ (as : List Attr) (is : Issues), (∀ a ∈ as, ∃ x, b.getItem a.rep = .ok x) →
    ∃ is', readOnlyLoop b as is = .ok is'
  | [], is, _ => ⟨is, rfl⟩
  | a :: as, is, h => by
    obtain ⟨x, hx⟩ := h a (by simp)
    rw [readOnlyLoop, hx]
    exact readOnlyLoop_total as _ (fun c hc => h c (List.mem_cons_of_mem _ hc))

theorem readOnlySubs_total {b : Val} : ∀ (ss : List Attr) (is : Issues),
    (∀ s ∈ ss, s.ReadOnly → ∃ x, b.getItem s.rep = .ok x) → ∃ is', readOnlySubs b ss is = .ok is'
  | [], is, _ => ⟨is, rfl⟩
  | a :: as, is, h => by
    rw [readOnlySubs]
    have ih := fun is => readOnlySubs_total (b := b) as is (fun c hc => h c (List.mem_cons_of_mem _ hc))
    split
    · exact ih _
    · rename_i hro
      obtain ⟨x, hx⟩ := h a (by simp) (by unfold Attr.ReadOnly; simpa using hro)
      rw [hx]
      exact ih _

theorem PatchSchema.top {r : Schema} (hr : PatchSchema r) {a : Attr} (ha : a ∈ r.attrs.top) : a.Standard .parse :=
  standardAll_iff.mp hr.standard a (hr.wf.top_all a ha)

/-- The value of a complex attribute that is not multi-valued, when nothing is reported about it. -/
theorem single_plainly {info : AttrInfo} {subs : List Attr} {ps ds : List Proc} (hstd : (Attr.complex info subs ps ds).Standard .parse)
    (hm : info.multi = false) {v w : Val} {i : Issues} (hv : v ≠ .null) (h : (Attr.complex info subs ps ds).process .parse v = .ok (w, i))
    (hi : i.hasIssues = false) : w.Plainly := by
  obtain ⟨ht, hvc, hs1, hs2, hs3, _⟩ := id hstd
  have hn : v.isNone = false := by
    rw [← Bool.not_eq_true]; intro hh; exact hv (isNone_iff.mp hh)
  have hcp : (Attr.complex info subs ps ds).cprocs .parse = [] := by
    cases hc : (Attr.complex info subs ps ds).cprocs .parse with
    | nil => rfl
    | cons p rest =>
      have := (hs2 p (by rw [hc]; simp)).2
      rw [hm] at this; cases this
  have hfit := complex_fit hstd h
  rw [hm] at hfit
  have hd : ComplexDecl .parse info := ⟨ht, hvc, hs1⟩
  rw [complex_process_eq, info_process_eq, hn] at h
  have hone := complex_one hd v
  unfold AttrInfo.one at hone
  simp only [Bool.false_eq_true, if_false, AttrInfo.base, hm, hone, hd.procs] at h
  have hb : Issues.Blocks (Issues.empty.merge (blocking 2)) := by unfold Issues.Blocks; decide
  by_cases hc : v.isCont = true
  · rw [hc] at h
    have hcan : Issues.canProceed {} = true := by decide
    simp only [if_true, (hasIssues_false_iff {}).mpr rfl, Bool.false_eq_true, if_false, runProcs, hcan,
      Bool.not_true, hn, Bool.false_or, complexBody, hm, hcp] at h
    split at h
    · cases h
    · rename_i parsed is1 hps
      have e : w = parsed := by
        split at h
        · cases h; rfl
        · cases h; rfl
      subst e
      obtain ⟨d, lc, rfl, -⟩ := (processSubs_reach emptyCont_reach hps).inv
      rcases hfit with e | e | e | ⟨-, h⟩ | ⟨e, -⟩
      · cases e
      · cases e
      · cases e
      · exact h
      · cases e
  · simp only [hc, Bool.false_eq_true, if_false, hb.1, if_true, hb.2, Bool.not_false, Bool.true_or] at h
    cases h
    rw [hb.1] at hi
    cases hi

theorem parseUpdate_total {r : Schema} (hr : PatchSchema r) (rep : AttrRep) {v : Val} (hv : v.TameC)
    (hnull : ∀ a, r.attrs.get rep = some a → a.isComplex = true → a.info.multi = false → (∃ s ∈ a.subs, s.ReadOnly) → v ≠ .null)
    (hb : ∀ a, r.attrs.get rep = some a → a.Handles v) :
    ∃ o, parseUpdate r rep v = .ok o := by
  unfold parseUpdate
  cases hg : r.attrs.get rep with
  | none => exact ⟨_, rfl⟩
  | some a =>
    dsimp only
    split
    · exact ⟨_, rfl⟩
    · have hstd := standardAll_iff.mp hr.standard a (get_mem hg)
      obtain ⟨⟨w, i⟩, hp⟩ := process_total a hstd v hv (hb a hg)
      rw [hp]
      dsimp only
      split
      · exact ⟨_, rfl⟩
      · rename_i hi
        split
        · rename_i hc
          simp only [Bool.and_eq_true, Bool.not_eq_true'] at hc
          obtain ⟨is', e⟩ := readOnlySubs_total (b := w) a.subs {} (by
            intro s hs hro
            have hne := hnull a hg hc.1 hc.2 ⟨s, hs, hro⟩
            cases a with
            | simple _ => cases hc.1
            | complex info subs ps ds =>
              have hplain : PlainSubs subs := hstd.2.2.2.2.1
              have e1 := hplain.plain s hs
              have e2 : s.rep = { attr := s.rep.attr } := by
                obtain ⟨a1, a2, a3⟩ := e1
                cases hsr : s.rep
                simp_all
              rw [e2]
              exact Plainly.get (single_plainly hstd hc.2 hne hp (by simpa using hi)) _)
          rw [e]
          exact ⟨_, rfl⟩
        · exact ⟨_, rfl⟩

theorem parseRemove_total (r : Schema) (p : PatchPath) : ∃ o, parseRemove r (.obj (.path p)) = .ok o := by
  unfold parseRemove
  dsimp only
  split
  · exact ⟨_, rfl⟩
  · rename_i h
    have hd : undeclared r p = false := by
      rw [← Bool.not_eq_true]
      intro hu
      apply h
      unfold validatePath
      rw [if_pos hu]
      rfl
    unfold undeclared at hd
    simp only [Bool.or_eq_false_iff] at hd
    obtain ⟨h1, h2⟩ := hd
    cases hg : r.attrs.get p.rep with
    | none => rw [hg] at h1; cases h1
    | some a =>
      dsimp only
      cases hs : p.subRep with
      | none => exact ⟨_, rfl⟩
      | some s =>
        rw [hs] at h2
        simp only [Option.any_some] at h2
        cases hg2 : r.attrs.get s with
        | none => rw [hg2] at h2; cases h2
        | some sa => dsimp only; rw [hg2]; exact ⟨_, rfl⟩

theorem parseOne_total {r : Schema} (hr : PatchSchema r) {x t p v : Val} (hx : PatchItem r x) (hin : OpInput x t p v) (hv : v.TameC) :
    ∃ o, parseOne r t p v = .ok o := by
  have hupd : (t.isText addWord || t.isText replaceWord) = true ↔ IsUpdate x := by
    unfold IsUpdate
    rw [hin.op, Bool.or_eq_true, isText_iff, isText_iff]
    simp
  unfold parseOne
  rcases hin.pth with ⟨hpx, hpn⟩ | ⟨s, q, hs, hq, rfl⟩
  · have hno : NoPath x := ⟨p, hpx, hpn⟩
    obtain ⟨h1, h2⟩ := hx.word hno t hin.op
    have hu : IsUpdate x := by
      rcases hin.word with h | ⟨w, e, hw⟩
      · rw [h1] at h; cases h
      · exact h2 w e hw
    rw [if_pos (hupd.mpr hu)]
    obtain ⟨kvs, hk, hord⟩ := hx.whole hno hu
    rw [hin.val] at hk
    cases hk
    unfold parseAddReplace
    have hpi : (pathIssues r p).hasIssues = false := by
      cases p <;> first | rfl | (simp [Val.isNoneOrMissing] at hpn)
    rw [hpi]
    simp only [Bool.false_eq_true, if_false]
    have hpv : ∃ o, parseValue r p (Val.dict kvs).toCont = .ok o := by
      obtain ⟨d, is, hd⟩ := C34_total r hr.wf (standardAll_iff.mpr (fun a ha => hr.top ha)) kvs hord
      have hfine := process_fine hr.wf hr.noShadow (fun a ha _ => hr.top ha) (data := .dict kvs) rfl hd
      have hd' : r.parse (Val.dict kvs).toCont = .ok (d, is) := by
        unfold Schema.parse at hd ⊢
        rw [process_toCont, hd]
      obtain ⟨is', hl⟩ := readOnlyLoop_total (b := d) r.attrs.all (((is.pop schemasLoc 27).pop schemasLoc 28).pop schemasLoc 29)
        (fun a ha => hfine.get hr.wf hr.owned ha)
      have key : ∀ p : Val, p.isNoneOrMissing = true → parseValue r p (Val.dict kvs).toCont = .ok (d, is') := by
        intro p hp
        cases p with
        | prim z => cases z <;> simp [Val.isNoneOrMissing] at hp; simp [parseValue, Val.isNoneOrMissing, hd', hl]
        | missing => simp [parseValue, Val.isNoneOrMissing, hd', hl]
        | _ => simp [Val.isNoneOrMissing] at hp
      exact ⟨_, key p hpn⟩
    obtain ⟨⟨d, is⟩, e⟩ := hpv
    rw [e]
    exact ⟨_, rfl⟩
  · split
    · rename_i hu
      have hu' := hupd.mp hu
      have hhas : HasPath x q := ⟨s, {}, hs, hq⟩
      unfold parseAddReplace
      split
      · exact ⟨_, rfl⟩
      · have hpv : ∃ o, parseValue r (.obj (.path q)) v = .ok o := by
          have hn := hx.null q
          rw [hin.val] at hn
          have hn' : ∀ a, q.target r = some a → a.isComplex = true → a.info.multi = false → (∃ s ∈ a.subs, s.ReadOnly) → v ≠ .null :=
            fun a ha h1 h2 h3 e => hn a hhas hu' ha h1 h2 h3 (by rw [e])
          have hb : ∀ a, q.target r = some a → a.Handles v := fun a ha => hx.handled q a v hhas hu' ha hin.val
          unfold PatchPath.target at hn' hb
          unfold parseValue
          dsimp only
          split
          · rename_i f sr hf hsr
            rw [hf, hsr] at hn' hb
            dsimp only at hn' hb
            split
            · rename_i hc
              rw [if_pos hc] at hn' hb
              exact parseUpdate_total hr _ hv hn' hb
            · rename_i hc
              rw [if_neg hc] at hn' hb
              exact parseUpdate_total hr _ hv hn' hb
          · rename_i hne
            refine parseUpdate_total hr _ hv ?_ ?_
            · intro a ha
              apply hn'
              split
              · rename_i f sr hf hsr
                exact absurd hsr (hne f sr hf)
              · exact ha
            · intro a ha
              apply hb
              split
              · rename_i f sr hf hsr
                exact absurd hsr (hne f sr hf)
              · exact ha
        obtain ⟨⟨w, i⟩, e⟩ := hpv
        rw [e]
        exact ⟨_, rfl⟩
    · exact parseRemove_total r q

/-! ### The whole request -/

theorem ops_rep : opsA.rep = { schema := urn, attr := opsWord } := by unfold opsA; exact bindAttr_rep _ _

theorem patch_parse_total {r : Schema} (hr : PatchSchema r) {kvs : List (Str × Val)} (hd : PatchDoc r kvs) :
    ∃ v is, PatchA.parse r (.dict kvs) = .ok (v, is) := by
  have hobj : ((Val.dict kvs).isCont || (Val.dict kvs).isDict) = true := rfl
  have hops : ∀ x, (Val.dict kvs).toCont.getItem { schema := urn, attr := opsWord } = .ok x → x.TameC →
      ∃ w j, opsA.process .parse x = .ok (w, j) ∧ (∀ os, w = .list os → ∀ o ∈ os, o.Plainly) ∧
      (x.isNone = false → (∀ xs, x ≠ .list xs) → j = blocking 2) := by
    intro x hx ht
    refine ops_total ht ?_
    rintro xs rfl y hy hc s hs
    exact (hd.items xs hx y hy hc).path s hs
  -- the base schema
  obtain ⟨d, is0, h0⟩ : ∃ d is0, PatchA.schema.parse (.dict kvs) = .ok (d, is0) := by
    refine process_total_of patch_wf hd.ordinary ?_
    intro a ha x hx ht hbx _
    rcases patch_top a ha with rfl | rfl
    · exact process_total _ (bind_standard (by unfold schemasAttr mkAttr; exact .inl rfl) _) x ht hbx
    · obtain ⟨w, j, h, -⟩ := hops x (by rw [← ops_rep]; exact hx) ht
      exact ⟨_, h⟩
  unfold PatchA.parse
  rw [h0]
  dsimp only
  split
  · exact ⟨_, _, rfl⟩
  rename_i hcan
  simp only [Bool.not_eq_true, Bool.not_eq_false'] at hcan
  obtain ⟨htr, ⟨dd, lc, rfl, hnk⟩, -⟩ := process_spec patch_wf hobj h0
  have hnk' : aget (lower urn) lc = none := hnk
  have hreach := schema_process_reach hobj h0
  rw [getItem_subRep hnk' (by decide), getItem_subRep hnk' (by decide), getItem_subRep hnk' (by decide)]
  obtain ⟨x, hx, hnm⟩ := hd.given
  obtain ⟨x', hx', ht, -⟩ := hd.ordinary.read patch_wf opsA_mem
  rw [ops_rep] at hx'
  rw [hx] at hx'
  cases hx'
  have hm : x.isMissing = false := by cases x <;> first | rfl | (simp [Val.isNoneOrMissing] at hnm)
  have hnone : x.isNone = false := by
    cases x with
    | prim p => cases p <;> first | rfl | (simp [Val.isNoneOrMissing] at hnm)
    | _ => rfl
  obtain ⟨w, j, hp, hpl, hbad⟩ := hops x hx ht
  obtain ⟨y, i, hp', hy⟩ := htr.present opsA opsA_mem x (by rw [ops_rep]; exact hx) hm
  rw [hp] at hp'
  cases hp'
  rw [ops_rep] at hy
  rw [hy]
  dsimp only
  -- the operations are a list
  by_cases hl : ∃ xs, x = .list xs
  · obtain ⟨xs, rfl⟩ := hl
    obtain ⟨os, rfl, hlen, hwi, hitems, -⟩ := operations_process hp
    have hall := hpl os rfl
    obtain ⟨ops', hops'⟩ := getMap_total (q := opWord) os hall
    obtain ⟨paths', hpaths'⟩ := getMap_total (q := pathWord) os hall
    obtain ⟨values', hvalues'⟩ := getMap_total (q := valWord) os hall
    have e : ∀ {q : Str} {ys : List Val}, q ∈ [opWord, pathWord, valWord] → getMap os { attr := q } = .ok ys →
        Val.getX true (.list os) { attr := q } = .ok (.list ys) := by
      intro q ys hq h
      simp only [Val.getX, word_name hq, Bool.not_true, Bool.and_false, Bool.false_eq_true, if_false, h]
    rw [e (by simp) hops', e (by simp) hpaths', e (by simp) hvalues']
    dsimp only
    obtain ⟨l1, g1⟩ := getMap_spec hops'
    obtain ⟨l2, g2⟩ := getMap_spec hpaths'
    obtain ⟨l3, g3⟩ := getMap_spec hvalues'
    have hw0 : is0.WF := schema_process_wf patch_wf patch_sane h0
    have hloc : ∀ l, is0.errorsAt (.name opsWord :: l) = j.errorsAt l := by
      intro l
      obtain ⟨c1, -⟩ := C82_locations .parse PatchA.schema patch_wf patch_sane _ _ is0 (.inr rfl) h0
      obtain ⟨y', i', hp', c2⟩ := c1 opsA opsA_mem _ (by rw [ops_rep]; exact hx) hm
      rw [hp] at hp'
      cases hp'
      have hrl : opsA.reportLoc = [.name opsWord] := by unfold Attr.reportLoc; rw [ops_rep]; rfl
      rw [hrl] at c2
      apply c2
      intro e
      simp only [List.singleton_append, List.cons.injEq, LKey.name.injEq] at e
      exact absurd e.1 (by decide)
    obtain ⟨out, is1, hloop⟩ := opsLoop_total (r := r) 0 ops' paths' values' is0 (by
      intro k t p v ht' hp hv hno
      rw [Nat.zero_add] at hno
      have hk : k < xs.length := by
        rw [← hlen, ← l1]; exact (List.getElem?_eq_some_iff.mp ht').1
      have hxk := List.getElem?_eq_getElem hk
      have hcl : ∀ l, j.errorsAt (.idx k :: l) = [] := by
        intro l
        rw [← hloc]
        exact (hasIssues_one_false hw0 _).mp hno l
      obtain ⟨o, t', p', v', a1, a2, a3, a4, a5, a6⟩ := hitems k _ hxk hcl
      obtain ⟨t2, b1, b2⟩ := g1 k o a1
      rw [a3] at b2; cases b2
      rw [ht'] at b1; cases b1
      obtain ⟨p2, b3, b4⟩ := g2 k o a1
      rw [a4] at b4; cases b4
      rw [hp] at b3; cases b3
      obtain ⟨v2, b5, b6⟩ := g3 k o a1
      rw [a5] at b6; cases b6
      rw [hv] at b5; cases b5
      have hxt : xs[k].TameC := by
        have : TameCList xs := by simpa only [Val.TameC] using ht
        exact tameCList_iff.mp this _ (List.getElem_mem hk)
      have hxc : xs[k].isCont = true := by
        have := a6.op
        cases hh : xs[k] <;> rw [hh] at this <;> first | rfl | (simp [Val.getItem, Val.getX] at this)
      have hvt : v.TameC := by
        obtain ⟨z, hz, hzt⟩ := sub_read hxt hxc valueAttr (ops_subs_plain.plain _ (by simp))
        have e : xs[k].toCont = xs[k] := by cases hh : xs[k] <;> rw [hh] at hxc <;> simp [Val.isCont] at hxc; rw [Val.toCont]
        have e2 : valueAttr.rep = { attr := valWord } := rfl
        rw [e, e2, a6.val] at hz
        cases hz
        exact hzt
      exact parseOne_total hr (hd.items xs hx _ (List.getElem_mem hk) hxc) a6 hvt)
    rw [hloop]
    dsimp only
    obtain ⟨c', hc', -⟩ := C03_read_after_write hreach { attr := opsWord } rfl rfl (.list out)
    rw [hc']
    exact ⟨_, _, rfl⟩
  · have hj := hbad hnone (fun xs e => hl ⟨xs, e⟩)
    subst hj
    have := process_stop_key patch_wf hobj h0 opsA_mem (by rw [ops_rep]; exact hx) hm hp (l := []) (by decide)
    have e : opsA.topLoc = [.name opsWord] := by unfold Attr.topLoc; rw [ops_rep]; rfl
    rw [e, List.append_nil, hcan] at this
    cases this

end Scim
