import Verif.Lemmas.PatchOp

/-! The operations of a patch request, from the input to the loop over the operations. -/

namespace Scim
variable [PyEnv]
open Issues PatchA

/-! ## The sub-attributes -/

theorem processSubs_reach {m : Mode} {subs : List Attr} {loc : Loc} {item parsed r : Val} {acc is : Issues}
    (hp : parsed.Reach) (h : processSubs m subs loc item parsed acc = .ok (r, is)) : r.Reach := by
  induction subs generalizing parsed acc with
  | nil => rw [processSubs] at h; cases h; exact hp
  | cons s ss ih =>
    rw [processSubs] at h
    split at h
    · cases h
    · exact ih hp h
    · split at h
      · cases h
      · split at h
        · cases h
        · rename_i hs
          exact ih (.set _ _ hp hs) h

theorem emptyCont_reach : Val.emptyCont.Reach := Val.Reach.ofDict [] (by simp)

/-- A collection without any error has no issues. -/
theorem noIssues_of_errors {s : Issues} (hw : s.WF) (h : ∀ l, s.errorsAt l = []) : s = {} := by
  apply eq_empty_of_noIssues hw
  cases hh : s.hasIssues with
  | false => rfl
  | true =>
    obtain ⟨l, hl⟩ := (hasIssues_iff_errors hw).mp hh
    exact absurd (h l) hl

theorem isCanonical_none {i : AttrInfo} (hi : i.canonical = none) (z : Val) : i.isCanonical z = true := by
  unfold AttrInfo.isCanonical
  rw [hi]
  split <;> simp_all

/-- Processing of a single-valued simple attribute. -/
theorem single_process {m : Mode} {i : AttrInfo} (hm : i.multi = false) {z : Val} (hz : z.isNone = false) :
    (Attr.simple i).process m z = match i.processOne m [] z {} with
      | .error e => .error e
      | .ok (p, issues) => if issues.hasIssues then .ok (p, issues) else runProcs (i.procs m) p issues := by
  rw [Attr.process, info_process_eq, hz]
  simp only [Bool.false_eq_true, if_false, AttrInfo.base, hm]
  cases i.processOne m [] z {} with
  | error e => rfl
  | ok q => rfl

theorem one_unknown {m : Mode} {i : AttrInfo} (ht : i.type = .unknown) (hc : i.validateCanon = false) (z : Val) :
    i.processOne m [] z {} = .ok (z, {}) := by
  unfold AttrInfo.processOne
  rw [ht, conv_unknown, hc]
  simp [Issues.merge]

theorem one_string {i : AttrInfo} (ht : i.type = .string) (z : Val) :
    (∃ s, z = .str s ∧ ((i.isCanonical (.str s) && i.validateCanon || !i.validateCanon) = true ∧
        i.processOne .parse [] z {} = .ok (z, {}) ∨
      (i.isCanonical (.str s) = false ∧ i.validateCanon = true ∧
        i.processOne .parse [] z {} = .ok (.invalid, Issues.add {} ⟨14, []⟩ false)))) ∨
    ((∀ s, z ≠ .str s) ∧ i.processOne .parse [] z {} = .ok (.invalid, Issues.merge {} (blocking 2))) := by
  unfold AttrInfo.processOne
  rw [ht]
  by_cases h : ∃ s, z = .str s
  · obtain ⟨s, rfl⟩ := h
    left
    refine ⟨s, rfl, ?_⟩
    have e : AttrType.string.conv .parse (.str s) = .ok (.str s, {}) := rfl
    rw [e]
    cases h1 : i.isCanonical (.str s) <;> cases h2 : i.validateCanon <;> simp [Issues.merge, h1]
  · right
    refine ⟨fun s e => h ⟨s, e⟩, ?_⟩
    have e : AttrType.string.conv .parse z = .ok badType := by
      cases z with
      | prim p => cases p <;> first | rfl | exact absurd ⟨_, rfl⟩ h
      | _ => rfl
    rw [e]
    simp [badType, AttrInfo.isCanonical]

theorem valueAttr_process (m : Mode) (z : Val) : valueAttr.process m z = .ok (z, {}) := by
  by_cases hz : z.isNone = true
  · have : z = .null := by
      cases z with
      | prim p => cases p <;> simp [Val.isNone] at hz; rfl
      | _ => simp [Val.isNone] at hz
    subst this
    exact C25_null m _
  · unfold valueAttr mkAttr
    rw [single_process rfl (by simpa using hz), one_unknown rfl rfl]
    cases m <;> rfl

theorem isNone_iff {z : Val} : z.isNone = true ↔ z = .null := by
  constructor
  · intro hz
    cases z with
    | prim p => cases p <;> simp [Val.isNone] at hz; rfl
    | _ => simp [Val.isNone] at hz
  · rintro rfl; rfl

/-- The value of `op`, when nothing is reported about it. -/
theorem opAttr_clean {z w : Val} {j : Issues} (h : opAttr.process .parse z = .ok (w, j)) (hj : j.hasIssues = false) :
    w = z ∧ (z = .null ∨ ∃ t, z = .str t ∧ (lower t = addWord ∨ lower t = removeWord ∨ lower t = replaceWord)) := by
  by_cases hz : z.isNone = true
  · rw [isNone_iff.mp hz, C25_null] at h
    cases h
    exact ⟨(isNone_iff.mp hz).symm, .inl (isNone_iff.mp hz)⟩
  · unfold opAttr mkAttr at h
    rw [single_process rfl (by simpa using hz)] at h
    rcases one_string (i := { rep := { attr := opWord }, type := .string, required := true, validateCanon := true, canonical := normCanonical false (some [.str addWord, .str removeWord, .str replaceWord]), refTypes := normRefTypes .string [] }) rfl z
      with ⟨s, rfl, ⟨hc, e⟩ | ⟨hc, hv, e⟩⟩ | ⟨hne, e⟩
    · rw [e] at h
      simp only [has_empty, AttrInfo.procs, runProcs] at h
      cases h
      refine ⟨rfl, .inr ⟨s, rfl, ?_⟩⟩
      have hl : ∀ x ∈ [addWord, removeWord, replaceWord], lower x = x := by
        intro x hx
        rw [PyEnv.lower_ascii]
        · revert x; decide
        · revert x; decide
      simpa [AttrInfo.isCanonical, normCanonical, Prim.normCase, Prim.pyEq, Val.str, hl] using hc
    · rw [e] at h
      simp only [hasIssues_add] at h
      cases h
      rw [hasIssues_add] at hj; cases hj
    · rw [e] at h
      have : (Issues.merge {} (blocking 2)).hasIssues = true := rfl
      simp only [this] at h
      cases h
      rw [this] at hj; cases hj

/-- The path, when nothing is reported about it. -/
theorem pathAttr_clean {z w : Val} {j : Issues} (h : pathAttr.process .parse z = .ok (w, j)) (hj : j.hasIssues = false) :
    (z = .null ∧ w = .null) ∨ ∃ s p, z = .str s ∧ PatchPath.parse s = .ok (some p, {}) ∧ w = .obj (.path p) := by
  by_cases hz : z.isNone = true
  · rw [isNone_iff.mp hz, C25_null] at h
    cases h
    exact .inl ⟨isNone_iff.mp hz, rfl⟩
  · unfold pathAttr mkAttr at h
    rw [single_process rfl (by simpa using hz)] at h
    rcases one_string (i := { rep := { attr := pathWord }, type := .string, parsers := [pathProc], canonical := normCanonical false none, refTypes := normRefTypes .string [] }) rfl z
      with ⟨s, rfl, ⟨hc, e⟩ | ⟨hc, hv, e⟩⟩ | ⟨hne, e⟩
    · rw [e] at h
      right
      have e2 : pathProc (.str s) = match PatchPath.parse s with
        | .error e => .error e
        | .ok (some p, issues) => .ok (.obj (.path p), issues)
        | .ok (none, issues) => .ok (.invalid, issues) := rfl
      simp only [has_empty, AttrInfo.procs, runProcs, e2, Bool.false_eq_true, if_false] at h
      cases hp : PatchPath.parse s with
      | error e => rw [hp] at h; cases h
      | ok q =>
        obtain ⟨o, ip⟩ := q
        rw [hp] at h
        cases o with
        | none =>
          cases h
          have := (C62_invalid_iff_issues s _ hp).1.mp rfl
          rw [hasIssues_merge_false] at hj
          rw [hj.2] at this; cases this
        | some p =>
          cases h
          obtain ⟨-, rfl⟩ := C62_consistent s p ip hp
          exact ⟨s, p, rfl, hp, rfl⟩
    · cases hv
    · rw [e] at h
      have : (Issues.merge {} (blocking 2)).hasIssues = true := rfl
      simp only [this] at h
      cases h
      rw [this] at hj; cases hj

/-! ## The check of the operations -/

theorem procSane_path : ProcSane pathProc := by
  intro v r is h
  unfold pathProc at h
  split at h
  · rename_i s
    have hres := parse_pathRes s
    split at h
    · cases h
    · rename_i p ip hp
      cases h
      obtain ⟨-, rfl⟩ := C62_consistent s p _ hp
      exact WF.empty
    · rename_i ip hp
      cases h
      rw [hp] at hres
      rcases hres with ⟨q, hq, -⟩ | ⟨-, hb⟩
      · cases hq
      · exact hb.wf
  · cases h

/-- What is reported at the path of an operation by `validate_operations`. -/
def opPathErrs (t p : Val) : List VErr :=
  if (t.isText removeWord && p.isNoneOrMissing) = true then [⟨15, []⟩]
  else if t.isText addWord = true ∧ filterWithoutSub p = .ok true then [⟨305, []⟩]
  else []

/-- What is reported at the value of an operation by `validate_operations`. -/
def opValueErrs (t v : Val) : List VErr :=
  if (t.isText addWord && v.isNoneOrMissing) = true then [⟨15, []⟩] else []

omit [PyEnv] in
theorem isText_iff {v : Val} {s : Str} : v.isText s = true ↔ v = .str s := by
  unfold Val.isText
  split
  · rename_i t; simp [Val.str]
  · rename_i h
    constructor
    · intro e; cases e
    · intro e; exact absurd e (h s)

omit [PyEnv] in
theorem isText_ne {v : Val} {s t : Str} (h : v.isText s = true) (hne : s ≠ t) : v.isText t = false := by
  rw [← Bool.not_eq_true]
  intro h'
  rw [isText_iff] at h h'
  rw [h] at h'
  injection h' with h'
  injection h' with h'
  exact hne h'

theorem validateOperation_spec {i : Nat} {y o : Val} (hr : y.Reach) (h0 : y.NoKeyFor []) {acc is : Issues} (ha : acc.WF)
    (h : validateOperation i y acc = .ok (o, is)) :
    ∃ t p v, y.getItem { attr := opWord } = .ok t ∧ y.getItem { attr := pathWord } = .ok p ∧
      y.getItem { attr := valWord } = .ok v ∧ o.getItem { attr := opWord } = .ok t ∧
      o.getItem { attr := pathWord } = .ok p ∧ (∃ v', o.getItem { attr := valWord } = .ok v') ∧ o.isCont = true ∧
      (o = y ∨ opPathErrs t p ≠ []) ∧ is.WF ∧
      (∀ l, is.errorsAt l = acc.errorsAt l ++ (if l = [.idx i, .name pathWord] then opPathErrs t p
        else if l = [.idx i, .name valWord] then opValueErrs t v else [])) := by
  have hyc : y.isCont = true := by obtain ⟨d, lc, rfl, -⟩ := hr.inv; rfl
  unfold validateOperation at h
  split at h
  · cases h
  rename_i t ht
  split at h
  · cases h
  rename_i p hp
  split at h
  · cases h
  rename_i v hv
  split at h
  · rename_i hrem
    split at h
    · cases h
    · rename_i o' hd
      cases h
      have hrt : t.isText removeWord = true := by simp only [Bool.and_eq_true] at hrem; exact hrem.1
      have hna : t.isText addWord = false := isText_ne hrt (by decide)
      have hro := Val.Reach.del _ hr hd
      have hno : o.NoKeyFor [] → True := fun _ => trivial
      have hl : ∀ w : Str, w ∈ [opWord, pathWord] → lower w ≠ lower valWord := by
        intro w hw
        rw [PyEnv.lower_ascii, PyEnv.lower_ascii _ (by decide)]
        · revert w; decide
        · revert w; decide
      have hoc : o.isCont = true := by obtain ⟨d, lc, rfl, -⟩ := hro.inv; rfl
      refine ⟨t, p, v, ht, hp, hv, ?_, ?_, ?_, hoc, ?_, ha.add _ _ _, ?_⟩
      · rw [C04_delete_frame hr { attr := valWord } { attr := opWord } rfl (hl _ (by simp)) h0 hd h0]; exact ht
      · rw [C04_delete_frame hr { attr := valWord } { attr := pathWord } rfl (hl _ (by simp)) h0 hd h0]; exact hp
      · obtain ⟨c', hc', hmiss⟩ := C07_delete hr { attr := valWord } rfl h0
        rw [hc'] at hd; cases hd
        exact ⟨.missing, hmiss _ rfl h0⟩
      · right
        unfold opPathErrs
        rw [if_pos hrem]; simp
      · intro l
        rw [errorsAt_add]
        unfold opPathErrs opValueErrs
        rw [if_pos hrem, hna]
        by_cases e : l = [.idx i, .name pathWord]
        · subst e; simp
        · rw [if_neg (fun e' => e e'.symm), if_neg e]; simp
  · rename_i hrem
    split at h
    · rename_i hadd
      dsimp only at h
      split at h
      · cases h
      · rename_i b hb
        cases h
        refine ⟨t, p, v, ht, hp, hv, ht, hp, ⟨_, hv⟩, hyc, .inl rfl, ?_, ?_⟩
        · split <;> split <;> first | exact (ha.add _ _ _).add _ _ _ | exact ha.add _ _ _ | exact ha
        · intro l
          have e1 : opPathErrs t p = if b = true then [⟨305, []⟩] else [] := by
            unfold opPathErrs
            rw [if_neg hrem, hadd, hb]
            cases b <;> simp
          have e2 : opValueErrs t v = if v.isNoneOrMissing = true then [⟨15, []⟩] else [] := by
            unfold opValueErrs
            rw [hadd]; simp
          rw [e1, e2]
          have hne : ([.idx i, .name pathWord] : Loc) ≠ [.idx i, .name valWord] := by
            intro e
            simp only [List.cons.injEq, LKey.name.injEq, and_true, true_and] at e
            exact absurd e (by decide)
          by_cases q1 : l = [.idx i, .name pathWord]
          · subst q1
            cases b <;> cases v.isNoneOrMissing <;> simp [errorsAt_add, hne, hne.symm]
          · by_cases q2 : l = [.idx i, .name valWord]
            · subst q2
              cases b <;> cases v.isNoneOrMissing <;> simp [errorsAt_add, hne, hne.symm]
            · have q1' : ¬ [.idx i, .name pathWord] = l := fun e => q1 e.symm
              have q2' : ¬ [.idx i, .name valWord] = l := fun e => q2 e.symm
              cases b <;> cases v.isNoneOrMissing <;> simp [errorsAt_add, q1, q2, q1', q2']
    · rename_i hadd
      cases h
      refine ⟨t, p, v, ht, hp, hv, ht, hp, ⟨_, hv⟩, hyc, .inl rfl, ha, ?_⟩
      intro l
      unfold opPathErrs opValueErrs
      rw [if_neg hrem]
      simp only [Bool.not_eq_true] at hadd
      simp [hadd]

/-- The check treats every operation on its own. -/
theorem validateOpsLoop_spec {k : Nat} {ys os : List Val} {acc is : Issues} (ha : acc.WF)
    (hy : ∀ y ∈ ys, y.Reach ∧ y.NoKeyFor []) (h : validateOpsLoop k ys acc = .ok (os, is)) :
    is.WF ∧ os.length = ys.length ∧
    (∀ i y, ys[i]? = some y → ∃ o t p v, os[i]? = some o ∧
      y.getItem { attr := opWord } = .ok t ∧ y.getItem { attr := pathWord } = .ok p ∧
      y.getItem { attr := valWord } = .ok v ∧ o.getItem { attr := opWord } = .ok t ∧
      o.getItem { attr := pathWord } = .ok p ∧ (∃ v', o.getItem { attr := valWord } = .ok v') ∧ o.isCont = true ∧
      (o = y ∨ opPathErrs t p ≠ []) ∧
      is.errorsAt [.idx (k + i), .name pathWord] = acc.errorsAt [.idx (k + i), .name pathWord] ++ opPathErrs t p ∧
      is.errorsAt [.idx (k + i), .name valWord] = acc.errorsAt [.idx (k + i), .name valWord] ++ opValueErrs t v) ∧
    (∀ l, (∀ i, i < ys.length → l ≠ [.idx (k + i), .name pathWord] ∧ l ≠ [.idx (k + i), .name valWord]) →
      is.errorsAt l = acc.errorsAt l) := by
  induction ys generalizing k os acc with
  | nil => rw [validateOpsLoop] at h; cases h; exact ⟨ha, rfl, by simp, fun _ _ => rfl⟩
  | cons y ys ih =>
    rw [validateOpsLoop] at h
    split at h
    · cases h
    · rename_i o is1 ho
      split at h
      · cases h
      · rename_i os' is2 hos
        cases h
        obtain ⟨t, p, v, a1, a2, a3, a4, a5, a6, a7, a8, a9, a10⟩ :=
          validateOperation_spec (hy y (by simp)).1 (hy y (by simp)).2 ha ho
        obtain ⟨g1, g2, g3, g4⟩ := ih a9 (fun y hy' => hy y (List.mem_cons_of_mem _ hy')) hos
        refine ⟨g1, by simp [g2], ?_, ?_⟩
        · intro i z hz
          cases i with
          | zero =>
            simp only [List.getElem?_cons_zero, Option.some.injEq] at hz
            subst hz
            refine ⟨o, t, p, v, rfl, a1, a2, a3, a4, a5, a6, a7, a8, ?_, ?_⟩
            · rw [g4, a10]
              · simp
              · intro i _
                simp only [ne_eq, List.cons.injEq, LKey.idx.injEq, not_and]
                exact ⟨fun e => by omega, fun e => by omega⟩
            · rw [g4, a10]
              · have hne : ([.idx (k + 0), .name valWord] : Loc) ≠ [.idx k, .name pathWord] := by
                  intro e
                  simp only [List.cons.injEq, LKey.name.injEq, and_true, Nat.add_zero, true_and] at e
                  exact absurd e (by decide)
                rw [if_neg hne]; simp
              · intro i _
                simp only [ne_eq, List.cons.injEq, LKey.idx.injEq, not_and]
                exact ⟨fun e => by omega, fun e => by omega⟩
          | succ i =>
            simp only [List.getElem?_cons_succ] at hz
            obtain ⟨o', t', p', v', b1, b2, b3, b4, b5, b6, b7, b8, b9, b10, b11⟩ := g3 i z hz
            refine ⟨o', t', p', v', by simpa using b1, b2, b3, b4, b5, b6, b7, b8, b9, ?_, ?_⟩
            · rw [show k + (i + 1) = k + 1 + i by omega, b10, a10, if_neg, if_neg]
              · simp
              · simp only [List.cons.injEq, LKey.idx.injEq, not_and]
                exact fun e => by omega
              · simp only [List.cons.injEq, LKey.idx.injEq, not_and]
                exact fun e => by omega
            · rw [show k + (i + 1) = k + 1 + i by omega, b11, a10, if_neg, if_neg]
              · simp
              · simp only [List.cons.injEq, LKey.idx.injEq, not_and]
                exact fun e => by omega
              · simp only [List.cons.injEq, LKey.idx.injEq, not_and]
                exact fun e => by omega
        · intro l hl
          rw [g4, a10, if_neg (by simpa using (hl 0 (by simp)).1), if_neg (by simpa using (hl 0 (by simp)).2), List.append_nil]
          intro i hi
          rw [show k + 1 + i = k + (i + 1) by omega]
          exact hl (i + 1) (by simpa using hi)

end Scim
