import Verif.Spec.PatchOp
import Verif.Lemmas.SchemaWF
import Verif.Lemmas.Assets
import Verif.Lemmas.Path
import Verif.Props.Schemas
import Verif.Props.Container
import Verif.Props.Path

/-! Helper lemmas about patch operations. -/

namespace Scim
variable [PyEnv]
open Issues PatchA

/-! ## Consistency of the collections -/

theorem schema_process_wf {m : Mode} {s : Schema} (hs : s.WF) (hsane : SaneAll s.attrs.top) {data r : Val}
    {is : Issues} (h : s.process m data = .ok (r, is)) : is.WF := by
  by_cases hobj : (data.isCont || data.isDict) = true
  · obtain ⟨-, -, is1, hi1, sv, -, hcase⟩ := process_spec hs hobj h
    obtain ⟨-, -, e3⟩ := mergeTop_errors (m := m) hs.compat hsane data.toCont
    have hw1 : is1.WF := by rw [hi1]; exact WF.empty.merge e3 []
    rcases hcase with ⟨_, xs, is2, _, hvf, rfl⟩ | ⟨_, rfl⟩
    · obtain ⟨strs, _, hw2, _, h2⟩ := validate_wf (by simp [Schema.schemas]) hvf
      exact hw1.merge hw2 []
    · exact hw1
  · unfold Schema.process at h
    split at h
    · cases h; exact wf_blocking 15
    · rw [if_pos (by simpa using hobj)] at h
      cases h; exact wf_blocking 2

theorem validatePath_wf (r : Schema) (p : PatchPath) : (validatePath r p).WF := by
  unfold validatePath
  split
  · exact WF.empty.add _ _ _
  · exact WF.empty

omit [PyEnv] in
theorem issue304_wf (b : Bool) {is : Issues} (h : is.WF) : (issue304 b is).WF := by
  unfold issue304; split
  · exact h.add _ _ _
  · exact h

omit [PyEnv] in
theorem issue306_wf (b : Bool) {is : Issues} (h : is.WF) : (issue306 b is).WF := by
  unfold issue306; split
  · exact h.add _ _ _
  · exact h

theorem parseRemove_wf {r : Schema} {path o : Val} {is : Issues} (h : parseRemove r path = .ok (o, is)) : is.WF := by
  unfold parseRemove at h
  split at h
  · rename_i p
    dsimp only at h
    split at h
    · cases h; exact validatePath_wf r p
    · split at h
      · cases h
      · split at h
        · cases h
          exact issue306_wf _ (issue304_wf _ (validatePath_wf r p))
        · split at h
          · cases h
          · cases h
            exact issue304_wf _ (issue306_wf _ (validatePath_wf r p))
  · cases h

theorem readOnlyLoop_wf {value : Val} {as : List Attr} {acc is : Issues} (ha : acc.WF)
    (h : readOnlyLoop value as acc = .ok is) : is.WF := by
  induction as generalizing acc with
  | nil => cases h; exact ha
  | cons a as ih =>
    rw [readOnlyLoop] at h
    split at h
    · cases h
    · refine ih ?_ h
      split
      · exact ha.add _ _ _
      · exact ha

theorem readOnlySubs_wf {value : Val} {as : List Attr} {acc is : Issues} (ha : acc.WF)
    (h : readOnlySubs value as acc = .ok is) : is.WF := by
  induction as generalizing acc with
  | nil => cases h; exact ha
  | cons a as ih =>
    rw [readOnlySubs] at h
    split at h
    · exact ih ha h
    · split at h
      · cases h
      · refine ih ?_ h
        split
        · exact ha
        · exact ha.add _ _ _

theorem get_sane {r : Schema} (hsane : SaneAll r.attrs.all) {rep : AttrRep} {a : Attr} (h : r.attrs.get rep = some a) :
    a.Sane := by
  unfold Attributes.get findAttr at h
  exact saneAll_iff.mp hsane a (List.mem_of_find?_eq_some h)

theorem parseUpdate_wf {r : Schema} (hsane : SaneAll r.attrs.all) {rep : AttrRep} {value v : Val} {is : Issues}
    (h : parseUpdate r rep value = .ok (v, is)) : is.WF := by
  unfold parseUpdate at h
  split at h
  · cases h; exact WF.empty
  · rename_i a ha
    split at h
    · cases h; exact WF.empty.add _ _ _
    · split at h
      · cases h
      · rename_i parsed is1 hp
        split at h
        · cases h
          exact WF.empty.merge (process_wf a (get_sane hsane ha) hp) []
        · split at h
          · split at h
            · cases h
            · rename_i is2 hs; cases h; exact readOnlySubs_wf WF.empty hs
          · cases h; exact WF.empty

theorem parseValue_wf {r : Schema} (hr : r.WF) (hsane : SaneAll r.attrs.all) {path value v : Val} {is : Issues}
    (h : parseValue r path value = .ok (v, is)) : is.WF := by
  have htop : SaneAll r.attrs.top := saneAll_iff.mpr (fun a ha => saneAll_iff.mp hsane a (hr.top_all a ha))
  unfold parseValue at h
  split at h
  · split at h
    · split at h
      · exact parseUpdate_wf hsane h
      · exact parseUpdate_wf hsane h
    · exact parseUpdate_wf hsane h
  · split at h
    · split at h
      · cases h
      · rename_i v' is1 hp
        have hw := schema_process_wf hr htop hp
        dsimp only at h
        split at h
        · cases h
        · rename_i is2 hl
          cases h
          exact readOnlyLoop_wf (((hw.pop _ _).pop _ _).pop _ _) hl
    · cases h

theorem parseAddReplace_wf {r : Schema} (hr : r.WF) (hsane : SaneAll r.attrs.all) {op path value v : Val} {is : Issues}
    (h : parseAddReplace r op path value = .ok (v, is)) : is.WF := by
  unfold parseAddReplace at h
  have hbad : (pathIssues r path).WF := by
    unfold pathIssues
    split
    · exact validatePath_wf r _
    · exact WF.empty
  split at h
  · cases h
    exact WF.empty.merge hbad _
  · split at h
    · cases h
    · rename_i v' is1 hp
      cases h
      exact WF.empty.merge (parseValue_wf hr hsane hp) _

theorem parseOne_wf {r : Schema} (hr : r.WF) (hsane : SaneAll r.attrs.all) {op path value v : Val} {is : Issues}
    (h : parseOne r op path value = .ok (v, is)) : is.WF := by
  unfold parseOne at h
  split at h
  · exact parseAddReplace_wf hr hsane h
  · exact parseRemove_wf h

/-! ## The loop over the operations -/

omit [PyEnv] in
theorem opLoc_prefix {i j : Nat} {l : Loc} (h : opLoc i <+: opLoc j ++ l) : i = j := by
  simp only [opLoc, List.cons_append, List.nil_append, List.cons_prefix_cons, LKey.idx.injEq, List.nil_prefix, and_true,
    true_and] at h
  exact h

omit [PyEnv] in
theorem hasIssues_one (s : Issues) (l : Loc) : s.hasIssues [l] = s.hasIssuesAt l := by simp [hasIssues]

omit [PyEnv] in
theorem hasIssues_one_false {s : Issues} (hw : s.WF) (l : Loc) :
    s.hasIssues [l] = false ↔ ∀ m, s.errorsAt (l ++ m) = [] := by
  rw [hasIssues_one, ← Bool.not_eq_true, hasIssuesAt_iff hw]
  constructor
  · intro h m
    apply Classical.byContradiction
    intro hne
    exact h ⟨l ++ m, List.prefix_append _ _, hne⟩
  · rintro h ⟨m, ⟨t, rfl⟩, hne⟩
    exact hne (h t)

/-- The loop treats every operation on its own. -/
theorem opsLoop_spec {r : Schema} (hr : r.WF) (hsane : SaneAll r.attrs.all) {k : Nat} {ops paths values out : List Val}
    {acc is : Issues} (hacc : acc.WF) (h1 : paths.length = ops.length) (h2 : values.length = ops.length)
    (h : opsLoop r k ops paths values acc = .ok (out, is)) :
    is.WF ∧ out.length = ops.length ∧
    (∀ i op path value, ops[i]? = some op → paths[i]? = some path → values[i]? = some value →
      ∃ o, out[i]? = some o ∧
      ((acc.hasIssues [opLoc (k + i)] = true ∧
        o = Val.toCont (.dict [(opWord, op), (pathWord, path), (valWord, value)]) ∧
        ∀ l, is.errorsAt (opLoc (k + i) ++ l) = acc.errorsAt (opLoc (k + i) ++ l)) ∨
       (acc.hasIssues [opLoc (k + i)] = false ∧
        ∃ io, parseOne r op path value = .ok (o, io) ∧ io.WF ∧ (io.hasIssues = true → is.hasIssues = true) ∧
        ∀ l, is.errorsAt (opLoc (k + i) ++ l) = io.errorsAt l))) ∧
    (∀ l, (∀ i, i < ops.length → ¬ opLoc (k + i) <+: l) → is.errorsAt l = acc.errorsAt l) ∧
    (acc.hasIssues = true → is.hasIssues = true) := by
  induction ops generalizing k paths values out acc with
  | nil =>
    have e1 : paths = [] := List.length_eq_zero_iff.mp h1
    have e2 : values = [] := List.length_eq_zero_iff.mp h2
    subst e1 e2
    simp only [opsLoop] at h
    cases h
    exact ⟨hacc, rfl, by simp, fun _ _ => rfl, id⟩
  | cons op ops ih =>
    obtain ⟨path, paths, rfl⟩ : ∃ a b, paths = a :: b := by cases paths <;> simp_all
    obtain ⟨value, values, rfl⟩ : ∃ a b, values = a :: b := by cases values <;> simp_all
    simp only [List.length_cons, Nat.add_right_cancel_iff] at h1 h2
    rw [opsLoop] at h
    cases hh : acc.hasIssues [opLoc k] with
    | true =>
      rw [hh, if_pos rfl] at h
      split at h
      · cases h
      · rename_i rest is1 hrest
        cases h
        obtain ⟨g1, g2, g3, g4, g5⟩ := ih hacc h1 h2 hrest
        refine ⟨g1, by simp [g2], ?_, ?_, g5⟩
        · intro i op' path' value' ho hp hv
          cases i with
          | zero =>
            simp only [List.getElem?_cons_zero, Option.some.injEq] at ho hp hv
            subst ho hp hv
            refine ⟨_, rfl, .inl ⟨hh, rfl, ?_⟩⟩
            intro l
            apply g4
            intro i _ hpre
            have := opLoc_prefix hpre
            omega
          | succ i =>
            simp only [List.getElem?_cons_succ] at ho hp hv
            obtain ⟨o, ho', hc⟩ := g3 i op' path' value' ho hp hv
            refine ⟨o, by simpa using ho', ?_⟩
            rw [show k + (i + 1) = k + 1 + i by omega]
            exact hc
        · intro l hl
          apply g4
          intro i hi
          rw [show k + 1 + i = k + (i + 1) by omega]
          exact hl (i + 1) (by simpa using hi)
    | false =>
      rw [hh] at h
      simp only [Bool.false_eq_true, if_false] at h
      split at h
      · cases h
      · rename_i o io hone
        have hio := parseOne_wf hr hsane hone
        split at h
        · cases h
        · rename_i rest is1 hrest
          cases h
          obtain ⟨g1, g2, g3, g4, g5⟩ := ih (hacc.merge hio _) h1 h2 hrest
          refine ⟨g1, by simp [g2], ?_, ?_, ?_⟩
          · intro i op' path' value' ho hp hv
            cases i with
            | zero =>
              simp only [List.getElem?_cons_zero, Option.some.injEq] at ho hp hv
              subst ho hp hv
              refine ⟨_, rfl, .inr ⟨hh, io, hone, hio, fun hi => g5 ((hasIssues_merge _ _ _).mpr (.inr hi)), ?_⟩⟩
              intro l
              rw [g4, errorsAt_merge hio, Nat.add_zero, (hasIssues_one_false hacc _).mp hh, if_pos (List.prefix_append _ _)]
              · simp
              · intro i _ hpre
                have := opLoc_prefix hpre
                omega
            | succ i =>
              simp only [List.getElem?_cons_succ] at ho hp hv
              obtain ⟨o', ho', hc⟩ := g3 i op' path' value' ho hp hv
              refine ⟨o', by simpa using ho', ?_⟩
              rw [show k + (i + 1) = k + 1 + i by omega]
              have hm : ∀ l, (acc.merge io (opLoc k)).errorsAt (opLoc (k + 1 + i) ++ l) =
                  acc.errorsAt (opLoc (k + 1 + i) ++ l) := by
                intro l
                rw [errorsAt_merge hio, if_neg, List.append_nil]
                intro hpre
                have := opLoc_prefix hpre
                omega
              have hb : (acc.merge io (opLoc k)).hasIssues [opLoc (k + 1 + i)] = acc.hasIssues [opLoc (k + 1 + i)] := by
                rw [Bool.eq_iff_iff, ← Bool.not_eq_false, ← Bool.not_eq_false, hasIssues_one_false (hacc.merge hio _),
                  hasIssues_one_false hacc]
                simp only [hm]
              rw [hb] at hc
              rcases hc with ⟨c1, c2, c3⟩ | hc
              · exact .inl ⟨c1, c2, fun l => by rw [c3, hm]⟩
              · exact .inr hc
          · intro l hl
            rw [g4, errorsAt_merge hio, if_neg, List.append_nil]
            · exact hl 0 (by simp)
            · intro i hi
              rw [show k + 1 + i = k + (i + 1) by omega]
              exact hl (i + 1) (by simpa using hi)
          · intro ha
            exact g5 ((hasIssues_merge _ _ _).mpr (.inl ha))

end Scim
