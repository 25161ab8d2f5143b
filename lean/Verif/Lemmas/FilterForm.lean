import Verif.Spec.FilterForm
import Verif.Props.Filter
import Verif.Model.Path

/-! Filters made by the parser are well-formed. -/

namespace Scim
open Issues
variable [PyEnv]

theorem allFormed_iff (xs : List Op) : Op.AllFormed xs ↔ ∀ x ∈ xs, x.Formed := by
  induction xs with
  | nil => simp [Op.AllFormed]
  | cons x xs ih => simp [Op.AllFormed, ih]

theorem onAttrRep_formed {name : Str} {r : AttrRep} (h : AttrRep.parse name = some r) {mk : AttrRep → PyM Op} {o : Op}
    (hmk : ∀ x o, x.Proper → x.sub = [] → mk x = .ok o → o.Formed) (ho : onAttrRep r mk = .ok o) : o.Formed := by
  have hp := ((parse_eq_some_iff name r).mp h).1
  unfold onAttrRep at ho
  split at ho
  · rename_i hs
    exact hmk r o hp (by simpa using hs) ho
  · rename_i hs
    have hsub : WordRun r.sub := by
      rcases hp.sub with h | h
      · rw [h] at hs; simp at hs
      · exact h
    have h1 : AttrRep.make r.schema r.attr [] = .ok { schema := r.schema, attr := r.attr, sub := [], ext := false } := by
      unfold AttrRep.make
      rw [if_neg (by rw [(isAttrName_iff r.attr).mpr hp.attr]; simp), if_neg (by simp)]
    have h2 : AttrRep.make [] r.sub [] = .ok { schema := [], attr := r.sub, sub := [], ext := false } := by
      unfold AttrRep.make
      rw [if_neg (by rw [(isAttrName_iff r.sub).mpr (.inl hsub)]; simp), if_neg (by simp)]
    rw [h1, h2] at ho
    dsimp only at ho
    split at ho
    · cases ho
    · rename_i x hx
      cases ho
      exact ⟨⟨hp.attr, .inl rfl, hp.schema, rfl⟩, rfl, hmk _ x ⟨.inl hsub, .inl rfl, .inl rfl, rfl⟩ rfl hx⟩

theorem value_literal {t : Str} {v : Prim} (h : parseComparisonValue t = .ok v) : v.Literal := by
  rcases (C60_value t v).mp h with ⟨s, -, rfl⟩ | ⟨-, rfl⟩ | ⟨-, rfl⟩ | ⟨-, rfl⟩ | ⟨-, -, -, q, -, rfl⟩
  · trivial
  · trivial
  · trivial
  · trivial
  · unfold numOf
    split
    · trivial
    · assumption

theorem parseUnary_formed {a b : Str} {o : Op} {is : Issues} (h : parseUnary a b = .ok (some o, is)) : o.Formed := by
  unfold parseUnary at h
  dsimp only at h
  generalize (if lower b = "pr".toList then ({} : Issues) else _) = is0 at h
  split at h
  · cases h
  · rename_i r hr
    split at h
    · cases h
    · split at h
      · cases h
      · rename_i x hx
        cases h
        exact onAttrRep_formed hr (fun x o h1 h2 h3 => by cases h3; exact ⟨h1, h2⟩) hx

theorem parseBinary_formed {strings} {a b c : Str} {o : Op} {is : Issues} (h : parseBinary strings a b c = .ok (some o, is)) :
    o.Formed := by
  unfold parseBinary at h
  dsimp only at h
  split at h
  · cases h
  · rename_i v? hv
    split at h
    · rename_i o' r v ho hr
      split at h
      · cases h
      · rename_i hal
        split at h
        · cases h
        · rename_i x hx
          cases h
          have hlit : v.Literal := by
            split at hv
            · rename_i w hw; cases hv; exact value_literal hw
            · split at hv <;> cases hv
          refine onAttrRep_formed hr (fun x o h1 h2 h3 => ?_) hx
          unfold mkCmp at h3
          split at h3
          · cases h3; exact ⟨h1, h2, takes_allows.mpr (by simpa using hal), hlit⟩
          · cases h3
    · cases h

/-- The dictionaries hold well-formed filters. -/
def FCtx.Forms (ctx : FCtx) : Prop :=
  (∀ n p o, aget n ctx.groups = some p → p.op = some o → o.Formed) ∧
  (∀ n p o, aget n ctx.cplx = some p → p.op = some o → o.Formed)

theorem parseAttrExp_formed {ctx} (hc : FCtx.Forms ctx) {s : Str} {o : Op} {is : Issues}
    (h : parseAttrExp ctx s = .ok (some o, is)) : o.Formed := by
  unfold parseAttrExp at h
  dsimp only at h
  split at h
  · rename_i p hp
    have : p.op = some o := by injection h with h; injection h
    unfold FCtx.lookup at hp
    split at hp
    · cases hp
    · split at hp
      · rename_i q hq; cases hp; exact hc.1 _ _ _ hq this
      · exact hc.2 _ _ _ hp this
  · split at h
    · exact parseUnary_formed h
    · exact parseBinary_formed h
    · cases h

theorem parseAndOperand_formed {ctx} (hc : FCtx.Forms ctx) {s : Str} {is is' : Issues} {o : Op}
    (h : parseAndOperand ctx s is = .ok (some o, is')) : o.Formed := by
  unfold parseAndOperand at h
  split at h
  · split at h
    · cases h
    · split at h
      · cases h
      · rename_i x is1 hx
        dsimp only at h
        split at h
        · cases x with
          | none => cases h
          | some y =>
            cases h
            have : y.Formed := parseAttrExp_formed hc hx
            exact this
        · cases h
  · split at h
    · cases h
    · rename_i x is1 hx
      dsimp only at h
      split at h
      · cases h
        exact parseAttrExp_formed hc hx
      · cases h

omit [PyEnv] in
theorem operandLoop_mem {f : Str → Issues → PyM (Option Op × Issues)} {P : Op → Prop}
    (hf : ∀ s is o is', f s is = .ok (some o, is') → P o) (xs : List Str) (is : Issues) {os : List (Option Op)}
    {is' : Issues} (h : operandLoop f xs is = .ok (os, is')) : ∀ o, some o ∈ os → P o := by
  induction xs generalizing is os is' with
  | nil => cases h; simp
  | cons x xs ih =>
    unfold operandLoop at h
    split at h
    · cases h
    · rename_i o1 is1 hfx
      split at h
      · cases h
      · rename_i os1 is2 hl
        cases h
        intro o ho
        rcases List.mem_cons.mp ho with rfl | ho
        · exact hf _ _ _ _ hfx
        · exact ih _ hl o ho

theorem joinOperands_formed {mk : List Op → Op} (hmk : ∀ xs, 2 ≤ xs.length → Op.AllFormed xs → (mk xs).Formed)
    {os : List (Option Op)} {is is' : Issues} {o : Op} (hne : os ≠ []) (hall : ∀ x ∈ os, x.isSome = true)
    (hos : ∀ x, some x ∈ os → x.Formed) (h : joinOperands mk os is = (some o, is')) : o.Formed := by
  unfold joinOperands at h
  split at h
  · cases h
  · split at h
    · rename_i x
      cases h
      exact hos o (by simp)
    · rename_i hn
      cases h
      have hlen : (os.filterMap id).length = os.length := by
        clear hn hos hne
        induction os with
        | nil => rfl
        | cons y ys ih =>
          have h1 := hall y (by simp)
          obtain ⟨z, rfl⟩ := Option.isSome_iff_exists.mp h1
          simp [ih (fun x hx => hall x (by simp [hx]))]
      refine hmk _ ?_ ((allFormed_iff _).mpr ?_)
      · rw [hlen]
        match os, hn, hne with
        | [], _, hne => exact absurd rfl hne
        | [o], hn, _ => exact absurd rfl (hn o)
        | _ :: _ :: _, _, _ => simp
      · intro x hx
        simp only [List.mem_filterMap, id] at hx
        obtain ⟨y, hy, rfl⟩ := hx
        exact hos x hy

theorem parseAnd_formed {ctx} (hc : FCtx.Forms ctx) (hg : FCtx.Good (fun _ => True) ctx) {s : Str} (hne : s ≠ []) {o : Op}
    {is : Issues} (h : parseAnd ctx s = .ok (some o, is)) : o.Formed := by
  unfold parseAnd at h
  obtain ⟨h1, -, -⟩ := splitOperands_spec allCodes.toAttrCodes kwAnd (by decide) s hne
  split at h
  · cases h
  · rename_i xs is0 hx0 he
    rw [he] at h1
    have := operandLoop_step (K := fun _ => True) (E := fun _ => True) (f := parseAndOperand ctx) xs
      (fun s hs is his => parseAndOperand_step allCodes.toAttrCodes s (fun _ _ _ _ _ => trivial) hg his)
      (Issues.merge {} is0) (St.empty.merge h1)
    split at h
    · cases h
    · rename_i os is' hl
      rw [hl] at this
      injection h with h
      have hp : is'.canProceed = true := by
        unfold joinOperands at h
        cases hh : is'.canProceed with
        | true => rfl
        | false => rw [hh] at h; cases h
      refine joinOperands_formed (mk := .and) (fun xs h1 h2 => ⟨h1, h2⟩) ?_ (this.2.2.2 (this.2.1.of_proceed hp))
        (operandLoop_mem (P := Op.Formed) (fun s is o is' h => parseAndOperand_formed hc h) _ _ hl) h
      intro hnil
      have := this.1
      rw [hnil] at this
      exact hx0 (by rw [List.length_eq_zero_iff.mp this.symm])

theorem parseOrOperand_formed {ctx} (hc : FCtx.Forms ctx) (hg : FCtx.Good (fun _ => True) ctx) {s : Str} (hne : s ≠ [])
    {is is' : Issues} {o : Op} (h : parseOrOperand ctx s is = .ok (some o, is')) : o.Formed := by
  unfold parseOrOperand at h
  split at h
  · cases h
  · rename_i x is1 hx
    dsimp only at h
    split at h
    · cases h
      exact parseAnd_formed hc hg hne hx
    · cases h

omit [PyEnv] in
theorem operandLoop_mem' {f : Str → Issues → PyM (Option Op × Issues)} {P : Op → Prop} (xs : List Str)
    (hf : ∀ s ∈ xs, ∀ is o is', f s is = .ok (some o, is') → P o) (is : Issues) {os : List (Option Op)}
    {is' : Issues} (h : operandLoop f xs is = .ok (os, is')) : ∀ o, some o ∈ os → P o := by
  induction xs generalizing is os is' with
  | nil => cases h; simp
  | cons x xs ih =>
    unfold operandLoop at h
    split at h
    · cases h
    · rename_i o1 is1 hfx
      split at h
      · cases h
      · rename_i os1 is2 hl
        cases h
        intro o ho
        rcases List.mem_cons.mp ho with rfl | ho
        · exact hf x (by simp) _ _ _ hfx
        · exact ih (fun s hs => hf s (by simp [hs])) _ hl o ho

theorem parseOr_formed {ctx} (hc : FCtx.Forms ctx) (hg : FCtx.Good (fun _ => True) ctx) {s : Str} (hne : s ≠ []) {o : Op}
    {is : Issues} (h : parseOr ctx s = .ok (some o, is)) : o.Formed := by
  unfold parseOr at h
  obtain ⟨h1, -, h3⟩ := splitOperands_spec allCodes.toAttrCodes kwOr (by decide) s hne
  split at h
  · cases h
  · rename_i xs is0 hx0 he
    rw [he] at h1 h3
    have := operandLoop_step (K := fun _ => True) (E := fun _ => True) (f := parseOrOperand ctx) xs
      (fun s hs is his => parseOrOperand_step allCodes.toAttrCodes s (fun _ _ _ _ _ => trivial) hg (h3 s hs).1 his)
      (Issues.merge {} is0) (St.empty.merge h1)
    split at h
    · cases h
    · rename_i os is' hl
      rw [hl] at this
      injection h with h
      have hp : is'.canProceed = true := by
        unfold joinOperands at h
        cases hh : is'.canProceed with
        | true => rfl
        | false => rw [hh] at h; cases h
      refine joinOperands_formed (mk := .or) (fun xs h1 h2 => ⟨h1, h2⟩) ?_ (this.2.2.2 (this.2.1.of_proceed hp))
        (operandLoop_mem' (P := Op.Formed) xs (fun s hs is o is' h => parseOrOperand_formed hc hg (h3 s hs).1 h) _ hl) h
      intro hnil
      have := this.1
      rw [hnil] at this
      exact hx0 (by rw [List.length_eq_zero_iff.mp this.symm])

/-- The dictionary of the complex-attribute filters holds outcomes with well-formed filters. -/
def CplxForms (cplx : List (Nat × Parsed)) : Prop :=
  (∀ n p, aget n cplx = some p → Out (fun _ => True) (p.op, p.issues)) ∧
  (∀ n p o, aget n cplx = some p → p.op = some o → o.Formed)

theorem parseOperator_formed {strings} (hq : ∀ p ∈ strings, HasQuote p.2) {cplx} (hc : CplxForms cplx) (fuel : Nat) (s : Str)
    (hf : s.length < fuel) {o : Op} {is : Issues} (h : parseOperator fuel strings cplx s = .ok (some o, is)) : o.Formed := by
  induction fuel generalizing s o is with
  | zero => omega
  | succ fuel ih =>
    unfold parseOperator at h
    dsimp only at h
    have hg := parseGroups_spec (f := parseOperator fuel strings cplx) (scanGroups s 0 false none).groups
    split at h
    · cases h
    · rename_i groups hgs
      rw [hgs] at hg
      have hforms : FCtx.Forms { strings, groups, cplx } := by
        refine ⟨?_, hc.2⟩
        intro n p o hnp ho
        obtain ⟨q, hq, -, hqr⟩ := hg.2 _ (mem_of_aget hnp)
        have := group_shorter hq
        rw [ho] at hqr
        exact ih _ (by omega) hqr
      have hgood : FCtx.Good (fun _ => True) { strings, groups, cplx } := by
        refine ⟨?_, hc.1⟩
        intro n p hnp
        obtain ⟨q, hq', -, hqr⟩ := hg.2 _ (mem_of_aget hnp)
        have hl := group_shorter hq'
        have := parseOperator_res (E := fun _ => True) allCodes hc.1 fuel (q.2.drop 1).dropLast (by omega)
          (fun _ _ _ _ _ _ => trivial) hq
        rw [hqr] at this
        exact this
      have h1 := (strayIssues_st (K := fun _ => True) trivial (scanGroups s 0 false none).stray {} St.empty).1
      generalize strayIssues (scanGroups s 0 false none).stray {} = is1 at h h1
      have h2 : St (fun _ => True) (if (scanGroups s 0 false none).unclosed = true then is1.add { code := 100 } false
          else is1) := by
        split
        · exact .inr (h1.add trivial)
        · exact h1
      generalize (if (scanGroups s 0 false none).unclosed = true then is1.add { code := 100 } false else is1) = is2 at h h2
      generalize hpre : strip (hideLoop (scanGroups s 0 false none).groups s) = pre at h
      have hne : pre = [] → (if pre.isEmpty = true then is2.add { code := 107 } false else is2).canProceed = false := by
        intro hnil
        rw [hnil]
        exact (h2.add trivial).not_proceed
      generalize (if pre.isEmpty = true then is2.add { code := 107 } false else is2) = is3 at h hne
      cases hp : is3.canProceed with
      | false => rw [hp] at h; cases h
      | true =>
        rw [hp] at h
        simp only [Bool.not_true, Bool.false_eq_true, if_false] at h
        split at h
        · cases h
        · rename_i x is1 hx
          split at h
          · cases h
            exact parseOr_formed hforms hgood (fun e => by rw [hne e] at hp; cases hp) hx
          · cases h

theorem parseCplxItem_formed {strings} (hq : ∀ p ∈ strings, HasQuote p.2) {x : CplxItem} {p : Parsed} {o : Op}
    (h : parseCplxItem strings x = .ok p) (ho : p.op = some o) : o.Formed := by
  unfold parseCplxItem at h
  dsimp only at h
  have h1 : St (fun _ => True) (if (strip x.sub).isEmpty = true then Issues.add {} { code := 110 } false else {}) := by
    split
    · exact .inr (St.empty.add trivial)
    · exact St.empty
  generalize (if (strip x.sub).isEmpty = true then Issues.add {} { code := 110 } false else {}) = is1 at h h1
  split at h
  · cases h; cases ho
  · rename_i r hr
    have hs : r.sub ≠ [] → (if (!r.sub.isEmpty) = true then is1.add { code := 33 } false else is1).canProceed = false := by
      intro hne
      cases hrs : r.sub with
      | nil => exact absurd hrs hne
      | cons c cs => exact (h1.add trivial).not_proceed
    generalize (if (!r.sub.isEmpty) = true then is1.add { code := 33 } false else is1) = is2 at h hs
    cases hp : is2.canProceed with
    | false => rw [hp] at h; cases h; cases ho
    | true =>
      rw [hp] at h
      simp only [Bool.not_true, Bool.false_eq_true, if_false] at h
      split at h
      · cases h
      · rename_i y is hy
        cases h
        dsimp only at ho
        split at ho
        · cases y with
          | none => cases ho
          | some y =>
            cases ho
            refine ⟨((parse_eq_some_iff _ _).mp hr).1, ?_, parseOperator_formed hq ⟨by simp, by simp⟩ _ _ (by omega) hy⟩
            rcases hrs : r.sub with _ | ⟨c, cs⟩
            · rfl
            · rw [hs (by simp [hrs])] at hp; cases hp
        · cases ho

theorem parseCplxItems_formed {strings} (hq : ∀ p ∈ strings, HasQuote p.2) (xs : List CplxItem) {ps : List (Nat × Parsed)}
    (h : parseCplxItems strings xs = .ok ps) : ∀ q ∈ ps, ∀ o, q.2.op = some o → o.Formed := by
  induction xs generalizing ps with
  | nil => cases h; simp
  | cons x xs ih =>
    unfold parseCplxItems at h
    split at h
    · cases h
    · rename_i p hp
      split at h
      · cases h
      · rename_i ps' hps
        cases h
        intro q hq' o ho
        rcases List.mem_cons.mp hq' with rfl | hq'
        · exact parseCplxItem_formed hq hp ho
        · exact ih hps q hq' o ho

theorem filterParse_formed {s : Str} {o : Op} {is : Issues} (h : Filter.parse s = .ok (some o, is)) : o.Formed := by
  unfold Filter.parse at h
  dsimp only at h
  have hq := scanStrings_quote s 0 0
  generalize hideLoop (scanStrings s 0 0) s = exp at h
  generalize hsc : scanCplx exp 0 false [] none = sc at h
  have hit := parseCplxItems_res (K := fun _ => True) (E := fun _ => True) allCodes hq sc.items (fun x hx _ _ _ _ _ _ => trivial)
  split at h
  · cases h
  · rename_i cplx hi
    rw [hi] at hit
    have hforms := parseCplxItems_formed hq _ hi
    generalize (if sc.nested = true then (strayBracketIssues sc.stray {}).add { code := 109 } false
      else strayBracketIssues sc.stray {}) = is2 at h
    generalize openedIssues sc.opened cplx is2 = is3 at h
    split at h
    · cases h
    · split at h
      · cases h
      · split at h
        · cases h
        · rename_i x is1 hx
          split at h
          · cases h
            exact parseOperator_formed hq ⟨fun n p hp => hit _ (mem_of_aget hp), fun n p o hp ho => hforms _ (mem_of_aget hp) o ho⟩
              _ _ (by omega) hx
          · cases h

/-- The filter of a parsed path. -/
theorem pathParse_formed {s : Str} {p : PatchPath} {is : Issues} {o : Op} (h : PatchPath.parse s = .ok (some p, is))
    (ho : p.filter = some o) : o.Formed := by
  unfold PatchPath.parse at h
  dsimp only at h
  split at h
  · cases h
  · split at h
    · unfold parseCplxPath at h
      split at h
      · cases h
      · rename_i x is1 hx
        split at h
        · cases h
        · split at h
          · cases h
          · rename_i y
            split at h
            · cases h
            · split at h
              · cases h
              · split at h
                · cases h
                · split at h
                  · cases h
                  · rename_i q hq
                    cases h
                    unfold PatchPath.make at hq
                    split at hq
                    · cases hq
                    · split at hq
                      · cases hq
                      · split at hq
                        · cases hq
                        · cases hq
                          cases ho
                          exact filterParse_formed hx
    · split at h
      · cases h
      · rename_i r hr
        split at h
        · cases h
        · rename_i q hq
          cases h
          unfold PatchPath.make at hq
          split at hq
          · cases hq
          · split at hq
            · cases hq
            · split at hq
              · cases hq
              · cases hq; cases ho

end Scim
