import Verif.Model.Filter
import Verif.Lemmas.IssuesMore
import Verif.Lemmas.AttrRep
import Verif.Lemmas.FilterToken

/-! Outcomes of the filter parser: an operator and no issues, or no operator and blocking issues. -/

namespace Scim
open Issues

/-- Blocking issues at the root, all of codes satisfying `K`. -/
structure Blocked (K : Nat → Prop) (is : Issues) : Prop where
  wf : is.WF
  stop : (aget [] is.stop).isSome
  only : ∀ l, ∀ e ∈ is.errorsAt l, l = [] ∧ K e.code

/-- No issues or blocking ones. -/
def St (K : Nat → Prop) (is : Issues) : Prop := is = {} ∨ Blocked K is

/-- An operator and no issues, or no operator and blocking issues. -/
def Out (K : Nat → Prop) (r : Option Op × Issues) : Prop :=
  (r.1.isSome = true ∧ r.2 = {}) ∨ (r.1 = none ∧ Blocked K r.2)

/-- An outcome, or an exception satisfying `E`. -/
def Res (K : Nat → Prop) (E : PyErr → Prop) : PyM (Option Op × Issues) → Prop
  | .ok r => Out K r
  | .error e => E e

theorem St.empty {K} : St K {} := .inl rfl

theorem Blocked.has {K is} (h : Blocked K is) : is.hasIssues = true := by
  rw [hasIssues_iff_errors h.wf]
  exact ⟨[], h.wf.stop_errors h.stop⟩

theorem Blocked.not_proceed {K is} (h : Blocked K is) : is.canProceed = false :=
  (canProceed_nil_false_iff is).mpr h.stop

theorem proceed_empty : Issues.canProceed {} = true := by decide

theorem St.wf {K is} (h : St K is) : is.WF := by
  rcases h with rfl | h
  · exact WF.empty
  · exact h.wf

theorem St.only {K is} (h : St K is) : ∀ l, ∀ e ∈ is.errorsAt l, l = [] ∧ K e.code := by
  rcases h with rfl | h
  · intro l e he; simp at he
  · exact h.only

theorem St.add {K is} (h : St K is) {c : Nat} (hc : K c) : Blocked K (is.add { code := c } false) := by
  refine ⟨h.wf.add _ _ _, (stop_add_isSome _ _ _ _ _).mpr (.inr ⟨rfl, rfl⟩), ?_⟩
  intro l e he
  rw [errorsAt_add] at he
  rcases List.mem_append.mp he with he | he
  · exact h.only l e he
  · split at he
    · rename_i hl
      simp at he
      subst he
      exact ⟨hl.symm, hc⟩
    · simp at he

theorem merge_empty_right (is : Issues) : is.merge {} = is := merge_nil is {} [] rfl

theorem St.merge {K is is'} (h : St K is) (h' : St K is') : St K (is.merge is') := by
  rcases h' with rfl | h'
  · rw [merge_empty_right]; exact h
  · right
    refine ⟨h.wf.merge h'.wf _, ?_, ?_⟩
    · rw [stop_merge_isSome' h'.wf]
      exact .inr ⟨[], h'.wf.stop_errors h'.stop, rfl⟩
    · intro l e he
      rw [errorsAt_merge h'.wf] at he
      rcases List.mem_append.mp he with he | he
      · exact h.only l e he
      · simp at he
        exact h'.only l e he

theorem Blocked.merge_right {K is is'} (h : St K is) (h' : Blocked K is') : Blocked K (is.merge is') := by
  rcases h.merge (.inr h') with he | hb
  · exfalso
    have := (hasIssues_merge is is' []).mpr (.inr h'.has)
    rw [he] at this
    revert this; decide
  · exact hb

theorem Blocked.merge_left {K is is'} (h : Blocked K is) (h' : St K is') : Blocked K (is.merge is') := by
  rcases (St.merge (.inr h) h') with he | hb
  · exfalso
    have := (hasIssues_merge is is' []).mpr (.inl h.has)
    rw [he] at this
    revert this; decide
  · exact hb

theorem St.of_proceed {K is} (h : St K is) (hp : is.canProceed = true) : is = {} := by
  rcases h with h | h
  · exact h
  · rw [h.not_proceed] at hp; cases hp

theorem St.of_not_proceed {K is} (h : St K is) (hp : is.canProceed = false) : Blocked K is := by
  rcases h with rfl | h
  · rw [proceed_empty] at hp; cases hp
  · exact h

theorem Out.st {K r} (h : Out K r) : St K r.2 := by
  rcases h with ⟨-, h⟩ | ⟨-, h⟩
  · exact .inl h
  · exact .inr h

theorem Out.blocked_iff {K r} (h : Out K r) : r.1 = none ↔ Blocked K r.2 := by
  rcases h with ⟨h1, h2⟩ | ⟨h1, h2⟩
  · constructor
    · intro h; rw [h] at h1; cases h1
    · intro h; have := h.stop; rw [h2] at this; simp at this
  · simp [h1, h2]

theorem Blocked.out {K is} (h : Blocked K is) : Out K (none, is) := .inr ⟨rfl, h⟩

theorem St.blocked_merge_empty {K is} (h : St K is) : Issues.merge {} is = {} ∧ is = {} ∨ Blocked K (Issues.merge {} is) ∧ Blocked K is := by
  rcases h with rfl | h
  · left; exact ⟨merge_empty_right {}, rfl⟩
  · right; exact ⟨Blocked.merge_right St.empty h, h⟩

section
variable [PyEnv]

/-! ## Comparison values -/

theorem intOfFloat_error {f : PyFloat} {e : PyErr} (h : intOfFloat f = .error e) :
    (e = .overflowError ∧ ∃ b, f = .inf b) ∨ (e = .valueError ∧ f = .nan) := by
  cases f with
  | fin q => simp [intOfFloat] at h
  | inf b => simp [intOfFloat] at h; exact .inl ⟨h.symm, b, rfl⟩
  | nan => simp [intOfFloat] at h; exact .inr ⟨h.symm, rfl⟩

theorem parseComparisonValue_error {s : Str} {e : PyErr} (h : parseComparisonValue s = .error e)
    (hv : e.isValueError = false) : e = .overflowError ∧ ∃ b, parseFloat s = some (.inf b) := by
  unfold parseComparisonValue at h
  split at h
  · cases h
  split at h
  · cases h
  split at h
  · cases h
  split at h
  · cases h
  split at h
  · cases h; cases hv
  · rename_i f hf
    split at h
    · rename_i e' he
      cases h
      rcases intOfFloat_error he with ⟨h1, b, h2⟩ | ⟨h1, -⟩
      · exact ⟨h1, b, by rw [hf, h2]⟩
      · subst h1; cases hv
    · cases h

/-! ## Attribute expressions -/

/-- The codes the parser of attribute expressions and operands uses. -/
structure AttrCodes (K : Nat → Prop) : Prop where
  c104 : K 104
  c105 : K 105
  c106 : K 106
  c111 : K 111
  c112 : K 112
  c113 : K 113

theorem onAttrRep_ok {name : Str} {r : AttrRep} (h : AttrRep.parse name = some r) (mk : AttrRep → PyM Op)
    (hmk : ∀ x, ∃ o, mk x = .ok o) : ∃ o, onAttrRep r mk = .ok o := by
  have hp := ((parse_eq_some_iff name r).mp h).1
  unfold onAttrRep
  split
  · exact hmk r
  · rename_i hs
    have hsub : WordRun r.sub := by
      rcases hp.sub with h | h
      · rw [h] at hs; simp at hs
      · exact h
    have h1 : AttrRep.make r.schema r.attr [] = .ok { schema := r.schema, attr := r.attr, sub := [], ext := false } := by
      unfold AttrRep.make
      rw [if_neg (by rw [(isAttrName_iff r.attr).mpr hp.attr]; simp), if_neg (by simp)]
    have h2 : AttrRep.make [] r.sub [] = .ok { schema := [], attr := r.sub, sub := [], ext := false } := by
      unfold AttrRep.make
      rw [if_neg (by rw [(isAttrName_iff r.sub).mpr (.inl hsub)]; simp), if_neg (by simp)]
    rw [h1, h2]
    obtain ⟨o, ho⟩ := hmk { schema := [], attr := r.sub, sub := [], ext := false }
    simp [ho]

theorem parseUnary_res {K E} (hK : AttrCodes K) (a b : Str) : Res K E (parseUnary a b) := by
  unfold parseUnary
  have hst : St K (if lower b = "pr".toList then {} else if (CmpOp.ofName (lower b)).isSome then
      Issues.add {} { code := 104 } false else Issues.add {} { code := 105 } false) := by
    split
    · exact St.empty
    · split
      · exact .inr (St.empty.add hK.c104)
      · exact .inr (St.empty.add hK.c105)
  dsimp only
  generalize (if lower b = "pr".toList then ({} : Issues) else _) = is at hst
  split
  · exact (hst.add hK.c111).out
  · rename_i r hr
    split
    · rename_i hp
      exact (hst.of_not_proceed (by simpa using hp)).out
    · rename_i hp
      obtain ⟨o, ho⟩ := onAttrRep_ok hr (fun x => .ok (.pr x)) (fun x => ⟨_, rfl⟩)
      rw [ho]
      exact .inl ⟨rfl, hst.of_proceed (by simpa using hp)⟩

theorem allows_supports {o : CmpOp} {v : Prim} (h : o.allows v = true) : o.supportsValue v = true := by
  cases o <;> cases v <;> first | rfl | (simp [CmpOp.allows] at h)

/-- Exceptions of values in the text `s` are covered by `E`. -/
def Covers (E : PyErr → Prop) (strings : List (Nat × Str)) (s : Str) : Prop :=
  ∀ c e, ValTok s c → parseComparisonValue (encodeStrings strings c) = .error e → e.isValueError = false → E e

theorem Covers.tok {E strings s t} (h : Covers E strings s) (ht : Tok s t) : Covers E strings t :=
  fun c e hc => h c e (ht.val hc)

theorem parseBinary_res {K E} (hK : AttrCodes K) {strings} (a b c : Str)
    (hE : ∀ e, parseComparisonValue (encodeStrings strings c) = .error e → e.isValueError = false → E e) :
    Res K E (parseBinary strings a b c) := by
  unfold parseBinary
  dsimp only
  have h1 : St K (if (CmpOp.ofName (lower b)).isNone = true then Issues.add {} { code := 105 } false else {}) := by
    split
    · exact .inr (St.empty.add hK.c105)
    · exact St.empty
  have h1' : (CmpOp.ofName (lower b)).isNone = true → Blocked K
      (if (CmpOp.ofName (lower b)).isNone = true then Issues.add {} { code := 105 } false else {}) := by
    intro h; rw [if_pos h]; exact St.empty.add hK.c105
  have h1n : (CmpOp.ofName (lower b)).isNone = false →
      (if (CmpOp.ofName (lower b)).isNone = true then Issues.add {} { code := 105 } false else {}) = {} := by
    intro h; rw [if_neg (by simp [h])]
  generalize (if (CmpOp.ofName (lower b)).isNone = true then Issues.add {} { code := 105 } false else {}) = is1 at *
  have h2 : St K (if (AttrRep.parse a).isNone = true then is1.add { code := 111 } false else is1) := by
    split
    · exact .inr (h1.add hK.c111)
    · exact h1
  have h2' : (CmpOp.ofName (lower b)).isNone = true ∨ (AttrRep.parse a).isNone = true → Blocked K
      (if (AttrRep.parse a).isNone = true then is1.add { code := 111 } false else is1) := by
    intro h
    by_cases hn : (AttrRep.parse a).isNone = true
    · rw [if_pos hn]; exact h1.add hK.c111
    · rw [if_neg hn]; exact h1' (h.resolve_right hn)
  have h2n : (CmpOp.ofName (lower b)).isNone = false → (AttrRep.parse a).isNone = false →
      (if (AttrRep.parse a).isNone = true then is1.add { code := 111 } false else is1) = {} := by
    intro h h'; rw [if_neg (by simp [h'])]; exact h1n h
  generalize (if (AttrRep.parse a).isNone = true then is1.add { code := 111 } false else is1) = is2 at *
  split
  · rename_i e he
    split at he
    · cases he
    · rename_i e' he'
      split at he
      · cases he
      · rename_i hv
        cases he
        exact hE _ he' (by simpa using hv)
  · rename_i v? hv
    clear hv
    have h3 : St K (if v?.isNone = true then is2.add { code := 112 } false else is2) := by
      split
      · exact .inr (h2.add hK.c112)
      · exact h2
    have h3' : (CmpOp.ofName (lower b)).isNone = true ∨ (AttrRep.parse a).isNone = true ∨ v?.isNone = true → Blocked K
        (if v?.isNone = true then is2.add { code := 112 } false else is2) := by
      intro h
      by_cases hn : v?.isNone = true
      · rw [if_pos hn]; exact h2.add hK.c112
      · rw [if_neg hn]
        apply h2'
        rcases h with h | h | h
        · exact .inl h
        · exact .inr h
        · exact absurd h hn
    have h3n : (CmpOp.ofName (lower b)).isNone = false → (AttrRep.parse a).isNone = false → v?.isNone = false →
        (if v?.isNone = true then is2.add { code := 112 } false else is2) = {} := by
      intro h h' h''; rw [if_neg (by simp [h''])]; exact h2n h h'
    generalize (if v?.isNone = true then is2.add { code := 112 } false else is2) = is3 at *
    cases ho : CmpOp.ofName (lower b) with
    | none => exact (h3' (.inl (by rw [ho]; rfl))).out
    | some o => cases hr : AttrRep.parse a with
      | none => exact (h3' (.inr (.inl (by rw [hr]; rfl)))).out
      | some r => cases hv : v? with
        | none => exact (h3' (.inr (.inr (by rw [hv]; rfl)))).out
        | some v =>
          have he : is3 = {} := h3n (by simp [ho]) (by simp [hr]) (by simp [hv])
          dsimp only
          split
          · exact (h3.add hK.c113).out
          · rename_i hal
            obtain ⟨op, hop⟩ := onAttrRep_ok hr (mkCmp o v) (fun x => by
              unfold mkCmp
              rw [if_pos (allows_supports (by simpa using hal))]
              exact ⟨_, rfl⟩)
            rw [hop]
            exact .inl ⟨rfl, he⟩

/-- The dictionaries hold outcomes. -/
def FCtx.Good (K : Nat → Prop) (ctx : FCtx) : Prop :=
  (∀ n p, aget n ctx.groups = some p → Out K (p.op, p.issues)) ∧
  (∀ n p, aget n ctx.cplx = some p → Out K (p.op, p.issues))

theorem lookup_out {K ctx} (h : FCtx.Good K ctx) {s : Str} {p : Parsed} (hp : ctx.lookup s = some p) :
    Out K (p.op, p.issues) := by
  unfold FCtx.lookup at hp
  split at hp
  · cases hp
  · rename_i n hn
    split at hp
    · rename_i q hq; cases hp; exact h.1 n _ hq
    · exact h.2 n _ hp

theorem parseAttrExp_res {K E} (hK : AttrCodes K) {ctx} (s : Str) (hE : Covers E ctx.strings s) (hc : FCtx.Good K ctx) :
    Res K E (parseAttrExp ctx s) := by
  unfold parseAttrExp
  dsimp only
  split
  · rename_i p hp; exact lookup_out hc hp
  · split
    · exact parseUnary_res hK _ _
    · rename_i hs
      exact parseBinary_res hK _ _ _ (fun e => (hE.tok (Tok.strip s)) _ e (splitWs_val hs))
    · exact (St.empty.add hK.c106).out

/-- An outcome that keeps earlier issues. -/
def Step (K : Nat → Prop) (E : PyErr → Prop) (is : Issues) : PyM (Option Op × Issues) → Prop
  | .ok r => Out K r ∧ (Blocked K is → Blocked K r.2)
  | .error e => E e

omit [PyEnv] in
theorem merge_step {K is} (hs : St K is) {r : Option Op × Issues} (hr : Out K r) (f : Option Op → Option Op)
    (hf : ∀ o, (f o).isSome = o.isSome) :
    Out K (if (is.merge r.2).canProceed then f r.1 else none, is.merge r.2) ∧
      (Blocked K is → Blocked K (is.merge r.2)) := by
  refine ⟨?_, fun h => h.merge_left hr.st⟩
  cases hp : (is.merge r.2).canProceed with
  | false =>
    simp only [Bool.false_eq_true, if_false]
    exact ((hs.merge hr.st).of_not_proceed hp).out
  | true =>
    simp only [if_true]
    have he := (hs.merge hr.st).of_proceed hp
    rcases hr with ⟨h1, -⟩ | ⟨-, h2⟩
    · exact .inl ⟨by simp [hf, h1], he⟩
    · have := (Blocked.merge_right hs h2).not_proceed
      rw [hp] at this; cases this

theorem parseAndOperand_step {K E} (hK : AttrCodes K) {ctx} (s : Str) (hE : Covers E ctx.strings s) (hc : FCtx.Good K ctx)
    {is : Issues} (hs : St K is) : Step K E is (parseAndOperand ctx s is) := by
  unfold parseAndOperand
  split
  · split
    · exact ⟨(hs.add hK.c104).out, fun _ => hs.add hK.c104⟩
    · rename_i rest hm _
      have := parseAttrExp_res hK rest (hE.tok (matchKw_tok hm)) hc
      split
      · rename_i e he; rw [he] at this; exact this
      · rename_i o is' he
        rw [he] at this
        exact merge_step hs this (Option.map Op.not) (by simp)
  · have := parseAttrExp_res hK s hE hc
    split
    · rename_i e he; rw [he] at this; exact this
    · rename_i o is' he
      rw [he] at this
      exact merge_step hs this id (by simp)

omit [PyEnv] in
theorem operandLoop_step {K E} {f : Str → Issues → PyM (Option Op × Issues)} (xs : List Str)
    (hf : ∀ s ∈ xs, ∀ is, St K is → Step K E is (f s is)) (is : Issues) (hs : St K is) :
    match operandLoop f xs is with
    | .error e => E e
    | .ok (os, is') => os.length = xs.length ∧ St K is' ∧ (Blocked K is → Blocked K is') ∧ (is' = {} → ∀ o ∈ os, o.isSome = true) := by
  induction xs generalizing is with
  | nil => simp [operandLoop, hs]
  | cons x xs ih =>
    unfold operandLoop
    have h1 := hf x (by simp) is hs
    cases hfx : f x is with
    | error e => rw [hfx] at h1; exact h1
    | ok r =>
      obtain ⟨o, is1⟩ := r
      rw [hfx] at h1
      have h2 := ih (fun s hs => hf s (by simp [hs])) is1 h1.1.st
      cases hl : operandLoop f xs is1 with
      | error e => rw [hl] at h2; simpa [hl] using h2
      | ok q =>
        obtain ⟨os, is2⟩ := q
        rw [hl] at h2
        obtain ⟨hlen, hst, hb, hall⟩ := h2
        simp only [hl]
        refine ⟨by simp [hlen], hst, fun h => hb (h1.2 h), fun he o' ho' => ?_⟩
        rcases List.mem_cons.mp ho' with rfl | ho'
        · rcases h1.1 with ⟨h, -⟩ | ⟨-, h⟩
          · exact h
          · have := (hb h).stop
            rw [he] at this; simp at this
        · exact hall he o' ho'

omit [PyEnv] in
theorem joinOperands_out {K} (mk : List Op → Op) (os : List (Option Op)) (is : Issues) (hs : St K is)
    (hall : is = {} → ∀ o ∈ os, o.isSome = true) : Out K (joinOperands mk os is) := by
  unfold joinOperands
  split
  · rename_i hp
    exact (hs.of_not_proceed (by simpa using hp)).out
  · rename_i hp
    have he := hs.of_proceed (by simpa using hp)
    split
    · exact .inl ⟨hall he _ (by simp), he⟩
    · exact .inl ⟨rfl, he⟩

/-! ## Splitting -/

omit [PyEnv] in
theorem operandIssues_st {K} (hK : AttrCodes K) (ps : List Str) (is : Issues) (hs : St K is) :
    St K (operandIssues ps is) ∧ (Blocked K is → Blocked K (operandIssues ps is)) := by
  induction ps generalizing is with
  | nil => simp [operandIssues, hs]
  | cons p r ih =>
    cases r with
    | nil => simp [operandIssues, hs]
    | cons q r =>
      unfold operandIssues
      split
      · obtain ⟨h1, h2⟩ := ih _ (.inr (hs.add hK.c104))
        exact ⟨h1, fun _ => h2 (hs.add hK.c104)⟩
      · exact ih _ hs

theorem splitOperands_spec {K} (hK : AttrCodes K) {kw : Str} (hk : IsKw kw) (hb : '|' ∉ kw) (s : Str) (hs : s ≠ []) :
    St K (splitOperands kw s).2 ∧ ((splitOperands kw s).1 = [] → Blocked K (splitOperands kw s).2) ∧
      ∀ x ∈ (splitOperands kw s).1, x ≠ [] ∧ Tok s x := by
  unfold splitOperands
  dsimp only
  refine ⟨(operandIssues_st hK _ _ St.empty).1, ?_, ?_⟩
  · intro h
    rcases hp : splitKw kw s false 0 with _ | ⟨p, _ | ⟨q, r⟩⟩
    · exact absurd hp (splitKw_ne_nil _ _ _ _)
    · rw [hp] at h
      have := splitKw_single hp
      subst this
      cases p with
      | nil => exact absurd rfl hs
      | cons c cs => simp at h
    · rw [hp] at h
      have hpe : p = [] := by
        cases p with
        | nil => rfl
        | cons c cs => simp at h
      subst hpe
      unfold operandIssues
      simp only [List.isEmpty_nil, Bool.true_or, if_true]
      exact (operandIssues_st hK _ _ (.inr (St.empty.add hK.c104))).2 (St.empty.add hK.c104)
  · intro x hx
    have hne : x ≠ [] := by
      have := (List.mem_filter.mp hx).2
      intro h; subst h; simp at this
    exact ⟨hne, splitKw_tok hk hb _ _ _ x (List.mem_filter.mp hx).1 hne⟩

theorem parseAnd_res {K E} (hK : AttrCodes K) {ctx} (s : Str) (hE : Covers E ctx.strings s) (hc : FCtx.Good K ctx)
    (hne : s ≠ []) : Res K E (parseAnd ctx s) := by
  unfold parseAnd
  obtain ⟨h1, h2, h3⟩ := splitOperands_spec hK kwAnd (by decide) s hne
  split
  · rename_i is he
    rw [he] at h1 h2
    exact (Blocked.merge_right St.empty (h2 rfl)).out
  · rename_i xs is _ he
    rw [he] at h1 h3
    have := operandLoop_step (K := K) (E := E) (f := parseAndOperand ctx) xs
      (fun s hs is his => parseAndOperand_step hK s (hE.tok (h3 s hs).2) hc his) (Issues.merge {} is) (St.empty.merge h1)
    split
    · rename_i e hl; rw [hl] at this; exact this
    · rename_i os is' hl
      rw [hl] at this
      exact joinOperands_out _ _ _ this.2.1 this.2.2.2

theorem parseOrOperand_step {K E} (hK : AttrCodes K) {ctx} (s : Str) (hE : Covers E ctx.strings s) (hc : FCtx.Good K ctx)
    (hne : s ≠ []) {is : Issues} (hs : St K is) : Step K E is (parseOrOperand ctx s is) := by
  unfold parseOrOperand
  have := parseAnd_res hK s hE hc hne
  split
  · rename_i e he; rw [he] at this; exact this
  · rename_i o is' he
    rw [he] at this
    exact merge_step hs this id (by simp)

theorem parseOr_res {K E} (hK : AttrCodes K) {ctx} (s : Str) (hE : Covers E ctx.strings s) (hc : FCtx.Good K ctx)
    (hne : s ≠ []) : Res K E (parseOr ctx s) := by
  unfold parseOr
  obtain ⟨h1, h2, h3⟩ := splitOperands_spec hK kwOr (by decide) s hne
  split
  · rename_i is he
    rw [he] at h1 h2
    exact (Blocked.merge_right St.empty (h2 rfl)).out
  · rename_i xs is _ he
    rw [he] at h1 h3
    have := operandLoop_step (K := K) (E := E) (f := parseOrOperand ctx) xs
      (fun s hs is his => parseOrOperand_step hK s (hE.tok (h3 s hs).2) hc (h3 s hs).1 his) (Issues.merge {} is) (St.empty.merge h1)
    split
    · rename_i e hl; rw [hl] at this; exact this
    · rename_i os is' hl
      rw [hl] at this
      exact joinOperands_out _ _ _ this.2.1 this.2.2.2

end

/-! ## Groups -/

theorem scanGroups_length (s : Str) (pos : Nat) (ig : Bool) (g : Option OpenGroup) :
    ∀ p ∈ (scanGroups s pos ig g).groups, p.2.length ≤ s.length + ((g.map (·.text.length)).getD 0) ∧ 1 ≤ s.length := by
  induction s generalizing pos ig g with
  | nil => simp [scanGroups]
  | cons c cs ih =>
    intro p hp
    rw [scanGroups.eq_def] at hp
    dsimp only at hp
    generalize (if c = '"' then !ig else ig) = ig' at hp
    split at hp
    · obtain ⟨h1, h2⟩ := ih _ _ _ p hp
      cases g <;> simp at h1 ⊢ <;> omega
    · split at hp
      · split at hp
        · obtain ⟨h1, h2⟩ := ih _ _ _ p hp
          simp at h1 ⊢; omega
        · split at hp
          · obtain ⟨h1, h2⟩ := ih _ _ _ p hp
            simp at h1 ⊢; omega
          · obtain ⟨h1, h2⟩ := ih _ _ _ p hp
            simp at h1 ⊢; omega
      · split at hp
        · obtain ⟨h1, h2⟩ := ih _ _ _ p hp
          simp at h1 ⊢; omega
        · split at hp
          · split at hp
            · simp only [List.mem_cons] at hp
              rcases hp with rfl | hp
              · simp; omega
              · obtain ⟨h1, h2⟩ := ih _ _ _ p hp
                simp at h1 ⊢; omega
            · obtain ⟨h1, h2⟩ := ih _ _ _ p hp
              simp at h1 ⊢; omega
          · obtain ⟨h1, h2⟩ := ih _ _ _ p hp
            simp at h1 ⊢; omega

/-- A group is shorter than the text it stands in. -/
theorem group_shorter {s : Str} {p : Nat × Str} (h : p ∈ (scanGroups s 0 false none).groups) :
    (p.2.drop 1).dropLast.length < s.length := by
  obtain ⟨h1, h2⟩ := scanGroups_length s 0 false none p h
  simp at h1 ⊢; omega

theorem parseGroups_spec {f : Str → PyM (Option Op × Issues)} (gs : List (Nat × Str)) :
    match parseGroups f gs with
    | .error e => ∃ p ∈ gs, f (p.2.drop 1).dropLast = .error e
    | .ok ps => ps.map (·.1) = gs.map (·.1) ∧ ∀ q ∈ ps, ∃ p ∈ gs, p.1 = q.1 ∧
        f (p.2.drop 1).dropLast = .ok (q.2.op, q.2.issues) := by
  induction gs with
  | nil => simp [parseGroups]
  | cons g r ih =>
    obtain ⟨n, t⟩ := g
    unfold parseGroups
    cases hf : f (t.drop 1).dropLast with
    | error e => exact ⟨(n, t), by simp, hf⟩
    | ok x =>
      obtain ⟨o, is⟩ := x
      cases hr : parseGroups f r with
      | error e =>
        rw [hr] at ih
        obtain ⟨p, hp, h⟩ := ih
        exact ⟨p, by simp [hp], h⟩
      | ok ps =>
        rw [hr] at ih
        refine ⟨by simp [ih.1], ?_⟩
        intro q hq
        rcases List.mem_cons.mp hq with rfl | hq
        · exact ⟨(n, t), by simp, rfl, hf⟩
        · obtain ⟨p, hp, h⟩ := ih.2 q hq
          exact ⟨p, by simp [hp], h⟩

theorem strayIssues_st {K} (h100 : K 100) (n : Nat) (is : Issues) (hs : St K is) :
    St K (strayIssues n is) ∧ (Blocked K is ∨ 0 < n → Blocked K (strayIssues n is)) := by
  induction n generalizing is with
  | zero => simp [strayIssues, hs]
  | succ n ih =>
    obtain ⟨h1, h2⟩ := ih _ (.inr (hs.add h100))
    exact ⟨h1, fun _ => h2 (.inl (hs.add h100))⟩

theorem strayBracketIssues_st {K} (h102 : K 102) (n : Nat) (is : Issues) (hs : St K is) :
    St K (strayBracketIssues n is) := by
  induction n generalizing is with
  | zero => exact hs
  | succ n ih => exact ih _ (.inr (hs.add h102))

/-- The codes of the filter parser. -/
structure FilterCodes (K : Nat → Prop) : Prop extends AttrCodes K where
  c100 : K 100
  c102 : K 102
  c107 : K 107
  c109 : K 109
  c110 : K 110
  c33 : K 33

section
variable [PyEnv]

/-- Outcome of `_parse_operator`.  Values are read from the text itself, or stand without bars in `s0`. -/
theorem parseOperator_res' {K E} (hA : AttrCodes K) (h107 : K 107) {G : Str → Prop}
    (hG : ∀ s, G s → (K 100 ∨ ((scanGroups s 0 false none).stray = 0 ∧ (scanGroups s 0 false none).unclosed = false)) ∧
      ∀ p ∈ (scanGroups s 0 false none).groups, G (p.2.drop 1).dropLast)
    {strings} {cplx : List (Nat × Parsed)}
    (hc : ∀ n p, aget n cplx = some p → Out K (p.op, p.issues)) (fuel : Nat) (s : Str) (hf : s.length < fuel)
    (hE : ∀ c e, '|' ∉ c → ValTok s c → parseComparisonValue c = .error e → e.isValueError = false → E e)
    (hq : ∀ p ∈ strings, HasQuote p.2) (hs : G s) :
    Res K E (parseOperator fuel strings cplx s) := by
  induction fuel generalizing s with
  | zero => omega
  | succ fuel ih =>
    unfold parseOperator
    dsimp only
    have hg := parseGroups_spec (f := parseOperator fuel strings cplx) (scanGroups s 0 false none).groups
    have hlen : ∀ p ∈ (scanGroups s 0 false none).groups, Res K E (parseOperator fuel strings cplx (p.2.drop 1).dropLast) := by
      intro p hp
      have := group_shorter hp
      exact ih _ (by omega) (fun c e hb hc => hE c e hb ((group_tok hp).val hc)) ((hG s hs).2 p hp)
    split
    · rename_i e he
      rw [he] at hg
      obtain ⟨p, hp, hpe⟩ := hg
      have := hlen p hp
      rw [hpe] at this
      exact this
    · rename_i groups hgs
      rw [hgs] at hg
      have hctx : FCtx.Good K { strings, groups, cplx } := by
        refine ⟨?_, hc⟩
        intro n p hnp
        obtain ⟨q, hq, -, hqr⟩ := hg.2 _ (mem_of_aget hnp)
        have := hlen q hq
        rw [hqr] at this
        exact this
      have h1 : St K (strayIssues (scanGroups s 0 false none).stray {}) := by
        rcases (hG s hs).1 with h | h
        · exact (strayIssues_st h _ {} St.empty).1
        · rw [h.1]; exact St.empty
      generalize strayIssues (scanGroups s 0 false none).stray {} = is1 at h1
      have h2 : St K (if (scanGroups s 0 false none).unclosed = true then is1.add { code := 100 } false else is1) := by
        split
        · rename_i hu
          rcases (hG s hs).1 with h | h
          · exact .inr (h1.add h)
          · rw [h.2] at hu; cases hu
        · exact h1
      generalize (if (scanGroups s 0 false none).unclosed = true then is1.add { code := 100 } false else is1) = is2 at h2
      have hcov : Covers E strings (strip (hideLoop (scanGroups s 0 false none).groups s)) := by
        intro c e hv hp hve
        obtain ⟨he, b, hb⟩ := parseComparisonValue_error hp hve
        obtain ⟨hf, hbar⟩ := encodeStrings_float hq hb
        have henc : encodeStrings strings c = c := encodeStrings_none hbar
        rw [henc] at hp
        exact hE c e hbar (valTok_hide _ ((Tok.strip _).val hv) hbar) hp hve
      generalize strip (hideLoop (scanGroups s 0 false none).groups s) = pre at hcov
      have h3 : St K (if pre.isEmpty = true then is2.add { code := 107 } false else is2) := by
        split
        · exact .inr (h2.add h107)
        · exact h2
      have h3' : pre = [] → Blocked K (if pre.isEmpty = true then is2.add { code := 107 } false else is2) := by
        intro h; rw [h]; exact h2.add h107
      generalize (if pre.isEmpty = true then is2.add { code := 107 } false else is2) = is3 at h3 h3'
      split
      · rename_i hp
        exact (h3.of_not_proceed (by simpa using hp)).out
      · rename_i hp
        have hne : pre ≠ [] := by
          intro h
          have := (h3' h).not_proceed
          rw [this] at hp; simp at hp
        have := parseOr_res hA (ctx := { strings, groups, cplx }) pre hcov hctx hne
        split
        · rename_i e he; rw [he] at this; exact this
        · rename_i o is he
          rw [he] at this
          exact (merge_step h3 this id (by simp)).1

/-- Exceptions of values standing in the text are covered by `E`. -/
def TextCovers (E : PyErr → Prop) (s : Str) : Prop :=
  ∀ c e, '|' ∉ c → ValTok s c → parseComparisonValue c = .error e → e.isValueError = false → E e

theorem TextCovers.tok {E s t} (h : TextCovers E s) (ht : Tok s t) : TextCovers E t :=
  fun c e hb hc => h c e hb (ht.val hc)

theorem TextCovers.hide {E s} (ts : List (Nat × Str)) (h : TextCovers E s) : TextCovers E (hideLoop ts s) :=
  fun c e hb hc => h c e hb (valTok_hide ts hc hb)

theorem parseOperator_res {K E} (hK : FilterCodes K) {strings} {cplx : List (Nat × Parsed)}
    (hc : ∀ n p, aget n cplx = some p → Out K (p.op, p.issues)) (fuel : Nat) (s : Str) (hf : s.length < fuel)
    (hE : TextCovers E s) (hq : ∀ p ∈ strings, HasQuote p.2) :
    Res K E (parseOperator fuel strings cplx s) :=
  parseOperator_res' hK.toAttrCodes hK.c107 (G := fun _ => True) (fun _ _ => ⟨.inl hK.c100, fun _ _ => trivial⟩) hc fuel s hf
    hE hq trivial

theorem parseCplxItem_res {K E} (hK : FilterCodes K) {strings} (hq : ∀ p ∈ strings, HasQuote p.2) (x : CplxItem)
    (hE : TextCovers E x.sub) :
    match parseCplxItem strings x with
    | .error e => E e
    | .ok p => Out K (p.op, p.issues) := by
  unfold parseCplxItem
  dsimp only
  have h1 : St K (if (strip x.sub).isEmpty = true then Issues.add {} { code := 110 } false else {}) := by
    split
    · exact .inr (St.empty.add hK.c110)
    · exact St.empty
  generalize (if (strip x.sub).isEmpty = true then Issues.add {} { code := 110 } false else {}) = is1 at h1
  cases hr : AttrRep.parse x.rep with
  | none => exact (h1.add hK.c111).out
  | some r =>
    dsimp only
    have h2 : St K (if (!r.sub.isEmpty) = true then is1.add { code := 33 } false else is1) := by
      split
      · exact .inr (h1.add hK.c33)
      · exact h1
    generalize (if (!r.sub.isEmpty) = true then is1.add { code := 33 } false else is1) = is2 at h2
    cases hp : is2.canProceed with
    | false =>
      simp only [Bool.not_false, if_true]
      exact (h2.of_not_proceed hp).out
    | true =>
      simp only [Bool.not_true, Bool.false_eq_true, if_false]
      have := parseOperator_res hK (E := E) (cplx := []) (by simp) (x.sub.length + 1) x.sub (by omega) hE hq
      cases ho : parseOperator (x.sub.length + 1) strings [] x.sub with
      | error e => rw [ho] at this; exact this
      | ok q =>
        obtain ⟨o, is⟩ := q
        rw [ho] at this
        rcases this with ⟨h1, h2⟩ | ⟨h1, h2⟩
        · simp only at h1 h2
          subst h2
          exact .inl ⟨by simp [proceed_empty, h1], rfl⟩
        · simp only at h1 h2
          exact .inr ⟨by simp [h2.not_proceed], h2⟩

theorem parseCplxItems_res {K E} (hK : FilterCodes K) {strings} (hq : ∀ p ∈ strings, HasQuote p.2) (xs : List CplxItem)
    (hE : ∀ x ∈ xs, TextCovers E x.sub) :
    match parseCplxItems strings xs with
    | .error e => E e
    | .ok ps => ∀ q ∈ ps, Out K (q.2.op, q.2.issues) := by
  induction xs with
  | nil => simp [parseCplxItems]
  | cons x xs ih =>
    unfold parseCplxItems
    have h1 := parseCplxItem_res hK hq x (hE x (by simp))
    specialize ih (fun y hy => hE y (by simp [hy]))
    cases hx : parseCplxItem strings x with
    | error e => rw [hx] at h1; exact h1
    | ok p =>
      rw [hx] at h1
      cases hxs : parseCplxItems strings xs with
      | error e => rw [hxs] at ih; exact ih
      | ok ps =>
        rw [hxs] at ih
        intro q hq
        rcases List.mem_cons.mp hq with rfl | hq
        · exact h1
        · exact ih q hq

omit [PyEnv] in
theorem mergeParsed_blocked {K} (ps : List (Nat × Parsed)) (hps : ∀ q ∈ ps, Out K (q.2.op, q.2.issues)) (is : Issues)
    (hb : Blocked K is) : Blocked K (mergeParsed ps is) := by
  induction ps generalizing is with
  | nil => exact hb
  | cons p ps ih =>
    exact ih (fun q hq => hps q (by simp [hq])) _ (hb.merge_left (hps p (by simp)).st)

theorem filterParse_res {K E} (hK : FilterCodes K) (s : Str) (hE : TextCovers E s) : Res K E (Filter.parse s) := by
  unfold Filter.parse
  dsimp only
  have hq := scanStrings_quote s 0 0
  replace hE := hE.hide (scanStrings s 0 0)
  revert hE
  generalize hideLoop (scanStrings s 0 0) s = exp
  intro hE
  generalize hsc : scanCplx exp 0 false [] none = sc
  have hit := parseCplxItems_res hK hq sc.items (fun x hx => hE.tok (cplx_tok (by rw [hsc]; exact hx)))
  cases hi : parseCplxItems (scanStrings s 0 0) sc.items with
  | error e => rw [hi] at hit; exact hit
  | ok cplx =>
    rw [hi] at hit
    dsimp only at hit ⊢
    have h1 := strayBracketIssues_st hK.c102 sc.stray {} St.empty
    generalize strayBracketIssues sc.stray {} = is1 at h1
    have h2 : St K (if sc.nested = true then is1.add { code := 109 } false else is1) := by
      split
      · exact .inr (h1.add hK.c109)
      · exact h1
    generalize (if sc.nested = true then is1.add { code := 109 } false else is1) = is2 at h2
    cases hp : is2.canProceed with
    | false =>
      simp only [Bool.not_false, if_true]
      exact (mergeParsed_blocked _ hit _ (h2.of_not_proceed hp)).out
    | true =>
      simp only [Bool.not_true, Bool.false_eq_true, if_false]
      have h3 : St K (openedIssues sc.opened cplx is2) := by
        unfold openedIssues
        split
        · split
          · exact .inr (h2.add hK.c102)
          · exact h2
        · exact h2
      generalize openedIssues sc.opened cplx is2 = is3 at h3
      cases hp3 : is3.canProceed with
      | false =>
        simp only [Bool.not_false, if_true]
        exact (mergeParsed_blocked _ hit _ (h3.of_not_proceed hp3)).out
      | true =>
        simp only [Bool.not_true, Bool.false_eq_true, if_false]
        replace hE := hE.hide (sc.items.map (fun x => (x.start, x.exp)))
        revert hE
        generalize hideLoop (sc.items.map (fun x => (x.start, x.exp))) exp = exp'
        intro hE
        have := parseOperator_res hK (cplx := cplx) (fun n p h => hit _ (mem_of_aget h)) (exp'.length + 1) exp' (by omega) hE hq
        cases ho : parseOperator (exp'.length + 1) (scanStrings s 0 0) cplx exp' with
        | error e => rw [ho] at this; exact this
        | ok q =>
          obtain ⟨o, is⟩ := q
          rw [ho] at this
          exact (merge_step h3 this id (by simp)).1

end
end Scim
