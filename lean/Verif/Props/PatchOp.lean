import Verif.Lemmas.PatchBridge

/-! Properties of patch requests: C67, C68, C69, C83, C84. -/

namespace Scim
variable [PyEnv]
open Issues PatchA

/-- The words of a patch request. -/
theorem patch_words : urn = "urn:ietf:params:scim:api:messages:2.0:PatchOp".toList ∧ opsWord = "Operations".toList ∧
    opWord = "op".toList ∧ pathWord = "path".toList ∧ valWord = "value".toList ∧ addWord = "add".toList ∧
    removeWord = "remove".toList ∧ replaceWord = "replace".toList := ⟨rfl, rfl, rfl, rfl, rfl, rfl, rfl, rfl⟩

/-! ### One operation -/

theorem undeclared_iff (r : Schema) (p : PatchPath) : undeclared r p = true ↔ ¬ p.Declared r := by
  unfold undeclared PatchPath.Declared
  cases h : r.attrs.get p.rep <;> cases hs : p.subRep <;> simp

theorem validatePath_has (r : Schema) (p : PatchPath) : (validatePath r p).hasIssues = true ↔ ¬ p.Declared r := by
  rw [← undeclared_iff]
  unfold validatePath
  split
  · rename_i h; simp [h, hasIssues_add]
  · rename_i h; simp only [h, has_empty]

theorem remove_undeclared {r : Schema} {p : PatchPath} (h : ¬ p.Declared r) :
    parseRemove r (.obj (.path p)) = .ok (.invalid, Issues.empty.add ⟨303, []⟩ false) := by
  have hu := (undeclared_iff r p).mpr h
  have hv : validatePath r p = Issues.empty.add ⟨303, []⟩ false := by unfold validatePath; rw [if_pos hu]
  unfold parseRemove
  simp only [hv, hasIssues_add, if_true]

theorem update_undeclared {r : Schema} {p : PatchPath} (h : ¬ p.Declared r) (t value : Val) :
    parseAddReplace r t (.obj (.path p)) value =
      .ok (.invalid, Issues.empty.merge (Issues.empty.add ⟨303, []⟩ false) [.name pathWord]) := by
  have hu := (undeclared_iff r p).mpr h
  have hv : pathIssues r (.obj (.path p)) = Issues.empty.add ⟨303, []⟩ false := by
    show validatePath r p = _
    unfold validatePath; rw [if_pos hu]
  unfold parseAddReplace
  rw [hv, if_pos (hasIssues_add _ _ _ _)]

/-- What is reported about removing a declared attribute. -/
def removeErrs (r : Schema) (p : PatchPath) : List VErr :=
  match r.attrs.get p.rep, p.subRep with
  | some a, none => (if a.info.mutability == .readOnly then [⟨304, []⟩] else []) ++
      (if a.info.required && !a.isComplex then [⟨306, []⟩] else [])
  | some a, some s => (if (r.attrs.get s).any (fun b => b.info.required) then [⟨306, []⟩] else []) ++
      (if a.info.mutability == .readOnly || (r.attrs.get s).any (fun b => b.info.mutability == .readOnly) then [⟨304, []⟩] else [])
  | none, _ => []

omit [PyEnv] in
theorem errorsAt_issue304 (b : Bool) (is : Issues) (l : Loc) :
    (issue304 b is).errorsAt l = is.errorsAt l ++ (if l = [.name pathWord] then (if b then [⟨304, []⟩] else []) else []) := by
  unfold issue304
  split
  · rw [errorsAt_add]
    by_cases h : l = [.name pathWord]
    · subst h; simp
    · rw [if_neg (fun e => h e.symm), if_neg h]
  · simp

omit [PyEnv] in
theorem errorsAt_issue306 (b : Bool) (is : Issues) (l : Loc) :
    (issue306 b is).errorsAt l = is.errorsAt l ++ (if l = [.name pathWord] then (if b then [⟨306, []⟩] else []) else []) := by
  unfold issue306
  split
  · rw [errorsAt_add]
    by_cases h : l = [.name pathWord]
    · subst h; simp
    · rw [if_neg (fun e => h e.symm), if_neg h]
  · simp

theorem remove_declared {r : Schema} {p : PatchPath} (h : p.Declared r) :
    ∃ io, parseRemove r (.obj (.path p)) =
        .ok (Val.toCont (.dict [(opWord, .str removeWord), (pathWord, .obj (.path p))]), io) ∧
      ∀ l, io.errorsAt l = if l = [.name pathWord] then removeErrs r p else [] := by
  have hu : undeclared r p = false := by
    rw [← Bool.not_eq_true, undeclared_iff]; exact fun h' => h' h
  have hv : validatePath r p = {} := by unfold validatePath; rw [if_neg (by simp [hu])]
  unfold parseRemove
  simp only [hv, has_empty, Bool.false_eq_true, if_false]
  obtain ⟨a, ha⟩ := Option.isSome_iff_exists.mp h.1
  unfold removeErrs
  rw [ha]
  cases hs : p.subRep with
  | none =>
    refine ⟨_, rfl, ?_⟩
    intro l
    rw [errorsAt_issue306, errorsAt_issue304]
    by_cases hl : l = [.name pathWord]
    · simp [hl]
    · simp [hl]
  | some s =>
    obtain ⟨b, hb⟩ := Option.isSome_iff_exists.mp (h.2 s hs)
    simp only [hb]
    refine ⟨_, rfl, ?_⟩
    intro l
    rw [errorsAt_issue304, errorsAt_issue306]
    by_cases hl : l = [.name pathWord]
    · simp [hl]
    · simp [hl]

/-- The attribute whose value is set by an operation with a path. -/
theorem parseValue_target {r : Schema} {p : PatchPath} {value : Val} {res : PyM (Val × Issues)}
    (h : parseValue r (.obj (.path p)) value = res) :
    ∃ rep, r.attrs.get rep = p.target r ∧ parseUpdate r rep value = res := by
  unfold parseValue at h
  unfold PatchPath.target
  simp only at h
  cases hf : p.filter <;> cases hs : p.subRep <;> rw [hf, hs] at h <;> simp only at h ⊢
  · exact ⟨_, rfl, h⟩
  · exact ⟨_, rfl, h⟩
  · exact ⟨_, rfl, h⟩
  · split at h
    · rename_i hc; rw [if_pos hc]; exact ⟨_, rfl, h⟩
    · rename_i hc; rw [if_neg hc]; exact ⟨_, rfl, h⟩

theorem readOnlySubs_clean {value : Val} {as : List Attr} {acc is : Issues}
    (h : readOnlySubs value as acc = .ok is) :
    (acc.hasIssues = true → is.hasIssues = true) ∧
    (is.hasIssues = false → ∀ a ∈ as, a.ReadOnly → value.getItem a.rep = .ok .missing) := by
  induction as generalizing acc with
  | nil => cases h; exact ⟨id, by simp⟩
  | cons a as ih =>
    rw [readOnlySubs] at h
    split at h
    · rename_i hm
      obtain ⟨h1, h2⟩ := ih h
      refine ⟨h1, fun hno b hb hro => ?_⟩
      rcases List.mem_cons.mp hb with rfl | hb
      · rw [show b.info.mutability = .readOnly from hro] at hm
        exact absurd hm (by decide)
      · exact h2 hno b hb hro
    · split at h
      · cases h
      · rename_i w hw
        cases hc : w.isMissing with
        | true =>
          rw [hc] at h
          obtain ⟨h1, h2⟩ := ih h
          refine ⟨h1, fun hno b hb hro => ?_⟩
          rcases List.mem_cons.mp hb with rfl | hb
          · rw [hw]
            cases w <;> simp [Val.isMissing] at hc
            rfl
          · exact h2 hno b hb hro
        | false =>
          rw [hc] at h
          obtain ⟨h1, h2⟩ := ih h
          have : is.hasIssues = true := h1 (by simp only [Bool.false_eq_true, if_false]; exact hasIssues_add _ _ _ _)
          exact ⟨fun _ => this, fun hno => by rw [this] at hno; cases hno⟩

theorem update_declared {r : Schema} (hr : r.WF) (hsane : SaneAll r.attrs.all) {p : PatchPath} (h : p.Declared r)
    {t value o : Val} {io : Issues}
    (ho : parseAddReplace r t (.obj (.path p)) value = .ok (o, io)) :
    ∃ a v iv, p.target r = some a ∧
      o = Val.toCont (.dict [(opWord, t), (pathWord, .obj (.path p)), (valWord, v)]) ∧
      io = Issues.empty.merge iv [.name valWord] ∧ iv.WF ∧
      (a.ReadOnly → iv = Issues.empty.add ⟨304, []⟩ false) ∧
      (¬ a.ReadOnly → ∃ ip, a.process .parse value = .ok (v, ip) ∧ (iv.hasIssues = false → ip.hasIssues = false ∧
        (a.isComplex = true → a.info.multi = false → ∀ s ∈ a.subs, s.ReadOnly → v.getItem s.rep = .ok .missing))) := by
  have hu : undeclared r p = false := by
    rw [← Bool.not_eq_true, undeclared_iff]; exact fun h' => h' h
  have hv : pathIssues r (.obj (.path p)) = {} := by
    show validatePath r p = _
    unfold validatePath; rw [if_neg (by simp [hu])]
  unfold parseAddReplace at ho
  rw [hv] at ho
  simp only [has_empty, Bool.false_eq_true, if_false] at ho
  cases hpv : parseValue r (.obj (.path p)) value with
  | error e => rw [hpv] at ho; cases ho
  | ok q =>
    obtain ⟨v, iv⟩ := q
    rw [hpv] at ho
    cases ho
    obtain ⟨rep, hrep, hpu⟩ := parseValue_target hpv
    unfold parseUpdate at hpu
    have hsome : (p.target r).isSome := by
      unfold PatchPath.target
      split
      · rename_i s _ hs
        split
        · exact h.2 _ hs
        · exact h.1
      · exact h.1
    obtain ⟨a, ha⟩ := Option.isSome_iff_exists.mp hsome
    rw [hrep, ha] at hpu
    simp only at hpu
    refine ⟨a, v, iv, ha, rfl, rfl, parseValue_wf hr hsane hpv, ?_, ?_⟩
    · intro hro
      rw [if_pos (by rw [show a.info.mutability = .readOnly from hro]; rfl)] at hpu
      cases hpu; rfl
    · intro hro
      have hne : ¬ (a.info.mutability == Mutability.readOnly) = true := by
        intro e
        apply hro
        unfold Attr.ReadOnly
        cases hm : a.info.mutability <;> rw [hm] at e <;> first | rfl | (exact absurd e (by decide))
      rw [if_neg hne] at hpu
      split at hpu
      · cases hpu
      · rename_i parsed ip hproc
        split at hpu
        · rename_i hi
          cases hpu
          exact ⟨ip, hproc, fun hno => by
            rw [hasIssues_merge_false] at hno
            rw [hno.2] at hi; cases hi⟩
        · rename_i hi
          have hi' : ip.hasIssues = false := by simpa using hi
          split at hpu
          · split at hpu
            · cases hpu
            · rename_i il hl
              cases hpu
              exact ⟨ip, hproc, fun hno => ⟨hi', fun _ _ => (readOnlySubs_clean hl).2 hno⟩⟩
          · rename_i hcm
            cases hpu
            exact ⟨ip, hproc, fun _ => ⟨hi', fun e1 e2 => absurd (by simp [e1, e2]) hcm⟩⟩

/-! ### Accepted requests -/

/-- An accepted request, operation by operation. -/
theorem accepted_ops {r : Schema} (hr : r.WF) (hsane : SaneAll r.attrs.all) {data v : Val} {is : Issues}
    (h : PatchA.parse r data = .ok (v, is)) (hno : is.hasIssues = false) :
    ∃ xs out : List Val, data.Operations xs ∧ out.length = xs.length ∧
      v.getItem { schema := urn, attr := opsWord } = .ok (.list out) ∧
      ∀ (i : Nat) (x : Val), xs[i]? = some x → ∃ o t p value, out[i]? = some o ∧ OpInput x t p value ∧ parseOne r t p value = .ok (o, {}) ∧
        opPathErrs t p = [] ∧ opValueErrs t value = [] := by
  obtain ⟨d, is0, hd, hw0, hw, hcase⟩ := parse_bridge hr hsane h
  rcases hcase with ⟨hc, rfl, rfl⟩ | ⟨hc, hobj, xs, out, h1, h2, h3, h4, -, -, h7⟩
  · rw [eq_empty_of_noIssues hw hno] at hc
    exact absurd hc (by decide)
  · have hno0 : is0.hasIssues = false := by
      rw [← Bool.not_eq_true]; intro e; rw [h7 e] at hno; cases hno
    refine ⟨xs, out, h1, h2, h3, ?_⟩
    intro i x hx
    obtain ⟨o, t, p, value, io, b1, b2, b3, b4, b5, -, b7⟩ := h4 i x hx (by rw [eq_empty_of_noIssues hw0 hno0]; rfl)
    have hio : io = {} := eq_empty_of_noIssues b4 (by rw [← Bool.not_eq_true]; intro e; rw [b5 e] at hno; cases hno)
    subst hio
    exact ⟨o, t, p, value, b1, b2, b3, (b7 hno0).1, (b7 hno0).2⟩

/-- The path of an operation is the one that was parsed. -/
theorem OpInput.hasPath {x t path value : Val} (h : OpInput x t path value) {p : PatchPath} (hp : HasPath x p) :
    path = .obj (.path p) := by
  obtain ⟨s, is, h1, h2⟩ := hp
  rcases h.pth with ⟨h3, h4⟩ | ⟨s', p', h3, h4, rfl⟩
  · rw [h1] at h3; cases h3; cases h4
  · rw [h1] at h3; cases h3
    rw [h2] at h4; cases h4
    rfl

theorem isUpdate_iff {x t path value : Val} (h : OpInput x t path value) :
    (t.isText addWord || t.isText replaceWord) = true ↔ IsUpdate x := by
  unfold IsUpdate
  rw [h.op]
  simp only [Bool.or_eq_true, isText_iff, Except.ok.injEq]

omit [PyEnv] in
theorem noErrors_of_empty {is : Issues} (h : is = {}) (l : Loc) : is.errorsAt l = [] := by subst h; rfl

/-- **C68** an accepted request names declared attributes only. -/
theorem C68_accepted (r : Schema) (hr : r.WF) (hsane : SaneAll r.attrs.all) (data v : Val) (is : Issues)
    (h : PatchA.parse r data = .ok (v, is)) (hno : is.hasIssues = false) :
    ∃ xs, data.Operations xs ∧ ∀ x ∈ xs, ∀ p, HasPath x p → p.Declared r := by
  obtain ⟨xs, out, h1, -, -, h4⟩ := accepted_ops hr hsane h hno
  refine ⟨xs, h1, ?_⟩
  intro x hx p hp
  obtain ⟨i, hi⟩ := List.getElem?_of_mem hx
  obtain ⟨o, t, path, value, -, b2, b3, -, -⟩ := h4 i x hi
  rw [b2.hasPath hp] at b3
  apply Classical.byContradiction
  intro hu
  unfold parseOne at b3
  split at b3
  · rw [update_undeclared hu] at b3
    cases b3
  · rw [remove_undeclared hu] at b3
    cases b3

/-- **C67** an accepted request has no operation whose target is read-only; removing a sub-attribute behind a filter
also needs the attribute itself not to be read-only.  Missing for the full property: a sub-attribute named directly
(`parent.sub`) or set behind a filter is accepted although its parent is read-only, see `C67_parent_read_only`. -/
theorem C67_partial (r : Schema) (hr : r.WF) (hsane : SaneAll r.attrs.all) (data v : Val) (is : Issues)
    (h : PatchA.parse r data = .ok (v, is)) (hno : is.hasIssues = false) :
    ∃ xs, data.Operations xs ∧ ∀ x ∈ xs, ∀ p, HasPath x p →
      (∃ a, p.target r = some a ∧ ¬ a.ReadOnly) ∧
      (¬ IsUpdate x → ∀ s, p.subRep = some s →
        (∃ a, r.attrs.get p.rep = some a ∧ ¬ a.ReadOnly) ∧ ∃ b, r.attrs.get s = some b ∧ ¬ b.ReadOnly) := by
  obtain ⟨xs, out, h1, -, -, h4⟩ := accepted_ops hr hsane h hno
  obtain ⟨xs', h1', hdecl⟩ := C68_accepted r hr hsane data v is h hno
  have hxx : xs' = xs := by
    unfold Val.Operations at h1 h1'
    rw [h1] at h1'; cases h1'; rfl
  subst hxx
  refine ⟨xs', h1, ?_⟩
  intro x hx p hp
  have hd := hdecl x hx p hp
  obtain ⟨i, hi⟩ := List.getElem?_of_mem hx
  obtain ⟨o, t, path, value, -, b2, b3, -, -⟩ := h4 i x hi
  rw [b2.hasPath hp] at b3
  unfold parseOne at b3
  split at b3
  · rename_i hup
    refine ⟨?_, fun hn => absurd ((isUpdate_iff b2).mp hup) hn⟩
    obtain ⟨a, w, iv, c1, -, c3, -, c4, -⟩ := update_declared hr hsane hd b3
    refine ⟨a, c1, fun hro => ?_⟩
    rw [c4 hro] at c3
    cases c3
  · rename_i hup
    obtain ⟨io, c1, c2⟩ := remove_declared hd
    rw [c1] at b3
    cases b3
    have hre : removeErrs r p = [] := by
      have := c2 [.name pathWord]
      rw [if_pos rfl] at this
      exact this.symm
    obtain ⟨a, ha⟩ := Option.isSome_iff_exists.mp hd.1
    unfold removeErrs at hre
    rw [ha] at hre
    have hro : ∀ b : Attr, ¬ (b.info.mutability == Mutability.readOnly) = true → ¬ b.ReadOnly := by
      intro b hb hr
      apply hb
      rw [show b.info.mutability = .readOnly from hr]; rfl
    cases hs : p.subRep with
    | none =>
      rw [hs] at hre
      simp only [List.append_eq_nil_iff] at hre
      refine ⟨⟨a, ?_, ?_⟩, fun _ s e => by cases e⟩
      · unfold PatchPath.target
        rw [hs]
        cases p.filter <;> exact ha
      · apply hro
        intro e
        rw [if_pos e] at hre
        exact absurd hre.1 (by simp)
    | some s =>
      rw [hs] at hre
      obtain ⟨b, hb⟩ := Option.isSome_iff_exists.mp (hd.2 s hs)
      simp only [List.append_eq_nil_iff, hb, Option.any_some, Bool.or_eq_true] at hre
      have hpair : ¬ a.ReadOnly ∧ ¬ b.ReadOnly := by
        constructor
        · apply hro
          intro e
          have := hre.2
          rw [if_pos (.inl e)] at this
          exact absurd this (by simp)
        · apply hro
          intro e
          have := hre.2
          rw [if_pos (.inr e)] at this
          exact absurd this (by simp)
      refine ⟨?_, ?_⟩
      · unfold PatchPath.target
        rw [hs]
        cases p.filter with
        | none => exact ⟨a, ha, hpair.1⟩
        | some f =>
          simp only
          split
          · exact ⟨b, hb, hpair.2⟩
          · exact ⟨a, ha, hpair.1⟩
      · intro _ s' e
        cases e
        exact ⟨⟨a, ha, hpair.1⟩, ⟨b, hb, hpair.2⟩⟩

/-- **C67** for schemas whose read-only attributes have read-only sub-attributes only, no accepted operation touches a
read-only attribute or a sub-attribute of one. -/
theorem C67_deep (r : Schema) (hr : r.WF) (hsane : SaneAll r.attrs.all) (hro : r.ReadOnlyDeep) (data v : Val) (is : Issues)
    (h : PatchA.parse r data = .ok (v, is)) (hno : is.hasIssues = false) :
    ∃ xs, data.Operations xs ∧ ∀ x ∈ xs, ∀ p, HasPath x p →
      ∃ b, p.target r = some b ∧ ¬ b.ReadOnly ∧ ∀ a ∈ r.attrs.all, a.ParentOf b → ¬ a.ReadOnly := by
  obtain ⟨xs, h1, h2⟩ := C67_partial r hr hsane data v is h hno
  refine ⟨xs, h1, ?_⟩
  intro x hx p hp
  obtain ⟨⟨b, hb, hb'⟩, -⟩ := h2 x hx p hp
  refine ⟨b, hb, hb', ?_⟩
  intro a ha hpar hra
  have hbm : b ∈ r.attrs.all := by
    have hget : ∀ rep, r.attrs.get rep = some b → b ∈ r.attrs.all := fun rep h => ((C32_undeclared r rep).2 b h).1
    unfold PatchPath.target at hb
    split at hb
    · split at hb
      · exact hget _ hb
      · exact hget _ hb
    · exact hget _ hb
  exact hb' (hro a ha b hbm hpar hra)

/-! ### Reported operations

The request itself is looked at first (`PatchA.schema.parse`): a wrong `op`, a path that does not parse, a value that
is missing.  The following holds for the operations that pass. -/

/-- An operation that passed the first look. -/
theorem looked_at {r : Schema} (hr : r.WF) (hsane : SaneAll r.attrs.all) {data v d : Val} {is is0 : Issues}
    (h : PatchA.parse r data = .ok (v, is)) (h0 : PatchA.schema.parse data = .ok (d, is0))
    (hc : is0.canProceed [[.name opsWord]] = true) {xs : List Val} (hxs : data.Operations xs) {i : Nat} {x : Val}
    (hx : xs[i]? = some x) (hi : is0.hasIssues [opLoc i] = false) :
    ∃ o t path value io, OpInput x t path value ∧ parseOne r t path value = .ok (o, io) ∧
      ∀ l, is.errorsAt (opLoc i ++ l) = io.errorsAt l := by
  obtain ⟨d', is0', hd, hw0, hw, hcase⟩ := parse_bridge hr hsane h
  rw [h0] at hd
  cases hd
  rcases hcase with ⟨hc', -, -⟩ | ⟨-, hobj, xs', out, h1, h2, h3, h4, -, -, h7⟩
  · rw [hc] at hc'; cases hc'
  · have : xs' = xs := by
      unfold Val.Operations at hxs
      rw [h1] at hxs; cases hxs; rfl
    subst this
    obtain ⟨o, t, p, value, io, -, b2, b3, -, -, b6, -⟩ := h4 i x hx hi
    exact ⟨o, t, p, value, io, b2, b3, b6⟩

/-- **C68** an operation whose path does not name declared attributes is reported with 303, at its path (`add`,
`replace`) or at the operation (`remove`). -/
theorem C68_reported (r : Schema) (hr : r.WF) (hsane : SaneAll r.attrs.all) (data v d : Val) (is is0 : Issues)
    (h : PatchA.parse r data = .ok (v, is)) (h0 : PatchA.schema.parse data = .ok (d, is0))
    (hc : is0.canProceed [[.name opsWord]] = true) (xs : List Val) (hxs : data.Operations xs) (i : Nat) (x : Val)
    (hx : xs[i]? = some x) (hi : is0.hasIssues [opAt i] = false) (p : PatchPath) (hp : HasPath x p) :
    (IsUpdate x → (is.codesAt (opAt i ++ [.name pathWord]) = [303] ↔ ¬ p.Declared r)) ∧
    (¬ IsUpdate x → (is.codesAt (opAt i) = [303] ↔ ¬ p.Declared r)) := by
  obtain ⟨o, t, path, value, io, b1, b2, b3⟩ := looked_at hr hsane h h0 hc hxs hx hi
  rw [b1.hasPath hp] at b2
  have hb : ∀ l, is.codesAt (opAt i ++ l) = io.codesAt l := fun l => by unfold Issues.codesAt; rw [← b3]; rfl
  have hb0 : is.codesAt (opAt i) = io.codesAt [] := by rw [← hb, List.append_nil]
  unfold parseOne at b2
  refine ⟨fun hu => ?_, fun hu => ?_⟩
  · rw [if_pos ((isUpdate_iff b1).mpr hu)] at b2
    rw [hb]
    by_cases hd : p.Declared r
    · refine ⟨fun hh => ?_, fun hh => absurd hd hh⟩
      exfalso
      obtain ⟨a, w, iv, -, -, rfl, hwi, -, -⟩ := update_declared hr hsane hd b2
      -- the issues of the value do not stand at the path
      have hne : (Issues.empty.merge iv [.name valWord]).codesAt [.name pathWord] = [] := by
        unfold Issues.codesAt
        rw [errorsAt_merge hwi, if_neg]
        · rfl
        · rw [List.cons_prefix_cons]
          intro e
          have := LKey.name.inj e.1
          exact absurd this (by decide)
      rw [hne] at hh
      cases hh
    · refine ⟨fun _ => hd, fun _ => ?_⟩
      rw [update_undeclared hd] at b2
      cases b2
      rfl
  · rw [if_neg (fun e => hu ((isUpdate_iff b1).mp e))] at b2
    rw [hb0]
    by_cases hd : p.Declared r
    · refine ⟨fun hh => ?_, fun hh => absurd hd hh⟩
      exfalso
      obtain ⟨io', c1, c2⟩ := remove_declared hd
      rw [c1] at b2
      cases b2
      unfold Issues.codesAt at hh
      rw [c2, if_neg (by simp)] at hh
      cases hh
    · refine ⟨fun _ => hd, fun _ => ?_⟩
      rw [remove_undeclared hd] at b2
      cases b2
      rfl

/-- **C67** an operation whose target is read-only is reported with 304, at its value (`add`, `replace`) or at its path
(`remove`). -/
theorem C67_reported (r : Schema) (hr : r.WF) (hsane : SaneAll r.attrs.all) (data v d : Val) (is is0 : Issues)
    (h : PatchA.parse r data = .ok (v, is)) (h0 : PatchA.schema.parse data = .ok (d, is0))
    (hc : is0.canProceed [[.name opsWord]] = true) (xs : List Val) (hxs : data.Operations xs) (i : Nat) (x : Val)
    (hx : xs[i]? = some x) (hi : is0.hasIssues [opAt i] = false) (p : PatchPath) (hp : HasPath x p)
    (hd : p.Declared r) (a : Attr) (ha : p.target r = some a) (hro : a.ReadOnly) :
    (IsUpdate x → is.codesAt (opAt i ++ [.name valWord]) = [304]) ∧
    (¬ IsUpdate x → 304 ∈ is.codesAt (opAt i ++ [.name pathWord])) := by
  obtain ⟨o, t, path, value, io, b1, b2, b3⟩ := looked_at hr hsane h h0 hc hxs hx hi
  rw [b1.hasPath hp] at b2
  have hb : ∀ l, is.codesAt (opAt i ++ l) = io.codesAt l := fun l => by unfold Issues.codesAt; rw [← b3]; rfl
  unfold parseOne at b2
  refine ⟨fun hu => ?_, fun hu => ?_⟩
  · rw [if_pos ((isUpdate_iff b1).mpr hu)] at b2
    rw [hb]
    obtain ⟨a', w, iv, c1, -, rfl, -, c4, -⟩ := update_declared hr hsane hd b2
    rw [ha] at c1; cases c1
    rw [c4 hro]
    rfl
  · rw [if_neg (fun e => hu ((isUpdate_iff b1).mp e))] at b2
    rw [hb]
    obtain ⟨io', c1, c2⟩ := remove_declared hd
    rw [c1] at b2
    cases b2
    unfold Issues.codesAt
    rw [c2, if_pos rfl]
    have hm : (a.info.mutability == Mutability.readOnly) = true := by rw [show a.info.mutability = .readOnly from hro]; rfl
    unfold removeErrs
    obtain ⟨b, hb'⟩ := Option.isSome_iff_exists.mp hd.1
    rw [hb']
    unfold PatchPath.target at ha
    cases hs : p.subRep with
    | none =>
      rw [hs, hb'] at ha
      have : b = a := by cases hf : p.filter <;> rw [hf] at ha <;> cases ha <;> rfl
      subst this
      simp [hm]
    | some s =>
      obtain ⟨e, he⟩ := Option.isSome_iff_exists.mp (hd.2 s hs)
      rw [hs, hb'] at ha
      have : b = a ∨ e = a := by
        cases hf : p.filter <;> rw [hf] at ha <;> simp only [he] at ha
        · cases ha; exact .inl rfl
        · split at ha <;> cases ha
          · exact .inr rfl
          · exact .inl rfl
      simp only [he, Option.any_some]
      rcases this with rfl | rfl <;> simp [hm]

/-- **C69** removing a required attribute that is not complex, or a required sub-attribute behind a filter, is
reported with 306 at the path, and nothing else is.  Missing for the full property: a required *complex* attribute is
removed without any issue, see `C69_complex`. -/
theorem C69_partial (r : Schema) (hr : r.WF) (hsane : SaneAll r.attrs.all) (data v d : Val) (is is0 : Issues)
    (h : PatchA.parse r data = .ok (v, is)) (h0 : PatchA.schema.parse data = .ok (d, is0))
    (hc : is0.canProceed [[.name opsWord]] = true) (xs : List Val) (hxs : data.Operations xs) (i : Nat) (x : Val)
    (hx : xs[i]? = some x) (hi : is0.hasIssues [opAt i] = false) (p : PatchPath) (hp : HasPath x p)
    (hd : p.Declared r) (hop : ¬ IsUpdate x) :
    (p.subRep = none → ∀ a, r.attrs.get p.rep = some a →
      (306 ∈ is.codesAt (opAt i ++ [.name pathWord]) ↔ a.info.required = true ∧ a.isComplex = false)) ∧
    (∀ s, p.subRep = some s → ∀ b, r.attrs.get s = some b →
      (306 ∈ is.codesAt (opAt i ++ [.name pathWord]) ↔ b.info.required = true)) := by
  obtain ⟨o, t, path, value, io, b1, b2, b3⟩ := looked_at hr hsane h h0 hc hxs hx hi
  rw [b1.hasPath hp] at b2
  have hb : ∀ l, is.codesAt (opAt i ++ l) = io.codesAt l := fun l => by unfold Issues.codesAt; rw [← b3]; rfl
  unfold parseOne at b2
  rw [if_neg (fun e => hop ((isUpdate_iff b1).mp e))] at b2
  obtain ⟨io', c1, c2⟩ := remove_declared hd
  rw [c1] at b2
  cases b2
  have hcodes : io.codesAt [.name pathWord] = (removeErrs r p).map (·.code) := by
    unfold Issues.codesAt; rw [c2, if_pos rfl]
  rw [hb, hcodes]
  unfold removeErrs
  refine ⟨fun hs a ha => ?_, fun s hs b hb' => ?_⟩
  · simp only [ha, hs]
    cases a.info.mutability == Mutability.readOnly <;> cases a.info.required <;> cases a.isComplex <;> simp
  · obtain ⟨a, ha⟩ := Option.isSome_iff_exists.mp hd.1
    simp only [ha, hs, hb', Option.any_some]
    cases a.info.mutability == Mutability.readOnly <;> cases b.info.required <;>
      cases b.info.mutability == Mutability.readOnly <;> simp

/-- **C69** so an accepted request removes no required attribute, apart from complex ones. -/
theorem C69_accepted_partial (r : Schema) (hr : r.WF) (hsane : SaneAll r.attrs.all) (data v : Val) (is : Issues)
    (h : PatchA.parse r data = .ok (v, is)) (hno : is.hasIssues = false) :
    ∃ xs, data.Operations xs ∧ ∀ x ∈ xs, ∀ p, HasPath x p → ¬ IsUpdate x →
      (p.subRep = none → ∃ a, r.attrs.get p.rep = some a ∧ (a.isComplex = false → a.info.required = false)) ∧
      (∀ s, p.subRep = some s → ∃ b, r.attrs.get s = some b ∧ b.info.required = false) := by
  obtain ⟨xs, out, h1, -, -, h4⟩ := accepted_ops hr hsane h hno
  obtain ⟨xs', h1', hdecl⟩ := C68_accepted r hr hsane data v is h hno
  have hxx : xs' = xs := by
    unfold Val.Operations at h1 h1'
    rw [h1] at h1'; cases h1'; rfl
  subst hxx
  refine ⟨xs', h1, ?_⟩
  intro x hx p hp hop
  have hd := hdecl x hx p hp
  obtain ⟨i, hi⟩ := List.getElem?_of_mem hx
  obtain ⟨o, t, path, value, -, b2, b3, -, -⟩ := h4 i x hi
  rw [b2.hasPath hp] at b3
  unfold parseOne at b3
  rw [if_neg (fun e => hop ((isUpdate_iff b2).mp e))] at b3
  obtain ⟨io, c1, c2⟩ := remove_declared hd
  rw [c1] at b3
  cases b3
  have hre : removeErrs r p = [] := by
    have := c2 [.name pathWord]
    rw [if_pos rfl] at this
    exact this.symm
  unfold removeErrs at hre
  obtain ⟨a, ha⟩ := Option.isSome_iff_exists.mp hd.1
  rw [ha] at hre
  refine ⟨fun hs => ⟨a, ha, ?_⟩, fun s hs => ?_⟩
  · rw [hs] at hre
    intro hcx
    cases hq : a.info.required with
    | false => rfl
    | true => simp [hq, hcx] at hre
  · obtain ⟨b, hb⟩ := Option.isSome_iff_exists.mp (hd.2 s hs)
    rw [hs] at hre
    refine ⟨b, hb, ?_⟩
    cases hq : b.info.required with
    | false => rfl
    | true => simp [hb, hq] at hre

/-! ### C83–C85: what an accepted request looks like -/

/-- **C83** in an accepted request every `op` is one of the three words (up to letter case) or absent, every `remove`
has a path, every `add` has a value, and the path of an `add` with a filter names a sub-attribute. -/
theorem C83_shape (r : Schema) (hr : r.WF) (hsane : SaneAll r.attrs.all) (data v : Val) (is : Issues)
    (h : PatchA.parse r data = .ok (v, is)) (hno : is.hasIssues = false) :
    ∃ xs, data.Operations xs ∧ ∀ x ∈ xs, ∃ t value, x.getItem { attr := opWord } = .ok t ∧
      x.getItem { attr := valWord } = .ok value ∧
      (t.isNoneOrMissing = true ∨ ∃ w, t = .str w ∧ (lower w = addWord ∨ lower w = removeWord ∨ lower w = replaceWord)) ∧
      (t = .str removeWord → ∃ p, HasPath x p) ∧
      (t = .str addWord → value.isNoneOrMissing = false ∧
        ∀ p, HasPath x p → p.filter.isSome = true → p.subRep.isSome = true) := by
  obtain ⟨xs, out, h1, -, -, h4⟩ := accepted_ops hr hsane h hno
  refine ⟨xs, h1, ?_⟩
  intro x hx
  obtain ⟨i, hi⟩ := List.getElem?_of_mem hx
  obtain ⟨o, t, path, value, -, b2, b3, b4, b5⟩ := h4 i x hi
  refine ⟨t, value, b2.op, b2.val, b2.word, ?_, ?_⟩
  · rintro rfl
    rcases b2.pth with ⟨c1, c2⟩ | ⟨s, p, c1, c2, rfl⟩
    · unfold opPathErrs at b4
      rw [if_pos (by simp [isText_iff.mpr rfl, c2])] at b4
      cases b4
    · exact ⟨p, s, _, c1, c2⟩
  · rintro rfl
    have ha : (Val.str addWord).isText addWord = true := isText_iff.mpr rfl
    refine ⟨?_, ?_⟩
    · unfold opValueErrs at b5
      rw [← Bool.not_eq_true]
      intro e
      rw [if_pos (by simp [ha, e])] at b5
      cases b5
    · intro p hp hf
      have := b2.hasPath hp
      subst this
      cases hs : p.subRep with
      | some s => rfl
      | none =>
        exfalso
        unfold opPathErrs at b4
        rw [if_neg, if_pos] at b4
        · cases b4
        · refine ⟨ha, ?_⟩
          unfold filterWithoutSub
          simp [hf, hs]
        · rw [isText_ne ha (by decide)]; simp

/-- **C84** an accepted request keeps its operations: same number, same order, `op`, the parsed path and the value as
the targeted attribute parses it. -/
theorem C84_kept (r : Schema) (hr : r.WF) (hsane : SaneAll r.attrs.all) (data v : Val) (is : Issues)
    (h : PatchA.parse r data = .ok (v, is)) (hno : is.hasIssues = false) :
    ∃ xs out : List Val, data.Operations xs ∧ v.getItem { schema := urn, attr := opsWord } = .ok (.list out) ∧
      out.length = xs.length ∧ ∀ (i : Nat) (x : Val), xs[i]? = some x → ∃ o, out[i]? = some o ∧ ∀ p, HasPath x p →
        (IsUpdate x → ∃ t a value w ip, x.getItem { attr := opWord } = .ok t ∧ x.getItem { attr := valWord } = .ok value ∧
          p.target r = some a ∧ a.process .parse value = .ok (w, ip) ∧ ip.hasIssues = false ∧
          o = Val.toCont (.dict [(opWord, t), (pathWord, .obj (.path p)), (valWord, w)])) ∧
        (¬ IsUpdate x → o = Val.toCont (.dict [(opWord, .str removeWord), (pathWord, .obj (.path p))])) := by
  obtain ⟨xs, out, h1, h2, h3, h4⟩ := accepted_ops hr hsane h hno
  obtain ⟨xs', h1', hdecl⟩ := C68_accepted r hr hsane data v is h hno
  have hxx : xs' = xs := by
    unfold Val.Operations at h1 h1'
    rw [h1] at h1'; cases h1'; rfl
  subst hxx
  refine ⟨xs', out, h1, h3, h2, ?_⟩
  intro i x hi
  obtain ⟨o, t, path, value, b1, b2, b3, -, -⟩ := h4 i x hi
  refine ⟨o, b1, ?_⟩
  intro p hp
  have hd := hdecl x (List.mem_of_getElem? hi) p hp
  rw [b2.hasPath hp] at b3
  unfold parseOne at b3
  refine ⟨fun hu => ?_, fun hu => ?_⟩
  · rw [if_pos ((isUpdate_iff b2).mpr hu)] at b3
    obtain ⟨a, w, iv, c1, c2, c3, hwi, c4, c5⟩ := update_declared hr hsane hd b3
    have hiv : iv.hasIssues = false := by
      have : (Issues.empty.merge iv [.name valWord]).hasIssues = false := by rw [← c3]; rfl
      rw [hasIssues_merge_false] at this
      exact this.2
    have hnro : ¬ a.ReadOnly := by
      intro e
      rw [c4 e, hasIssues_add] at hiv; cases hiv
    obtain ⟨ip, c6, c7⟩ := c5 hnro
    exact ⟨t, a, value, w, ip, b2.op, b2.val, c1, c6, (c7 hiv).1, c2⟩
  · rw [if_neg (fun e => hu ((isUpdate_iff b2).mp e))] at b3
    obtain ⟨io, c1, -⟩ := remove_declared hd
    rw [c1] at b3
    cases b3
    rfl

theorem readOnlyLoop_clean {value : Val} {as : List Attr} {acc is : Issues} (ha : acc.WF)
    (h : readOnlyLoop value as acc = .ok is) :
    (acc.hasIssues = true → is.hasIssues = true) ∧
    (is.hasIssues = false → ∀ a ∈ as, a.ReadOnly → value.getItem a.rep = .ok .missing) := by
  induction as generalizing acc with
  | nil => cases h; exact ⟨id, by simp⟩
  | cons a as ih =>
    rw [readOnlyLoop] at h
    split at h
    · cases h
    · rename_i w hw
      by_cases hc : (!w.isMissing && a.info.mutability == .readOnly) = true
      · rw [if_pos hc] at h
        obtain ⟨h1, h2⟩ := ih (ha.add _ _ _) h
        have : is.hasIssues = true := h1 (hasIssues_add _ _ _ _)
        exact ⟨fun _ => this, fun hno => by rw [this] at hno; cases hno⟩
      · rw [if_neg hc] at h
        obtain ⟨h1, h2⟩ := ih ha h
        refine ⟨h1, fun hno b hb hro => ?_⟩
        rcases List.mem_cons.mp hb with rfl | hb
        · rw [hw]
          have : w.isMissing = true := by
            rw [show b.info.mutability = .readOnly from hro] at hc
            simpa using hc
          cases w <;> simp [Val.isMissing] at this
          rfl
        · exact h2 hno b hb hro

/-- **C85** an accepted `add` or `replace` without path has an object as value, in which the schema finds nothing wrong
(apart from the list of schemas) and which sets no read-only attribute. -/
theorem C85_no_path (r : Schema) (hr : r.WF) (hsane : SaneAll r.attrs.all) (data v : Val) (is : Issues)
    (h : PatchA.parse r data = .ok (v, is)) (hno : is.hasIssues = false) :
    ∃ xs, data.Operations xs ∧ ∀ x ∈ xs, IsUpdate x → (¬ ∃ p, HasPath x p) →
      ∃ value w iw, x.getItem { attr := valWord } = .ok value ∧ r.parse value = .ok (w, iw) ∧
        (∀ l, l ≠ [.name "schemas".toList] → iw.errorsAt l = []) ∧
        ∀ a ∈ r.attrs.all, a.ReadOnly → w.getItem a.rep = .ok .missing := by
  have htop : SaneAll r.attrs.top := saneAll_iff.mpr (fun a ha => saneAll_iff.mp hsane a (hr.top_all a ha))
  obtain ⟨xs, out, h1, -, -, h4⟩ := accepted_ops hr hsane h hno
  refine ⟨xs, h1, ?_⟩
  intro x hx hu hnp
  obtain ⟨i, hi⟩ := List.getElem?_of_mem hx
  obtain ⟨o, t, path, value, -, b2, b3, -, -⟩ := h4 i x hi
  have hpath : path.isNoneOrMissing = true := by
    rcases b2.pth with ⟨-, c2⟩ | ⟨s, p, c1, c2, -⟩
    · exact c2
    · exact absurd ⟨p, s, _, c1, c2⟩ hnp
  have hnobj : ∀ p, path ≠ .obj (.path p) := by rintro p rfl; cases hpath
  unfold parseOne at b3
  rw [if_pos ((isUpdate_iff b2).mpr hu)] at b3
  unfold parseAddReplace at b3
  have hpi : pathIssues r path = {} := by
    unfold pathIssues
    split
    · exact absurd rfl (hnobj _)
    · rfl
  rw [hpi] at b3
  simp only [has_empty, Bool.false_eq_true, if_false] at b3
  split at b3
  · cases b3
  · rename_i w iv hpv
    injection b3 with b3
    injection b3 with b3 b3'
    have hiv : iv.hasIssues = false := by
      have : (Issues.empty.merge iv [.name valWord]).hasIssues = false := by rw [b3']; rfl
      rw [hasIssues_merge_false] at this
      exact this.2
    unfold parseValue at hpv
    split at hpv
    · exact absurd rfl (hnobj _)
    · rw [if_pos hpath] at hpv
      split at hpv
      · cases hpv
      · rename_i w' iw hpr
        dsimp only at hpv
        split at hpv
        · cases hpv
        · rename_i il hl
          cases hpv
          have hwiw : iw.WF := schema_process_wf hr htop hpr
          have hwpop := ((hwiw.pop schemasLoc 27).pop schemasLoc 28).pop schemasLoc 29
          obtain ⟨c1, c2⟩ := readOnlyLoop_clean hwpop hl
          refine ⟨value, w, iw, b2.val, hpr, ?_, c2 hiv⟩
          intro l hl'
          have hnop : (((iw.pop schemasLoc 27).pop schemasLoc 28).pop schemasLoc 29).hasIssues = false := by
            rw [← Bool.not_eq_true]; intro e; rw [c1 e] at hiv; cases hiv
          have := eq_empty_of_noIssues hwpop hnop
          have e : (((iw.pop schemasLoc 27).pop schemasLoc 28).pop schemasLoc 29).errorsAt l = iw.errorsAt l := by
            have hs : schemasLoc ≠ l := fun e => hl' e.symm
            rw [errorsAt_pop_ne _ _ _ _ hs, errorsAt_pop_ne _ _ _ _ hs, errorsAt_pop_ne _ _ _ _ hs]
          rw [← e, this]; rfl

/-- **C85** an accepted `add` or `replace` of a single-valued complex attribute sets no read-only sub-attribute. -/
theorem C85_complex (r : Schema) (hr : r.WF) (hsane : SaneAll r.attrs.all) (data v : Val) (is : Issues)
    (h : PatchA.parse r data = .ok (v, is)) (hno : is.hasIssues = false) :
    ∃ xs, data.Operations xs ∧ ∀ x ∈ xs, IsUpdate x → ∀ p, HasPath x p → ∀ a, p.target r = some a →
      a.isComplex = true → a.info.multi = false →
      ∃ value w ip, x.getItem { attr := valWord } = .ok value ∧ a.process .parse value = .ok (w, ip) ∧
        ∀ s ∈ a.subs, s.ReadOnly → w.getItem s.rep = .ok .missing := by
  obtain ⟨xs, out, h1, -, -, h4⟩ := accepted_ops hr hsane h hno
  obtain ⟨xs', h1', hdecl⟩ := C68_accepted r hr hsane data v is h hno
  have hxx : xs' = xs := by
    unfold Val.Operations at h1 h1'
    rw [h1] at h1'; cases h1'; rfl
  subst hxx
  refine ⟨xs', h1, ?_⟩
  intro x hx hu p hp a ha hc hm
  obtain ⟨i, hi⟩ := List.getElem?_of_mem hx
  obtain ⟨o, t, path, value, -, b2, b3, -, -⟩ := h4 i x hi
  have hd := hdecl x hx p hp
  rw [b2.hasPath hp] at b3
  unfold parseOne at b3
  rw [if_pos ((isUpdate_iff b2).mpr hu)] at b3
  obtain ⟨a', w, iv, c1, -, c3, -, c4, c5⟩ := update_declared hr hsane hd b3
  rw [ha] at c1; cases c1
  have hiv : iv.hasIssues = false := by
    have : (Issues.empty.merge iv [.name valWord]).hasIssues = false := by rw [← c3]; rfl
    rw [hasIssues_merge_false] at this
    exact this.2
  have hnro : ¬ a.ReadOnly := by
    intro e
    rw [c4 e, hasIssues_add] at hiv; cases hiv
  obtain ⟨ip, c6, c7⟩ := c5 hnro
  exact ⟨value, w, ip, b2.val, c6, (c7 hiv).2 hc hm⟩

/-! ### The standard schemas -/

/-- What the read-only check looks at. -/
def mutFacts (as : List Attr) : List (AttrRep × Mutability) := as.map (fun a => (a.rep, a.info.mutability))

def checkDeep (fs : List (AttrRep × Mutability)) : Bool :=
  fs.all (fun f => f.2 != .readOnly || f.1.sub != [] ||
    fs.all (fun g => g.1.sub == [] || f.1.schema != g.1.schema || f.1.attr != g.1.attr || g.2 == .readOnly))

theorem mutability_eq {m : Mutability} (h : (m == .readOnly) = true) : m = .readOnly := by
  cases m <;> first | rfl | (exact absurd h (by decide))

theorem deep_of {r : Schema} (h : checkDeep (mutFacts r.attrs.all) = true) : r.ReadOnlyDeep := by
  intro a ha b hb ⟨h1, h2, h3, h4⟩ hro
  unfold checkDeep mutFacts at h
  rw [List.all_eq_true] at h
  have h5 := h _ (List.mem_map_of_mem ha)
  simp only [show a.info.mutability = .readOnly from hro, h1] at h5
  have h6 : (List.all (List.map (fun a => (a.rep, a.info.mutability)) r.attrs.all) fun g =>
      g.1.sub == [] || a.rep.schema != g.1.schema || a.rep.attr != g.1.attr || g.2 == .readOnly) = true := by
    simpa using h5
  rw [List.all_eq_true] at h6
  have h7 := h6 _ (List.mem_map_of_mem hb)
  simp only [h3, h4, bne_self_eq_false, Bool.or_false] at h7
  rw [Bool.or_eq_true] at h7
  rcases h7 with e | e
  · exact absurd (by simpa using e) h2
  · exact mutability_eq e

/-- The attributes of `Group`, in declaration order. -/
theorem group_all : GroupA.schema.attrs.all =
    (schemasAttr :: idAttr :: externalIdAttr :: metaAttr :: [GroupA.displayNameA, GroupA.membersA]).flatMap
      (bindWithSubs GroupA.urn false) :=
  ofList_all (keys_of_lnames (bind_facts (urn := GroupA.urn) (ext := false) group_decl).2)

theorem group_deep : GroupA.schema.ReadOnlyDeep := by
  apply deep_of
  rw [group_all]
  rw [show mutFacts ((schemasAttr :: idAttr :: externalIdAttr :: metaAttr :: [GroupA.displayNameA, GroupA.membersA]).flatMap
      (bindWithSubs GroupA.urn false)) = mutFacts ((@schemasAttr asciiEnv :: @idAttr asciiEnv :: @externalIdAttr asciiEnv ::
      @metaAttr asciiEnv :: [@GroupA.displayNameA asciiEnv, @GroupA.membersA asciiEnv]).flatMap
      (@bindWithSubs asciiEnv GroupA.urn false)) from rfl]
  decide +kernel

theorem user_facts : mutFacts userSchema.attrs.all =
    mutFacts ((@schemasAttr asciiEnv :: @idAttr asciiEnv :: @externalIdAttr asciiEnv :: @metaAttr asciiEnv ::
      @UserA.attrs asciiEnv).flatMap (@bindWithSubs asciiEnv UserA.urn false)) ++
    mutFacts ((@UserA.enterprise asciiEnv).attrs.all.flatMap (@bindWithSubs asciiEnv UserA.enterpriseUrn true)) := by
  rw [user_all, user_core_all]
  unfold mutFacts
  rw [List.map_append]
  rfl

theorem user_deep : userSchema.ReadOnlyDeep := by
  apply deep_of
  rw [user_facts]
  decide +kernel

theorem group_sane : SaneAll GroupA.schema.attrs.all := by
  rw [group_all]
  exact (good_bind group_good _ _).sane

theorem user_sane : SaneAll userSchema.attrs.all := by
  apply Good.sane
  rw [user_all, user_core_all]
  intro a ha
  rcases List.mem_append.mp ha with h | h
  · exact good_bind user_good _ _ a h
  · exact good_bind enterprise_good _ _ a h

/-- **C67** for users (with the enterprise extension): no accepted patch request changes a read-only attribute or a
sub-attribute of one through a path. -/
theorem C67_user (data v : Val) (is : Issues) (h : PatchA.parse userSchema data = .ok (v, is)) (hno : is.hasIssues = false) :
    ∃ xs, data.Operations xs ∧ ∀ x ∈ xs, ∀ p, HasPath x p → ∃ b, p.target userSchema = some b ∧ ¬ b.ReadOnly ∧
      ∀ a ∈ userSchema.attrs.all, a.ParentOf b → ¬ a.ReadOnly :=
  C67_deep userSchema user_wf user_sane user_deep data v is h hno

attribute [local irreducible] GroupA.schema in
/-- **C67** for groups. -/
theorem C67_group (data v : Val) (is : Issues) (h : PatchA.parse GroupA.schema data = .ok (v, is)) (hno : is.hasIssues = false) :
    ∃ xs, data.Operations xs ∧ ∀ x ∈ xs, ∀ p, HasPath x p → ∃ b, p.target GroupA.schema = some b ∧ ¬ b.ReadOnly ∧
      ∀ a ∈ GroupA.schema.attrs.all, a.ParentOf b → ¬ a.ReadOnly :=
  C67_deep GroupA.schema group_wf group_sane group_deep data v is h hno

end Scim

/-! ### Concrete requests -/

namespace Scim.Examples.PatchOp
local instance patchEnv : PyEnv := asciiEnv
open PatchA

/-- A schema with a read-only attribute, a required one, a required complex one, a read-only complex one with a writable
sub-attribute, and a multi-valued one. -/
def demoAttrs : List Attr :=
  [mkAttr { rep := { attr := "serial".toList }, type := .string, mutability := .readOnly },
   mkAttr { rep := { attr := "name".toList }, type := .string, required := true },
   mkComplex { rep := { attr := "home".toList }, type := .complex, required := true }
     [mkAttr { rep := { attr := "city".toList }, type := .string },
      mkAttr { rep := { attr := "code".toList }, type := .string, mutability := .readOnly }],
   mkComplex { rep := { attr := "origin".toList }, type := .complex, mutability := .readOnly }
     [mkAttr { rep := { attr := "place".toList }, type := .string }],
   mkComplex { rep := { attr := "mails".toList }, type := .complex, multi := true }
     [mkAttr { rep := { attr := "value".toList }, type := .string, required := true },
      mkAttr { rep := { attr := "type".toList }, type := .string },
      mkAttr { rep := { attr := "since".toList }, type := .string, mutability := .readOnly }]]

def demo : Schema := mkSchema "urn:demo".toList demoAttrs

theorem demo_decl : Declarations (schemasAttr :: demoAttrs) := declarations_of rfl (by decide +kernel)

theorem demo_wf : demo.WF :=
  mkSchema_wf demo_decl (by decide +kernel)
    (fun d hd => noClash_of (attrs := schemasAttr :: demoAttrs) rfl (by decide +kernel) (urns := ["urn:demo".toList]) (by decide +kernel) d hd _ (by simp))

theorem demo_sane : SaneAll demo.attrs.all := by
  have hp := demo_decl.subs
  unfold demoAttrs at hp
  simp only [List.mem_cons, forall_eq_or_imp] at hp
  obtain ⟨_, _, _, h1, h2, h3, _⟩ := hp
  have hg : Good (schemasAttr :: demoAttrs) := by
    refine good_cons (good_simple rfl rfl) (good_cons (good_simple rfl rfl) (good_cons (good_simple rfl rfl)
      (good_cons (good_complex rfl rfl h1 ?_) (good_cons (good_complex rfl rfl h2 ?_) (good_cons (good_complex rfl rfl h3 ?_) good_nil)))))
    all_goals good_list
  rw [show demo.attrs.all = _ from ofList_all (keys_of_lnames (bind_facts (urn := "urn:demo".toList) (ext := false) demo_decl).2)]
  exact (good_bind hg _ _).sane

/-- A text. -/
def txt (s : String) : Val := .str s.toList

/-- An operation. -/
def operation (fields : List (String × Val)) : Val := .dict (fields.map (fun f => (f.1.toList, f.2)))

/-- A request. -/
def request (xs : List Val) : Val :=
  .dict [("schemas".toList, .list [.str PatchA.urn]), ("Operations".toList, .list xs)]

/-- The codes reported at a place, or nothing when the request is not processed. -/
def codes (xs : List Val) (l : Loc) : Option (List Nat) :=
  match PatchA.parse demo (request xs) with
  | .ok (_, is) => some (is.codesAt l)
  | .error _ => none

/-- Nothing is reported. -/
def accepted (xs : List Val) : Bool :=
  match PatchA.parse demo (request xs) with
  | .ok (_, is) => !is.hasIssues
  | .error _ => false

def good : List Val :=
  [operation [("op", txt "add"), ("path", txt "name"), ("value", txt "Ann")],
   operation [("op", txt "replace"), ("path", txt "home"), ("value", .dict [("city".toList, txt "Oslo")])],
   operation [("op", txt "replace"), ("path", txt "mails[type eq \"work\"].value"), ("value", txt "a@b.c")],
   operation [("op", txt "remove"), ("path", txt "mails[type eq \"work\"]")],
   operation [("op", txt "add"), ("value", .dict [("name".toList, txt "Bob")])]]

/-- The hypotheses of the theorems on accepted requests are met: five operations of all kinds, nothing reported. -/
theorem good_accepted : accepted good = true := by decide +kernel

theorem accepted_iff {xs : List Val} (h : accepted xs = true) :
    ∃ v is, PatchA.parse demo (request xs) = .ok (v, is) ∧ is.hasIssues = false := by
  unfold accepted at h
  split at h
  · rename_i v is e
    exact ⟨v, is, e, by simpa using h⟩
  · cases h

example : (request good).Operations (good.map Val.toCont) := by unfold Val.Operations; decide +kernel
example : ∃ v is, PatchA.parse demo (request good) = .ok (v, is) ∧ is.hasIssues = false := accepted_iff good_accepted

/-- The values are kept: the third operation, for instance. -/
example : (match PatchA.parse demo (request good) with
    | .ok (v, _) => v.getItem { attr := "Operations".toList, sub := "value".toList }
    | .error e => .error e) =
    .ok (.list [txt "Ann", .cont [("city".toList, txt "Oslo")] [("city".toList, "city".toList)], txt "a@b.c", .missing,
      .cont [("name".toList, txt "Bob")] [("name".toList, "name".toList)]]) := by decide +kernel

/-- What is reported, operation by operation: an undeclared target, read-only ones, a required one. -/
def bad : List Val :=
  [operation [("op", txt "add"), ("path", txt "nothing"), ("value", txt "x")],
   operation [("op", txt "remove"), ("path", txt "nothing")],
   operation [("op", txt "replace"), ("path", txt "serial"), ("value", txt "x")],
   operation [("op", txt "remove"), ("path", txt "serial")],
   operation [("op", txt "remove"), ("path", txt "name")],
   operation [("op", txt "remove"), ("path", txt "mails[type eq \"work\"].value")],
   operation [("op", txt "remove"), ("path", txt "origin")],
   operation [("op", txt "replace"), ("path", txt "home"), ("value", .dict [("code".toList, txt "1")])],
   operation [("op", txt "add"), ("value", .dict [("serial".toList, txt "1")])]]

example : codes bad (opAt 0 ++ [.name pathWord]) = some [303] := by decide +kernel
example : codes bad (opAt 1) = some [303] := by decide +kernel
example : codes bad (opAt 2 ++ [.name valWord]) = some [304] := by decide +kernel
example : codes bad (opAt 3 ++ [.name pathWord]) = some [304] := by decide +kernel
example : codes bad (opAt 4 ++ [.name pathWord]) = some [306] := by decide +kernel
example : codes bad (opAt 5 ++ [.name pathWord]) = some [306] := by decide +kernel
example : codes bad (opAt 6 ++ [.name pathWord]) = some [304] := by decide +kernel
example : codes bad (opAt 7 ++ [.name valWord, .name []]) = some [304] := by decide +kernel
example : codes bad (opAt 8 ++ [.name valWord, .name "serial".toList]) = some [304] := by decide +kernel

/-- The base schema finds nothing wrong with these operations, as the theorems on reports suppose. -/
example : (match PatchA.schema.parse (request bad) with
    | .ok (_, is) => is.canProceed [[.name opsWord]] && !is.hasIssues [opAt 0]
    | .error _ => false) = true := by decide +kernel

/-! ### What C67 and C69 miss -/

def placeOp : List Val := [operation [("op", txt "replace"), ("path", txt "origin.place"), ("value", txt "Rome")]]

def placePath : PatchPath := { rep := { attr := "origin".toList, sub := "place".toList }, filter := none, subRep := none }

/-- **C67** is false as stated: a writable sub-attribute of a read-only attribute can be replaced. -/
theorem C67_parent_read_only : ∃ (v : Val) (is : Issues) (a b : Attr),
    PatchA.parse demo (request placeOp) = .ok (v, is) ∧ is.hasIssues = false ∧
    (request placeOp).Operations (placeOp.map Val.toCont) ∧
    (∀ x ∈ placeOp.map Val.toCont, HasPath x placePath ∧ IsUpdate x) ∧ placePath.target demo = some b ∧
    a ∈ demo.attrs.all ∧ a.ParentOf b ∧ a.ReadOnly := by
  obtain ⟨v, is, h1, h2⟩ := accepted_iff (xs := placeOp) (by decide +kernel)
  have hb : (placePath.target demo).map (·.rep) =
      some { schema := "urn:demo".toList, attr := "origin".toList, sub := "place".toList } := by decide +kernel
  obtain ⟨b, hb, hbr⟩ := Option.map_eq_some_iff.mp hb
  have ha : (demo.attrs.all[6]?).map (fun a => (a.rep, a.info.mutability)) =
      some ({ schema := "urn:demo".toList, attr := "origin".toList }, .readOnly) := by decide +kernel
  obtain ⟨a, ha, har⟩ := Option.map_eq_some_iff.mp ha
  injection har with har1 har2
  refine ⟨v, is, a, b, h1, h2, by unfold Val.Operations; decide +kernel, ?_, hb, List.mem_of_getElem? ha, ⟨?_, ?_, ?_, ?_⟩, har2⟩
  · intro x hx
    rw [placeOp, List.map_singleton, List.mem_singleton] at hx
    subst hx
    exact ⟨⟨"origin.place".toList, {}, by decide +kernel, by decide +kernel⟩, Or.inr (by decide +kernel)⟩
  · rw [har1]
  · rw [hbr]; decide
  · rw [har1, hbr]
  · rw [har1, hbr]

def homeOp : List Val := [operation [("op", txt "remove"), ("path", txt "home")]]

def homePath : PatchPath := { rep := { attr := "home".toList }, filter := none, subRep := none }

/-- **C69** is false as stated: a required complex attribute can be removed. -/
theorem C69_complex : ∃ (v : Val) (is : Issues) (a : Attr),
    PatchA.parse demo (request homeOp) = .ok (v, is) ∧ is.hasIssues = false ∧
    (request homeOp).Operations (homeOp.map Val.toCont) ∧
    (∀ x ∈ homeOp.map Val.toCont, HasPath x homePath ∧ ¬ IsUpdate x) ∧ homePath.target demo = some a ∧ a.info.required = true := by
  obtain ⟨v, is, h1, h2⟩ := accepted_iff (xs := homeOp) (by decide +kernel)
  have ha : (homePath.target demo).map (·.info.required) = some true := by decide +kernel
  obtain ⟨a, ha, har⟩ := Option.map_eq_some_iff.mp ha
  refine ⟨v, is, a, h1, h2, by unfold Val.Operations; decide +kernel, ?_, ha, har⟩
  · intro x hx
    rw [homeOp, List.map_singleton, List.mem_singleton] at hx
    subst hx
    refine ⟨⟨"home".toList, {}, by decide +kernel, by decide +kernel⟩, ?_⟩
    rintro (h | h)
    · exact absurd h (by decide +kernel)
    · exact absurd h (by decide +kernel)

end Scim.Examples.PatchOp
