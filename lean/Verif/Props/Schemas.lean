import Verif.Lemmas.SchemaWF

/-! Properties of schemas: C28–C33, C35 (and the remark of C24 about bound attributes). -/

namespace Scim
open Issues

section
variable [PyEnv]

/-! ### C28 -/

/-- The values an attribute with the `bulkId` validator may produce. -/
theorem C28_id (m : Mode) (rep : AttrRep) (v : Val) (hv : v.isNone = false) :
    (∀ s, v = .str s → Contains bulkIdWord s →
      ∃ is, (bindAttr idAttr rep).process m v = .ok (.invalid, is) ∧ is.Blocks ∧ is.errorsAt [] = [⟨7, []⟩]) ∧
    (∀ s, v = .str s → ¬ Contains bulkIdWord s → (bindAttr idAttr rep).process m v = .ok (v, {})) ∧
    ((∀ s, v ≠ .str s) → ∃ is, (bindAttr idAttr rep).process m v = .ok (.invalid, is) ∧ is.Blocks) := by
  obtain ⟨i, hi, ht, hmu, hcan, hps⟩ : ∃ i, bindAttr idAttr rep = .simple i ∧ i.type = .string ∧ i.multi = false ∧
      i.canonical = none ∧ i.procs m = [bulkIdValidator] :=
    ⟨_, rfl, rfl, rfl, rfl, by cases m <;> rfl⟩
  have hproc : (bindAttr idAttr rep).process m v =
      match stringConv v with
      | .error e => .error e
      | .ok (p, is) =>
        let issues := Issues.empty.merge is
        if issues.hasIssues then .ok (p, issues) else runProcs [bulkIdValidator] p issues := by
    rw [hi, Attr.process, info_process_eq, hv]
    have hc : AttrType.conv m .string v = stringConv v := by cases m <;> rfl
    simp only [Bool.false_eq_true, if_false, AttrInfo.base, hmu, AttrInfo.processOne, ht, hc, hps]
    cases stringConv v with
    | error e => rfl
    | ok o =>
      obtain ⟨item, is⟩ := o
      have : i.isCanonical item = true := by
        unfold AttrInfo.isCanonical; rw [hcan]; cases item <;> rfl
      simp [this]
  refine ⟨?_, ?_, ?_⟩
  · rintro s rfl hc
    refine ⟨Issues.empty.merge (blocking 7), ?_, by unfold Issues.Blocks; decide, by decide⟩
    rw [hproc]
    have : isInfix bulkIdWord s = true := (isInfix_iff _ _).mpr hc
    simp [stringConv, Val.str, runProcs, bulkIdValidator, this, Issues.merge, Issues.hasIssues, Issues.hasIssuesAt]
  · rintro s rfl hc
    rw [hproc]
    have : isInfix bulkIdWord s = false := by
      rw [← Bool.not_eq_true, isInfix_iff]; exact hc
    simp [stringConv, Val.str, runProcs, bulkIdValidator, this, Issues.merge, Issues.hasIssues, Issues.hasIssuesAt]
  · intro hns
    refine ⟨Issues.empty.merge (blocking 2), ?_, by unfold Issues.Blocks; decide⟩
    rw [hproc]
    have : stringConv v = .ok badType := by
      unfold stringConv
      split
      · rename_i s; exact absurd rfl (hns s)
      · rfl
    have hh : (Issues.empty.merge (blocking 2)).hasIssues = true := by decide
    simp [this, badType, hh]

/-- **C28** a resource id never contains the reserved word: success without issues means that the returned value
is null (for null) or a string without `bulkId`. -/
theorem C28_no_bulkId (m : Mode) (rep : AttrRep) (v r : Val) (is : Issues)
    (h : (bindAttr idAttr rep).process m v = .ok (r, is)) (hi : is.hasIssues = false) :
    (v = .null ∧ r = .null) ∨ ∃ s, v = .str s ∧ r = .str s ∧ ¬ Contains bulkIdWord s := by
  cases hv : v.isNone with
  | true =>
    have : v = .null := by
      cases v <;> simp [Val.isNone] at hv
      rename_i p; cases p <;> simp [Val.isNone] at hv; rfl
    subst this
    rw [C25_null] at h; cases h
    exact .inl ⟨rfl, rfl⟩
  | false =>
    obtain ⟨h1, h2, h3⟩ := C28_id m rep v hv
    by_cases hs : ∃ s, v = .str s
    · obtain ⟨s, hs⟩ := hs
      by_cases hc : Contains bulkIdWord s
      · obtain ⟨i, e, hb, _⟩ := h1 s hs hc
        rw [h] at e; cases e
        have := hb.1; rw [hi] at this; cases this
      · have e := h2 s hs hc
        rw [h] at e; cases e
        exact .inr ⟨s, hs, hs, hc⟩
    · obtain ⟨i, e, hb⟩ := h3 (fun s e => hs ⟨s, e⟩)
      rw [h] at e; cases e
      have := hb.1; rw [hi] at this; cases this

/-! ### C29 -/

/-- **C29** the result of `parse` and of a base schema's `dump` holds declared attributes only, in both places
(top level and extensions), every declared attribute of the input processed, and no others. -/
theorem C29_declared (m : Mode) (s : Schema) (hs : s.WF) (data r : Val) (is : Issues)
    (hobj : data.isCont = true ∨ data.isDict = true) (h : s.process m data = .ok (r, is)) :
    TopResult m s data.toCont r :=
  (process_spec hs (by simpa using hobj) h).1

/-- **C29** the same for `ResourceSchema.dump`, which only validates on top. -/
theorem C29_dump (s : Schema) (data r : Val) (is : Issues) (h : s.dump data = .ok (r, is)) :
    ∃ is0, s.process .dump data = .ok (r, is0) := by
  unfold Schema.dump at h
  split at h
  · cases h
  · rename_i r0 is0 hp
    split at h
    · cases h; exact ⟨_, hp⟩
    · split at h
      · cases h; exact ⟨_, hp⟩
      · split at h
        · split at h
          · cases h
          · split at h
            · cases h
            · cases h; exact ⟨_, hp⟩
            · split at h
              · cases h
              · cases h; exact ⟨_, hp⟩
        · cases h; exact ⟨_, hp⟩

/-! ### C30 -/

/-- **C30** bodies that are not objects. -/
theorem C30_not_object (m : Mode) (s : Schema) (v : Val) (hc : v.isCont = false) (hd : v.isDict = false) :
    s.process m v = .ok (.invalid, blocking (if v.isNone then 15 else 2)) := by
  unfold Schema.process
  cases hn : v.isNone <;> simp [hc, hd]

/-- **C30** the same for `dump`; the one issue blocks. -/
theorem C30_dump (s : Schema) (v : Val) (hc : v.isCont = false) (hd : v.isDict = false) :
    ∃ c, (c = if v.isNone then 15 else 2) ∧ s.parse v = .ok (.invalid, blocking c) ∧
      s.dump v = .ok (.invalid, blocking c) ∧ (blocking c).Blocks ∧ (blocking c).errorsAt [] = [⟨c, []⟩] ∧
      ∀ l, l ≠ [] → (blocking c).errorsAt l = [] := by
  refine ⟨_, rfl, C30_not_object .parse s v hc hd, ?_, blocks_blocking _, by rw [errorsAt_blocking]; rfl, ?_⟩
  · unfold Schema.dump
    rw [C30_not_object .dump s v hc hd]
    have hb := (blocks_blocking (if v.isNone then 15 else 2)).2
    simp only [hb]
    cases s.isResource <;> simp
  · intro l hl
    rw [errorsAt_blocking, if_neg (Ne.symm hl)]

/-! ### C31 -/

theorem lowerAll_strs (strs : List Str) : lowerAll (strs.map Val.str) = .ok (strs.map lower) := by
  induction strs with
  | nil => rfl
  | cons s r ih => simp [lowerAll, Val.str] at ih ⊢; rw [ih]

theorem lowerAll_ok {xs : List Val} {l : List Str} (h : lowerAll xs = .ok l) : ∃ strs : List Str, xs = strs.map Val.str := by
  induction xs generalizing l with
  | nil => exact ⟨[], rfl⟩
  | cons x xs ih =>
    unfold lowerAll at h
    split at h
    · rename_i heq; cases heq
    · rename_i s r heq
      cases heq
      split at h
      · rename_i t ht
        obtain ⟨strs, e⟩ := ih ht
        exact ⟨s :: strs, by rw [e]; rfl⟩
      · cases h
    · cases h

/-- The list of issues `schemas` gets, as the English text says it: one 27 if something unknown is listed, a 28 if
the main schema is not listed, a 29 for each known schema that is a key of the data and not listed. -/
def schemaFieldErrors (keys strs : List Str) (main : Str) (known : List Str) : List VErr :=
  (if ∃ x ∈ strs, ∀ u ∈ known, lower x ≠ lower u then [⟨27, []⟩] else []) ++
  (if ∃ x ∈ strs, lower x = lower main then [] else [⟨28, []⟩]) ++
  (keys.filter (fun k => (∃ u ∈ known, lower k = lower u) ∧ ∀ x ∈ strs, lower k ≠ lower x)).map (fun k => ⟨29, k⟩)

omit [PyEnv] in
theorem schemasLoop_spec (main : Str) (known : List Str) (hm : main ∈ known) (ls : List Str) (inc mis : Bool)
    (is : Issues) (hw : is.WF) :
    (schemasLoop main known ls inc mis is).1 = (inc || ls.contains main) ∧
    (schemasLoop main known ls inc mis is).2.WF ∧
    ∀ l, (schemasLoop main known ls inc mis is).2.errorsAt l =
      is.errorsAt l ++ (if l = schemasLoc ∧ mis = false ∧ ∃ x ∈ ls, x ∉ known then [⟨27, []⟩] else []) := by
  induction ls generalizing inc mis is with
  | nil => simp [schemasLoop, hw]
  | cons x r ih =>
    unfold schemasLoop
    split
    · rename_i e
      obtain ⟨h1, h2, h3⟩ := ih true mis is hw
      refine ⟨?_, h2, ?_⟩
      · rw [h1, e]; simp
      · intro l; rw [h3]
        have : (∃ y ∈ x :: r, y ∉ known) ↔ ∃ y ∈ r, y ∉ known := by
          rw [e]; simp [hm]
        simp only [this]
    · rename_i e
      split
      · rename_i hk
        obtain ⟨h1, h2, h3⟩ := ih inc true (is.add ⟨27, []⟩ true schemasLoc) (hw.add _ _ _)
        refine ⟨?_, h2, ?_⟩
        · rw [h1]
          have : main ≠ x := fun e' => e e'.symm
          simp [this]
        · intro l
          rw [h3, errorsAt_add]
          have : ∃ y ∈ x :: r, y ∉ known := ⟨x, by simp, hk.1⟩
          simp only [this, hk.2, Bool.true_eq_false, false_and, and_false, if_false, List.append_nil, and_true, true_and]
          by_cases hl : l = schemasLoc
          · subst hl; simp
          · have : ¬ schemasLoc = l := fun e => hl e.symm
            simp [hl, this]
      · rename_i hk
        obtain ⟨h1, h2, h3⟩ := ih inc mis is hw
        refine ⟨?_, h2, ?_⟩
        · rw [h1]
          have : main ≠ x := fun e' => e e'.symm
          simp [this]
        · intro l
          rw [h3]
          have : (mis = false ∧ ∃ y ∈ x :: r, y ∉ known) ↔ (mis = false ∧ ∃ y ∈ r, y ∉ known) := by
            constructor
            · rintro ⟨hf, y, hy, hn⟩
              rcases List.mem_cons.mp hy with rfl | hy
              · exact absurd ⟨hn, hf⟩ hk
              · exact ⟨hf, y, hy, hn⟩
            · rintro ⟨hf, y, hy, hn⟩
              exact ⟨hf, y, List.mem_cons_of_mem _ hy, hn⟩
          simp only [this]

theorem extKeysLoop_spec (known listed ks : List Str) (is : Issues) (hw : is.WF) :
    (extKeysLoop known listed ks is).WF ∧
    ∀ l, (extKeysLoop known listed ks is).errorsAt l = is.errorsAt l ++
      (if l = schemasLoc then (ks.filter (fun k => lower k ∈ known ∧ lower k ∉ listed)).map (fun k => ⟨29, k⟩) else []) := by
  induction ks generalizing is with
  | nil => simp [extKeysLoop, hw]
  | cons k r ih =>
    unfold extKeysLoop
    by_cases hk : lower k ∈ known ∧ lower k ∉ listed
    · rw [if_pos hk]
      obtain ⟨h1, h2⟩ := ih _ (hw.add ⟨29, k⟩ true schemasLoc)
      refine ⟨h1, ?_⟩
      intro l
      rw [h2, errorsAt_add, List.filter_cons_of_pos (by simpa using hk)]
      by_cases hl : l = schemasLoc
      · subst hl; simp
      · have : ¬ schemasLoc = l := fun e => hl e.symm
        simp [hl, this]
    · rw [if_neg hk]
      obtain ⟨h1, h2⟩ := ih is hw
      refine ⟨h1, ?_⟩
      intro l
      rw [h2, List.filter_cons_of_neg (by simpa using hk)]

theorem validate_wf {data : Val} {xs : List Val} {main : Str} {known : List Str} (hm : main ∈ known) {is : Issues}
    (h : validateSchemasField data xs main known = .ok is) :
    ∃ strs : List Str, xs = strs.map Val.str ∧ is.WF ∧
      is.errorsAt schemasLoc = schemaFieldErrors data.keys strs main known ∧
      ∀ l, l ≠ schemasLoc → is.errorsAt l = [] := by
  unfold validateSchemasField at h
  split at h
  · cases h
  · rename_i listed hl
    obtain ⟨strs, rfl⟩ := lowerAll_ok hl
    rw [lowerAll_strs] at hl
    cases hl
    refine ⟨strs, rfl, ?_⟩
    have hmm : lower main ∈ known.map lower := List.mem_map_of_mem hm
    obtain ⟨a1, a2, a3⟩ := schemasLoop_spec (lower main) (known.map lower) hmm (strs.map lower) false false {} WF.empty
    dsimp only at h
    generalize schemasLoop (lower main) (known.map lower) (strs.map lower) false false {} = o at h a1 a2 a3
    obtain ⟨inc, is1⟩ := o
    simp only at a1 a2 a3 h
    have hinc : inc = true ↔ ∃ x ∈ strs, lower x = lower main := by
      rw [a1]; simp [List.mem_map]
    have hw2 : (if inc = true then is1 else is1.add ⟨28, []⟩ true schemasLoc).WF := by
      split
      · exact a2
      · exact a2.add _ _ _
    obtain ⟨b1, b2⟩ := extKeysLoop_spec (known.map lower) (strs.map lower) data.dictKeys _ hw2
    cases h
    refine ⟨b1, ?_, ?_⟩
    · rw [b2, if_pos rfl]
      have e1 : (if inc = true then is1 else is1.add ⟨28, []⟩ true schemasLoc).errorsAt schemasLoc =
          is1.errorsAt schemasLoc ++ (if inc = true then [] else [⟨28, []⟩]) := by
        split
        · simp
        · rw [errorsAt_add]; simp
      rw [e1, a3]
      unfold schemaFieldErrors
      simp only [errorsAt_empty, List.nil_append, true_and]
      have e2 : (∃ x ∈ strs.map lower, x ∉ known.map lower) ↔ ∃ x ∈ strs, ∀ u ∈ known, lower x ≠ lower u := by
        simp only [List.mem_map, not_exists, not_and]
        constructor
        · rintro ⟨_, ⟨x, hx, rfl⟩, hn⟩
          exact ⟨x, hx, fun u hu e => hn u hu e.symm⟩
        · rintro ⟨x, hx, hn⟩
          exact ⟨_, ⟨x, hx, rfl⟩, fun u hu e => hn u hu e.symm⟩
      have e3 : (inc = true) = (∃ x ∈ strs, lower x = lower main) := propext hinc
      have e4 : data.dictKeys = data.keys := by cases data <;> rfl
      have e5 : ∀ k, (lower k ∈ known.map lower ∧ lower k ∉ strs.map lower) ↔
          ((∃ u ∈ known, lower k = lower u) ∧ ∀ x ∈ strs, lower k ≠ lower x) := by
        intro k
        simp only [List.mem_map, not_exists, not_and]
        constructor
        · rintro ⟨⟨u, hu, e⟩, hn⟩
          exact ⟨⟨u, hu, e.symm⟩, fun x hx e => hn x hx e.symm⟩
        · rintro ⟨⟨u, hu, e⟩, hn⟩
          exact ⟨⟨u, hu, e.symm⟩, fun x hx e => hn x hx e.symm⟩
      rw [e4]
      congr 1
      · congr 1
        · simp only [e2]
        · simp only [e3]
      · congr 1
        apply List.filter_congr
        intro k _
        simp only [e5]
    · intro l hl
      rw [b2, if_neg hl]
      have e1 : (if inc = true then is1 else is1.add ⟨28, []⟩ true schemasLoc).errorsAt l = is1.errorsAt l := by
        split
        · rfl
        · rw [errorsAt_add, if_neg (fun e => hl e.symm)]; simp
      rw [e1, a3]
      simp [hl]

/-- **C31** `validate_schemas_field` reports exactly what the English text says, and nothing elsewhere. -/
theorem C31_field (data : Val) (xs : List Val) (main : Str) (known : List Str) (hm : main ∈ known) (is : Issues)
    (h : validateSchemasField data xs main known = .ok is) :
    ∃ strs : List Str, xs = strs.map Val.str ∧ is.errorsAt schemasLoc = schemaFieldErrors data.keys strs main known ∧
      ∀ l, l ≠ schemasLoc → is.errorsAt l = [] := by
  obtain ⟨strs, h1, _, h2, h3⟩ := validate_wf hm h
  exact ⟨strs, h1, h2, h3⟩

/-- **C31** it accepts every list of strings. -/
theorem C31_total (data : Val) (strs : List Str) (main : Str) (known : List Str) :
    ∃ is, validateSchemasField data (strs.map Val.str) main known = .ok is := by
  unfold validateSchemasField
  rw [lowerAll_strs]
  exact ⟨_, rfl⟩

/-- Processing of the bound `schemas` attribute. -/
theorem schemas_process (m : Mode) (rep : AttrRep) (strs : List Str) :
    (bindAttr schemasAttr rep).process m (.list (strs.map Val.str)) = .ok (.list (strs.map Val.str), {}) := by
  obtain ⟨i, hi, ht, hmu, hcan, hps⟩ : ∃ i, bindAttr schemasAttr rep = .simple i ∧ i.type = .uriRef ∧ i.multi = true ∧
      i.canonical = none ∧ i.procs m = [] :=
    ⟨_, rfl, rfl, rfl, rfl, by cases m <;> rfl⟩
  have hitems : ∀ k, i.processItems m k (strs.map Val.str) {} = .ok (strs.map Val.str, {}) := by
    induction strs with
    | nil => intro k; rfl
    | cons s r ih =>
      intro k
      rw [List.map_cons, AttrInfo.processItems]
      have hc : AttrType.conv m .uriRef (.str s) = .ok (.str s, {}) := by cases m <;> rfl
      have : i.processOne m [.idx k] (.str s) {} = .ok (.str s, {}) := by
        have hcc : i.isCanonical (.str s) = true := by unfold AttrInfo.isCanonical; rw [hcan]
        simp [AttrInfo.processOne, ht, hc, hcc, Issues.merge]
      rw [this]
      simp only [ih]
  rw [hi, Attr.process, info_process_eq]
  simp only [Val.isNone, Bool.false_eq_true, if_false, AttrInfo.base, hmu, if_true, hitems 0, hps, runProcs, ite_self]

omit [PyEnv] in
/-- Without issues at a location and its prefixes processing may go on. -/
theorem canProceed_of_noErrors {is : Issues} (hw : is.WF) {l : Loc} (h : ∀ q, q <+: l → is.errorsAt q = []) :
    is.canProceed [l] = true := by
  simp only [Issues.canProceed, List.all_cons, List.all_nil, Bool.and_true]
  rw [canProceedAt_iff]
  intro q hq
  cases hs : aget q is.stop with
  | none => rfl
  | some c => exact absurd (h q hq) (hw.stop_errors (by rw [hs]; rfl))

omit [PyEnv] in
theorem prefix_schemasLoc {q : Loc} (h : q <+: schemasLoc) : q = [] ∨ q = schemasLoc := by
  unfold schemasLoc at h ⊢
  cases q with
  | nil => exact .inl rfl
  | cons x r =>
    rw [List.cons_prefix_cons] at h
    rw [h.1, List.prefix_nil.mp h.2]; exact .inr rfl

/-- **C31** for whole resources: when the input lists schemas (strings), the issues at `schemas` are exactly those of
the English text, about the keys of the result. -/
theorem C31_process (m : Mode) (s : Schema) (hs : s.WF) (hsane : SaneAll s.attrs.top) (data r : Val) (is : Issues)
    (hobj : data.isCont = true ∨ data.isDict = true) (h : s.process m data = .ok (r, is)) (strs : List Str)
    (hne : strs ≠ []) (hx : data.toCont.getItem { schema := s.urn, attr := "schemas".toList } = .ok (.list (strs.map Val.str))) :
    is.errorsAt schemasLoc = schemaFieldErrors r.keys strs s.urn s.schemas := by
  obtain ⟨htr, _, is1, hi1, sv, hsv, hcase⟩ := process_spec hs (by simpa using hobj) h
  obtain ⟨e1, e2, e3⟩ := mergeTop_errors (m := m) hs.compat hsane data.toCont
  have hpr := schemas_process m { schema := s.urn, attr := "schemas".toList } strs
  have hmem := hs.schemas_mem
  have hget : data.toCont.getItem (bindAttr schemasAttr { schema := s.urn, attr := "schemas".toList }).rep =
      .ok (.list (strs.map Val.str)) := by rw [bindAttr_rep]; exact hx
  have e1' := e1 _ hmem _ _ _ hget rfl hpr []
  have hloc : (bindAttr schemasAttr { schema := s.urn, attr := "schemas".toList }).topLoc = schemasLoc := by
    simp [Attr.topLoc, bindAttr_rep, schemasLoc]
  rw [hloc, List.append_nil] at e1'
  generalize hM : mergeAll {} ((s.attrs.top.filterMap (topOut m data.toCont)).map (fun o => (o.1.topLoc, o.2.2))) = M at *
  have hi1e : ∀ l, is1.errorsAt l = M.errorsAt l := by
    intro l; rw [hi1, errorsAt_merge e3]; simp
  have hw1 : is1.WF := by rw [hi1]; exact WF.empty.merge e3 []
  have hnil : M.errorsAt [] = [] := by
    apply Classical.byContradiction
    intro hne
    obtain ⟨a, _, _, _, _, l', _, _, _, e, _⟩ := e2 [] hne
    exact topLoc_ne a (List.append_eq_nil_iff.mp e.symm).1
  have hcp : is1.canProceed [schemasLoc] = true := by
    apply canProceed_of_noErrors hw1
    intro q hq
    rw [hi1e]
    rcases prefix_schemasLoc hq with rfl | rfl
    · exact hnil
    · exact e1'
  obtain ⟨y, i, hp', hy⟩ := htr.present _ hmem _ hget rfl
  rw [hpr] at hp'; cases hp'
  rw [bindAttr_rep, hsv] at hy
  cases hy
  have htruthy : (Val.list (strs.map Val.str)).truthy = true := by
    cases strs with
    | nil => exact absurd rfl hne
    | cons a b => rfl
  rcases hcase with ⟨_, xs, is2, e, hv, rfl⟩ | ⟨hf, _⟩
  · cases e
    obtain ⟨strs', es, hw2, h1, _⟩ := validate_wf (by simp [Schema.schemas]) hv
    have : strs = strs' := by
      have hinj : ∀ a b : List Str, a.map Val.str = b.map Val.str → a = b := by
        intro a
        induction a with
        | nil => intro b hb; cases b with
          | nil => rfl
          | cons => simp at hb
        | cons x xs ih => intro b hb; cases b with
          | nil => simp at hb
          | cons y ys =>
            simp only [List.map_cons, List.cons.injEq] at hb
            have := hb.1
            simp only [Val.str, Val.prim.injEq, Prim.str.injEq] at this
            rw [this, ih ys hb.2]
      exact hinj _ _ es
    subst this
    rw [errorsAt_merge hw2, hi1e, e1']
    simp [h1]
  · rw [hcp, htruthy] at hf; cases hf

/-! ### C82: where issues stand -/

theorem topLoc_reportLoc (a : Attr) : a.topLoc = a.reportLoc := by
  unfold Attr.topLoc Attr.reportLoc
  split <;> rfl

/-- **C82** the issues of a resource are exactly those of its attributes, each under the location of the attribute,
apart from what is said about the list of schemas. -/
theorem C82_locations (m : Mode) (s : Schema) (hs : s.WF) (hsane : SaneAll s.attrs.top) (data r : Val) (is : Issues)
    (hobj : data.isCont = true ∨ data.isDict = true) (h : s.process m data = .ok (r, is)) :
    (∀ a ∈ s.attrs.top, ∀ x, data.toCont.getItem a.rep = .ok x → x.isMissing = false →
      ∃ y i, a.process m x = .ok (y, i) ∧
        ∀ l, a.reportLoc ++ l ≠ [.name "schemas".toList] → is.errorsAt (a.reportLoc ++ l) = i.errorsAt l) ∧
    (∀ l, l ≠ [.name "schemas".toList] → is.errorsAt l ≠ [] →
      ∃ a ∈ s.attrs.top, ∃ x y i l', data.toCont.getItem a.rep = .ok x ∧ x.isMissing = false ∧
        a.process m x = .ok (y, i) ∧ l = a.reportLoc ++ l' ∧ i.errorsAt l' ≠ []) := by
  obtain ⟨htr, _, is1, hi1, sv, hsv, hcase⟩ := process_spec hs (by simpa using hobj) h
  obtain ⟨e1, e2, e3⟩ := mergeTop_errors (m := m) hs.compat hsane data.toCont
  have hi1e : ∀ l, is1.errorsAt l = _ := fun l => by rw [hi1, errorsAt_merge e3]
  simp only [errorsAt_empty, List.nil_append, List.nil_prefix, if_true, List.length_nil, List.drop_zero] at hi1e
  have hsame : ∀ l, l ≠ [.name "schemas".toList] → is.errorsAt l = is1.errorsAt l := by
    intro l hl
    rcases hcase with ⟨_, xs, is2, _, hvf, rfl⟩ | ⟨_, rfl⟩
    · obtain ⟨strs, _, hw2, _, h2⟩ := validate_wf (by simp [Schema.schemas]) hvf
      rw [errorsAt_merge hw2]
      simp [h2 l hl]
    · rfl
  refine ⟨?_, ?_⟩
  · intro a ha x hx hm
    obtain ⟨y, i, hp, -⟩ := htr.present a ha x hx hm
    refine ⟨y, i, hp, ?_⟩
    intro l hl
    rw [hsame _ hl, hi1e, ← topLoc_reportLoc]
    exact e1 a ha x y i hx hm hp l
  · intro l hl hne
    rw [hsame l hl, hi1e] at hne
    obtain ⟨a, ha, x, y, i, l', h1, h2, h3, h4, h5⟩ := e2 l hne
    exact ⟨a, ha, x, y, i, l', h1, h2, h3, by rw [h4, topLoc_reportLoc], h5⟩

/-! ### C32 -/

theorem eqv_iff (a r : AttrRep) : a.eqv r = true ↔
    (a.schema = [] ∨ r.schema = [] ∨ lower a.schema = lower r.schema) ∧ a.SameName r := by
  unfold AttrRep.eqv AttrRep.SameName
  by_cases h1 : a.schema = []
  · simp [h1]
  · by_cases h2 : r.schema = []
    · simp [h1, h2]
    · simp [h1, h2, List.isEmpty_iff, and_assoc]

/-- **C32** an attribute is found under every spelling of its full name. -/
theorem C32_full (s : Schema) (hs : s.WF) (a : Attr) (ha : a ∈ s.attrs.all) (r : AttrRep)
    (h1 : lower r.schema = lower a.rep.schema) (h2 : a.rep.SameName r) : s.attrs.get r = some a := by
  unfold Attributes.get findAttr
  rw [List.find?_eq_some_iff_append]
  refine ⟨by rw [eqv_iff]; exact ⟨.inr (.inr h1.symm), h2⟩, ?_⟩
  obtain ⟨as, bs, hl⟩ := List.append_of_mem ha
  refine ⟨as, bs, hl, ?_⟩
  intro b hb
  have hbm : b ∈ s.attrs.all := by rw [hl]; simp [hb]
  simp only [Bool.not_eq_true', ← Bool.not_eq_true]
  rw [eqv_iff]
  rintro ⟨e1, e2⟩
  have hb0 : b.rep.schema ≠ [] := hs.urnNe _ (hs.allSchema b hbm)
  have hr0 : r.schema ≠ [] := by
    intro e
    rw [e, (PyEnv.lower_eq_nil []).2 rfl] at h1
    exact hs.urnNe _ (hs.allSchema a ha) ((PyEnv.lower_eq_nil _).1 h1.symm)
  have e1' : lower b.rep.schema = lower r.schema := by
    rcases e1 with e | e | e
    · exact absurd e hb0
    · exact absurd e hr0
    · exact e
  have hn := hs.names
  rw [hl, List.Nodup, List.pairwise_map, List.pairwise_append] at hn
  exact hn.2.2 b hb a (by simp) (by rw [e1', h1, e2.1, h2.1, e2.2, h2.2])

/-- **C32** an attribute of the schema itself is found without schema prefix, too. -/
theorem C32_short (s : Schema) (hs : s.WF) (a : Attr) (ha : a ∈ s.attrs.all) (he : a.rep.ext = false) (r : AttrRep)
    (h1 : r.schema = []) (h2 : a.rep.SameName r) : s.attrs.get r = some a := by
  unfold Attributes.get findAttr
  rw [List.find?_eq_some_iff_append]
  refine ⟨by rw [eqv_iff]; exact ⟨.inr (.inl h1), h2⟩, ?_⟩
  obtain ⟨cs, es, hl, hcs, hes⟩ := hs.order
  have hac : a ∈ cs := by
    rw [hl] at ha
    rcases List.mem_append.mp ha with h | h
    · exact h
    · have := (hes a h).1; rw [he] at this; cases this
  obtain ⟨as, bs, hl'⟩ := List.append_of_mem hac
  refine ⟨as, bs ++ es, by rw [hl, hl']; simp, ?_⟩
  intro b hb
  have hbc : b ∈ cs := by rw [hl']; simp [hb]
  simp only [Bool.not_eq_true', ← Bool.not_eq_true]
  rw [eqv_iff]
  rintro ⟨_, e2⟩
  have hn := hs.names
  rw [hl, hl', List.append_assoc, List.Nodup, List.pairwise_map, List.pairwise_append] at hn
  exact hn.2.2 b hb a (by simp) (by rw [(hcs b hbc).2, (hcs a hac).2, e2.1, h2.1, e2.2, h2.2])

/-- **C32** an attribute of an extension is found without schema prefix when no other schema of the resource
declares the name. -/
theorem C32_short_extension (s : Schema) (a : Attr) (ha : a ∈ s.attrs.all) (r : AttrRep)
    (h1 : r.schema = []) (h2 : a.rep.SameName r)
    (hu : ∀ b ∈ s.attrs.all, b.rep.SameName r → b = a) : s.attrs.get r = some a := by
  unfold Attributes.get findAttr
  cases hf : s.attrs.all.find? (fun b => b.rep.eqv r) with
  | none =>
    rw [List.find?_eq_none] at hf
    exact absurd ((eqv_iff _ _).mpr ⟨.inr (.inl h1), h2⟩) (hf a ha)
  | some b =>
    have hb := List.find?_some hf
    have hbm := List.mem_of_find?_eq_some hf
    rw [eqv_iff] at hb
    rw [hu b hbm hb.2]

/-- **C32** nothing is found for undeclared names, and what is found has the name asked for. -/
theorem C32_undeclared (s : Schema) (r : AttrRep) :
    (s.attrs.get r = none ↔ ∀ a ∈ s.attrs.all, ¬ ((a.rep.schema = [] ∨ r.schema = [] ∨ lower a.rep.schema = lower r.schema) ∧
      a.rep.SameName r)) ∧
    ∀ a, s.attrs.get r = some a → a ∈ s.attrs.all ∧
      (a.rep.schema = [] ∨ r.schema = [] ∨ lower a.rep.schema = lower r.schema) ∧ a.rep.SameName r := by
  unfold Attributes.get findAttr
  refine ⟨?_, ?_⟩
  · rw [List.find?_eq_none]
    simp only [eqv_iff]
  · intro a ha
    have h2 := List.find?_some ha
    exact ⟨List.mem_of_find?_eq_some ha, (eqv_iff _ _).mp h2⟩

/-! ### C33 -/

/-- **C33** a repeated lower-case URN is refused, and nothing else is. -/
theorem C33_repeated (s : Schema) (e : Extension) (req : Bool) :
    (∃ u ∈ s.schemas, lower u = e.urn) ↔ s.withExtension e req = .error .valueError := by
  unfold Schema.withExtension
  split
  · rename_i h
    simpa using h
  · rename_i h
    simpa using h

/-- **C33** after `with_extension` the attributes are the previous ones followed by the extension's. -/
theorem C33_kept (s s' : Schema) (e : Extension) (req : Bool) (hs : s.WF) (hd : Declarations e.attrs.all)
    (hnew : lower e.urn ∉ s.schemas.map lower) (h : s.withExtension e req = .ok s') :
    (∀ r a, s.attrs.get r = some a → s'.attrs.get r = some a) ∧ s'.urn = s.urn ∧
    s'.schemas = s.schemas ++ [e.urn] := by
  obtain ⟨h1, h2⟩ := bind_facts (urn := e.urn) (ext := true) hd
  have hx : e.urn ∉ s.exts.map (·.1) := by
    intro hm
    apply hnew
    rw [List.mem_map]
    exact ⟨e.urn, List.mem_cons_of_mem _ hm, rfl⟩
  unfold Schema.withExtension at h
  split at h
  · cases h
  · cases h
    refine ⟨?_, rfl, by simp [Schema.schemas, aset_append_new _ _ _ hx]⟩
    intro r a ha
    have hall : (Attributes.ofList (s.attrs.all ++ e.attrs.all.flatMap (bindWithSubs e.urn true))).all =
        s.attrs.all ++ e.attrs.all.flatMap (bindWithSubs e.urn true) := by
      apply ofList_all
      apply keys_of_lnames
      rw [List.map_append, List.nodup_append]
      refine ⟨hs.names, h2, ?_⟩
      intro x hx' y hy exy
      subst exy
      rw [List.mem_map] at hx' hy
      obtain ⟨a, ha, rfl⟩ := hx'
      obtain ⟨b, hb, e'⟩ := hy
      simp only [Attr.lname, Prod.mk.injEq] at e'
      apply hnew
      rw [← (h1 b hb).1, e'.1]
      exact List.mem_map_of_mem (hs.allSchema a ha)
    unfold Attributes.get findAttr at ha ⊢
    rw [hall, List.find?_append, ha]
    rfl

/-- **C33** each attribute of the extension, and each sub-attribute, is found under the extension's URN in any
spelling, marked as extension attribute. -/
theorem C33_added (s s' : Schema) (e : Extension) (req : Bool) (hs : s.WF) (hd : Declarations e.attrs.all)
    (hu : e.urn ≠ []) (hnew : lower e.urn ∉ s.schemas.map lower)
    (hc : ∀ d ∈ e.attrs.all, ∀ u ∈ e.urn :: s.schemas, lower d.rep.attr ≠ lower u)
    (hc' : ∀ a ∈ s.attrs.all, lower a.rep.attr ≠ lower e.urn)
    (h : s.withExtension e req = .ok s') :
    (∀ d ∈ e.attrs.all, ∀ r : AttrRep, lower r.schema = lower e.urn → lower r.attr = lower d.rep.attr → r.sub = [] →
      s'.attrs.get r = some (bindAttr d { schema := e.urn, attr := d.rep.attr, ext := true })) ∧
    (∀ d ∈ e.attrs.all, ∀ q ∈ d.subs, ∀ r : AttrRep, lower r.schema = lower e.urn → lower r.attr = lower d.rep.attr →
      lower r.sub = lower q.rep.attr →
      s'.attrs.get r = some (bindAttr q { schema := e.urn, attr := d.rep.attr, sub := q.rep.attr, ext := true })) := by
  have hwf := withExtension_wf hs h hd hu hnew hc hc'
  have hall : ∀ a ∈ e.attrs.all.flatMap (bindWithSubs e.urn true), a ∈ s'.attrs.all := by
    intro a ha
    obtain ⟨h1, h2⟩ := bind_facts (urn := e.urn) (ext := true) hd
    unfold Schema.withExtension at h
    split at h
    · cases h
    · cases h
      rw [ofList_all]
      · exact List.mem_append_right _ ha
      · apply keys_of_lnames
        rw [List.map_append, List.nodup_append]
        refine ⟨hs.names, h2, ?_⟩
        intro x hx' y hy exy
        subst exy
        rw [List.mem_map] at hx' hy
        obtain ⟨a, ha, rfl⟩ := hx'
        obtain ⟨b, hb, e'⟩ := hy
        simp only [Attr.lname, Prod.mk.injEq] at e'
        apply hnew
        rw [← (h1 b hb).1, e'.1]
        exact List.mem_map_of_mem (hs.allSchema a ha)
  refine ⟨?_, ?_⟩
  · intro d hdm r h1 h2 h3
    refine C32_full s' hwf _ (hall _ ?_) r (by rw [bindAttr_rep]; exact h1) ?_
    · rw [List.mem_flatMap]; exact ⟨d, hdm, mem_bindWithSubs.mpr (.inl rfl)⟩
    · rw [bindAttr_rep]; exact ⟨h2.symm, by rw [h3]⟩
  · intro d hdm q hq r h1 h2 h3
    refine C32_full s' hwf _ (hall _ ?_) r (by rw [bindAttr_rep]; exact h1) ?_
    · rw [List.mem_flatMap]; exact ⟨d, hdm, mem_bindWithSubs.mpr (.inr ⟨q, hq, rfl⟩)⟩
    · rw [bindAttr_rep]; exact ⟨h2.symm, h3.symm⟩

/-! ### C35 -/

/-- A simple attribute without post-processors and canonical values reports nothing when it accepts. -/
theorem simple_clean {m : Mode} {i : AttrInfo} (ht : i.type ≠ .unknown) (hmu : i.multi = false) (hp : i.procs m = [])
    (hc : i.canonical = none) {x y : Val} {is : Issues} (h : (Attr.simple i).process m x = .ok (y, is))
    (hy : y ≠ .invalid) : is = {} := by
  rw [Attr.process, info_process_eq] at h
  split at h
  · cases h; rfl
  · simp only [AttrInfo.base, hmu, Bool.false_eq_true, if_false, AttrInfo.processOne, hp] at h
    cases hcv : i.type.conv m x with
    | error e => rw [hcv] at h; cases h
    | ok o =>
      obtain ⟨z, j⟩ := o
      have hcan : i.isCanonical z = true := by
        unfold AttrInfo.isCanonical; rw [hc]; cases z <;> rfl
      rw [hcv] at h
      simp only [hcan, Bool.not_true, Bool.false_and, Bool.false_eq_true, if_false, runProcs, ite_self] at h
      rcases conv_dichotomy ht hcv with ⟨rfl, _⟩ | ⟨rfl, _⟩
      · cases h; exact absurd rfl hy
      · cases h; rfl

theorem metaSubs_plain : PlainSubs metaSubs := by
  refine ⟨?_, ?_, ?_⟩
  · simp [metaSubs, AttrRep.Plain, mkAttr, Attr.rep, Attr.info]
  · simp [metaSubs, mkAttr, Attr.rep, Attr.info]
  · have hl : metaSubs.map (fun s => lower s.rep.attr) =
        (metaSubs.map (fun s => s.rep.attr)).map (fun x => x.map asciiLower) := by
      rw [List.map_map]
      apply List.map_congr_left
      intro a ha
      have : ∀ c ∈ a.rep.attr, c.toNat < 128 := by
        have : ∀ b ∈ metaSubs.map (fun s => s.rep.attr), ∀ c ∈ b, c.toNat < 128 := by
          simp only [metaSubs, mkAttr, Attr.rep, Attr.info, List.map_cons, List.map_nil]
          decide
        exact this _ (List.mem_map_of_mem ha)
      simp only [Function.comp]
      exact PyEnv.lower_ascii _ this
    rw [hl]
    simp only [metaSubs, mkAttr, Attr.rep, Attr.info, List.map_cons, List.map_nil]
    decide

theorem metaSubs_sane : SaneAll metaSubs := by
  simp [metaSubs, SaneAll, mkAttr, Attr.Sane]

/-- The bound `meta` attribute of a resource schema. -/
def boundMeta (urn : Str) : Attr := bindAttr metaAttr { schema := urn, attr := "meta".toList }

theorem boundMeta_rep (urn : Str) : (boundMeta urn).rep = { schema := urn, attr := "meta".toList } := by
  unfold boundMeta; rw [bindAttr_rep]

theorem metaAttr_eq : ∃ i, metaAttr = .complex i metaSubs [] [] ∧ i.type = .complex ∧ i.multi = false ∧
    i.validateCanon = false ∧ i.parsers = [] ∧ i.dumpers = [] ∧ i.rep.attr = "meta".toList := by
  refine ⟨{ rep := { attr := "meta".toList }, type := .complex, issuer := .server, mutability := .readOnly },
    ?_, rfl, rfl, rfl, rfl, rfl, rfl⟩
  unfold metaAttr mkComplex
  rw [ofList_all metaSubs_plain.keys]
  rfl

/-- What `meta` makes of its value. -/
theorem meta_process (m : Mode) (rep : AttrRep) (x y : Val) (i : Issues)
    (h : (bindAttr metaAttr rep).process m x = .ok (y, i)) :
    (x.isCont = false → y = .null ∨ y = .invalid) ∧
    (x.isCont = true → processSubs m metaSubs [] x .emptyCont {} = .ok (y, i)) := by
  obtain ⟨j, hj, ht, hm, hv, hp1, hp2, _⟩ := metaAttr_eq
  have hb : bindAttr metaAttr rep = .complex { j with rep := rep, description := [] } metaSubs [] [] := by rw [hj]; rfl
  rw [hb, complex_process_eq] at h
  have hd : ComplexDecl m { j with rep := rep, description := [] } := ⟨ht, hv, by cases m; exact hp1; exact hp2⟩
  generalize hk : ({ j with rep := rep, description := [] } : AttrInfo) = k at h hd
  have hkm : k.multi = false := by rw [← hk]; exact hm
  rw [info_process_eq] at h
  have hone := complex_one hd x
  unfold AttrInfo.one at hone
  simp only [AttrInfo.base, hkm, Bool.false_eq_true, if_false, hone, hd.procs, runProcs, ite_self] at h
  refine ⟨?_, ?_⟩
  · intro hx
    rw [hx] at h
    by_cases hn : x.isNone = true
    · simp only [hn, if_true, Bool.or_true] at h
      cases h
      left
      cases x <;> simp [Val.isNone] at hn
      rename_i p; cases p <;> simp [Val.isNone] at hn; rfl
    · have hcp : (Issues.empty.merge (blocking 2)).canProceed = false := by decide
      simp only [hn, if_false, Bool.false_eq_true, hcp, Bool.not_false, Bool.true_or, if_true] at h
      cases h
      exact .inr rfl
  · intro hx
    have hn : x.isNone = false := by cases x <;> simp [Val.isCont] at hx <;> rfl
    have htc : x.toCont = x := by cases x <;> simp [Val.isCont] at hx <;> rfl
    have hcp : Issues.canProceed {} = true := by decide
    simp only [hx, hn, if_true, Bool.false_eq_true, if_false, hcp, Bool.not_true, Bool.or_false, complexBody, hkm,
      Attr.cprocs, htc] at h
    cases hps : processSubs m metaSubs [] x .emptyCont {} with
    | error e => rw [hps] at h; cases h
    | ok o =>
      obtain ⟨y', i'⟩ := o
      rw [hps] at h
      cases m <;> simp only [runProcs, ite_self] at h <;> cases h <;> rfl

/-- The declaration of `meta.resourceType`. -/
def resourceTypeAttr : Attr :=
  mkAttr { rep := { attr := "resourceType".toList }, type := .string, caseExact := true, issuer := .server,
           mutability := .readOnly }

theorem resourceTypeAttr_mem : resourceTypeAttr ∈ metaSubs := by simp [resourceTypeAttr, metaSubs]

omit [PyEnv] in
theorem prefix_two {x y : LKey} {q : Loc} (h : q <+: [x, y]) : q = [] ∨ q = [x] ∨ q = [x, y] := by
  cases q with
  | nil => exact .inl rfl
  | cons a r =>
    rw [List.cons_prefix_cons] at h
    obtain ⟨rfl, h⟩ := h
    cases r with
    | nil => exact .inr (.inl rfl)
    | cons b t =>
      rw [List.cons_prefix_cons] at h
      obtain ⟨rfl, h⟩ := h
      rw [List.prefix_nil.mp h]
      exact .inr (.inr rfl)

theorem boundMeta_mem {s : Schema} (hs : s.WF) (hmeta : ∀ a ∈ bindWithSubs s.urn false metaAttr, a ∈ s.attrs.all) :
    boundMeta s.urn ∈ s.attrs.top := by
  obtain ⟨j, hj, _, _, _, _, _, hrep⟩ := metaAttr_eq
  have hname : metaAttr.rep.attr = "meta".toList := by rw [hj]; exact hrep
  rw [hs.topAll, List.mem_filter, boundMeta_rep]
  refine ⟨hmeta _ ?_, by simp⟩
  rw [mem_bindWithSubs, hname]
  left
  unfold boundMeta
  rfl

theorem getSub_resourceType {s : Schema} (hs : s.WF) (hmeta : ∀ a ∈ bindWithSubs s.urn false metaAttr, a ∈ s.attrs.all) :
    ∃ b, s.attrs.getSub "meta".toList "resourcetype".toList = some b ∧
      b.rep = { schema := s.urn, attr := "meta".toList, sub := "resourceType".toList } := by
  obtain ⟨j, hj, _, _, _, _, _, hrep⟩ := metaAttr_eq
  have hname : metaAttr.rep.attr = "meta".toList := by rw [hj]; exact hrep
  have hsubs : metaAttr.subs = metaSubs := by rw [hj]; rfl
  have hm : bindAttr resourceTypeAttr { schema := s.urn, attr := "meta".toList, sub := "resourceType".toList } ∈ s.attrs.all := by
    apply hmeta
    rw [mem_bindWithSubs]
    refine .inr ⟨resourceTypeAttr, by rw [hsubs]; exact resourceTypeAttr_mem, ?_⟩
    rw [hname]; rfl
  have hlow : lower "resourceType".toList = lower "resourcetype".toList := by
    rw [PyEnv.lower_ascii _ (by decide), PyEnv.lower_ascii _ (by decide)]; decide
  refine ⟨_, ?_, bindAttr_rep resourceTypeAttr _⟩
  unfold Attributes.getSub
  rw [List.find?_eq_some_iff_append]
  refine ⟨by simp only [bindAttr_rep]; simpa using hlow, ?_⟩
  obtain ⟨cs, es, hl, hcs, hes⟩ := hs.order
  have hac : bindAttr resourceTypeAttr { schema := s.urn, attr := "meta".toList, sub := "resourceType".toList } ∈ cs := by
    rw [hl] at hm
    rcases List.mem_append.mp hm with h | h
    · exact h
    · have := (hes _ h).1; rw [bindAttr_rep] at this; cases this
  obtain ⟨as, bs, hl'⟩ := List.append_of_mem hac
  refine ⟨as, bs ++ es, by rw [hl, hl']; simp, ?_⟩
  intro b hb
  have hbc : b ∈ cs := by rw [hl']; simp [hb]
  have hn := hs.names
  rw [hl, hl', List.append_assoc, List.Nodup, List.pairwise_map, List.pairwise_append] at hn
  have := hn.2.2 b hb _ List.mem_cons_self
  simp only [bindAttr_rep, (hcs b hbc).2, ne_eq, Prod.mk.injEq, true_and] at this
  simp only [Bool.not_eq_true', Bool.and_eq_false_iff, beq_eq_false_iff_ne]
  rw [← hlow]
  by_cases e : lower b.rep.attr = lower "meta".toList
  · exact .inr (fun e' => this ⟨e, e'⟩)
  · exact .inl e

/-- Names made of ASCII letters are attribute names. -/
theorem isAttrName_ascii (s : Str) (hne : s ≠ []) (h : ∀ c ∈ s, c.toNat < 128 ∧ asciiWord c = true) :
    isAttrName s = true := by
  have h1 : s.all isWord = true := by
    rw [List.all_eq_true]
    intro c hc
    rw [PyEnv.isWord_ascii c (h c hc).1]; exact (h c hc).2
  have h2 : s.isEmpty = false := by cases s <;> simp at hne ⊢
  simp only [isAttrName, isWordRun, h1, h2, Bool.not_false, Bool.and_self, Bool.true_or]

theorem isAttrName_resourceType : isAttrName "resourceType".toList = true :=
  isAttrName_ascii _ (by decide) (by decide)

/-- Reading a sub-attribute of a container is reading it. -/
theorem getX_true_getItem {y : Val} (hy : y.isCont = true) {a : Str} (ha : isAttrName a = true) :
    Val.getX true y { attr := a } = y.getItem { attr := a } := by
  cases y <;> simp [Val.isCont] at hy
  simp only [Val.getItem, Val.getX, ha, Bool.not_true, Bool.and_false, Bool.false_and]

theorem resourceTypeAttr_rep : resourceTypeAttr.rep = { attr := "resourceType".toList } := rfl

theorem pyEq_prim (p q : Prim) : (Val.prim p).pyEq (.prim q) = .ok (p.pyEq q) := by
  unfold Val.pyEq
  generalize (Val.prim p).size + (Val.prim q).size = n
  rw [Val.pyEqN]

theorem pyEq_null_str (n : Str) : Val.null.pyEq (.str n) = .ok false := pyEq_prim _ _

theorem pyEq_str_str (t n : Str) : (Val.str t).pyEq (.str n) = .ok (t == n) := pyEq_prim _ _

/-- **C35** when the dumped resource carries `meta.resourceType` (a string, or null), an issue is reported at
`meta.resourceType` exactly when the value differs from the schema's name. -/
theorem C35_resource_type (s : Schema) (hs : s.WF) (hsane : SaneAll s.attrs.top) (hres : s.isResource = true)
    (hmeta : ∀ a ∈ bindWithSubs s.urn false metaAttr, a ∈ s.attrs.all)
    (data r : Val) (is : Issues) (hobj : data.isCont = true ∨ data.isDict = true) (h : s.dump data = .ok (r, is))
    (v : Val) (hv : v = .null ∨ ∃ t, v = .str t)
    (ht : r.getItem { schema := s.urn, attr := "meta".toList, sub := "resourceType".toList } = .ok v) :
    is.errorsAt resourceTypeLoc = if v = .str s.name then [] else [⟨17, []⟩] := by
  obtain ⟨is0, hproc⟩ := C29_dump s data r is h
  obtain ⟨htr, ⟨d, lc, rfl, hnk⟩, is1, hi1, sv, hsv, hcase⟩ := process_spec hs (by simpa using hobj) hproc
  obtain ⟨e1, e2, e3⟩ := mergeTop_errors (m := .dump) hs.compat hsane data.toCont
  generalize hM : mergeAll {} ((s.attrs.top.filterMap (topOut .dump data.toCont)).map (fun o => (o.1.topLoc, o.2.2))) = M at *
  have hvm : v ≠ .missing ∧ v ≠ .invalid := by rcases hv with rfl | ⟨t, rfl⟩ <;> simp [Val.null, Val.str]
  -- the meta attribute
  have hmtop := boundMeta_mem hs hmeta
  have hmrep : (boundMeta s.urn).rep = { schema := s.urn, attr := "meta".toList } := boundMeta_rep _
  rw [getItem_noKey (r := { schema := s.urn, attr := "meta".toList, sub := "resourceType".toList }) hnk] at ht
  dsimp only at ht
  obtain ⟨x, hx⟩ := htr.read _ hmtop
  by_cases hxm : x = .missing
  · subst hxm
    have hab := htr.absent _ hmtop (by rw [hmrep]) hx
    rw [hmrep, getItem_noKey (r := { schema := s.urn, attr := "meta".toList }) hnk] at hab
    dsimp only at hab
    cases hk : aget (lower "meta".toList) lc with
    | none => rw [hk] at ht; cases ht; exact absurd rfl hvm.1
    | some k =>
      rw [hk] at ht hab
      dsimp only at ht hab
      cases hd : aget k d with
      | none => rw [hd] at ht; cases ht
      | some w =>
        rw [hd] at ht hab
        simp only [List.isEmpty_nil, if_true] at hab
        cases hab
        simp [Val.getX] at ht
        exact absurd ht.symm hvm.1
  · have hxm' : x.isMissing = false := by cases x <;> first | exact absurd rfl hxm | rfl
    obtain ⟨y, i, hpr, hget⟩ := htr.present _ hmtop x hx hxm'
    rw [hmrep, getItem_noKey (r := { schema := s.urn, attr := "meta".toList }) hnk] at hget
    dsimp only at hget
    -- reading the sub-attribute of the stored value
    have hsub : Val.getX true y { attr := "resourceType".toList } = .ok v ∨ (v = .missing) := by
      cases hk : aget (lower "meta".toList) lc with
      | none => rw [hk] at ht; cases ht; exact .inr rfl
      | some k =>
        rw [hk] at ht hget
        dsimp only at ht hget
        cases hd : aget k d with
        | none => rw [hd] at ht; cases ht
        | some w =>
          rw [hd] at ht hget
          simp only [List.isEmpty_nil, if_true] at hget
          cases hget
          left
          simpa using ht
    have hsub := hsub.resolve_right hvm.1
    obtain ⟨hp1, hp2⟩ := meta_process .dump _ x y i hpr
    have hxc : x.isCont = true := by
      cases hxc : x.isCont with
      | true => rfl
      | false =>
        exfalso
        rcases hp1 hxc with rfl | rfl <;> simp [Val.getX, Val.null] at hsub <;> exact hvm.1 hsub.symm
    have hps := hp2 hxc
    have hsr := subResult_of_processSubs metaSubs_plain hps
    obtain ⟨er1, er2, _⟩ := processSubs_errors metaSubs_plain metaSubs_sane hps
    have hyget : y.getItem resourceTypeAttr.rep = .ok v := by
      rw [resourceTypeAttr_rep, ← getX_true_getItem hsr.cont isAttrName_resourceType]
      exact hsub
    obtain ⟨z, hz⟩ := hsr.read _ resourceTypeAttr_mem
    have hzm : z.isMissing = false := by
      cases hzm : z.isMissing with
      | false => rfl
      | true =>
        have : z = .missing := by cases z <;> simp [Val.isMissing] at hzm; rfl
        subst this
        have := hsr.absent _ resourceTypeAttr_mem hz
        rw [hyget] at this
        cases this
        exact absurd rfl hvm.1
    obtain ⟨w, iw, hpw, hw⟩ := hsr.present _ resourceTypeAttr_mem z hz hzm
    rw [hyget] at hw; cases hw
    have hiw : iw = {} := simple_clean (by simp) rfl rfl rfl hpw hvm.2
    subst hiw
    have hirt : i.errorsAt [.name "resourceType".toList] = [] := by
      have := er1 _ resourceTypeAttr_mem z v {} hz hzm hpw []
      simpa [resourceTypeAttr, mkAttr, Attr.rep, Attr.info, errorsAt_empty] using this
    have hinil : i.errorsAt [] = [] := by
      have := er2 [] (by intro _ _ _ e; simp at e)
      simpa [errorsAt_empty] using this
    -- the issues of the loop
    have hmloc : (boundMeta s.urn).topLoc = [.name "meta".toList] := by
      simp [Attr.topLoc, hmrep]
    have hM1 := e1 _ hmtop x y i hx hxm' hpr
    rw [hmloc] at hM1
    have hMnil : M.errorsAt [] = [] := by
      apply Classical.byContradiction
      intro hne
      obtain ⟨a, _, _, _, _, l', _, _, _, e, _⟩ := e2 [] hne
      exact topLoc_ne a (List.append_eq_nil_iff.mp e.symm).1
    have hMerr : ∀ q, q <+: resourceTypeLoc → M.errorsAt q = [] := by
      intro q hq
      rcases prefix_two hq with rfl | rfl | rfl
      · exact hMnil
      · have := hM1 []
        rw [hinil] at this; simpa using this
      · have := hM1 [.name "resourceType".toList]
        rw [hirt] at this; simpa using this
    have hi1e : ∀ l, is1.errorsAt l = M.errorsAt l := by
      intro l; rw [hi1, errorsAt_merge e3]; simp
    have hw1 : is1.WF := by rw [hi1]; exact WF.empty.merge e3 []
    have hw0 : is0.WF ∧ ∀ q, q <+: resourceTypeLoc → is0.errorsAt q = [] := by
      rcases hcase with ⟨_, xs, is2, _, hvf, rfl⟩ | ⟨_, rfl⟩
      · obtain ⟨strs, _, hw2, _, h2⟩ := validate_wf (by simp [Schema.schemas]) hvf
        refine ⟨hw1.merge hw2 [], ?_⟩
        intro q hq
        rw [errorsAt_merge hw2, hi1e, hMerr q hq]
        have : q ≠ schemasLoc := by
          rintro rfl
          rcases prefix_two hq with e | e | e
          · exact absurd e (by decide)
          · exact absurd e (by decide)
          · exact absurd e (by decide)
        simp [h2 q this]
      · exact ⟨hw1, fun q hq => by rw [hi1e]; exact hMerr q hq⟩
    have hcp0 : is0.canProceed = true := by
      rw [canProceed_nil_iff]
      cases hst : aget [] is0.stop with
      | none => rfl
      | some c => exact absurd (hw0.2 [] (List.nil_prefix)) (hw0.1.stop_errors (by rw [hst]; rfl))
    have hcp1 := canProceed_of_noErrors hw0.1 hw0.2
    obtain ⟨b, hb, hbr⟩ := getSub_resourceType hs hmeta
    have hgetr : (Val.cont d lc).getItem b.rep = .ok v := by
      rw [hbr, getItem_noKey (r := { schema := s.urn, attr := "meta".toList, sub := "resourceType".toList }) hnk]; exact ht
    unfold Schema.dump at h
    rw [hproc] at h
    simp only [hres, Bool.not_true, Bool.false_eq_true, if_false, hcp0, hcp1, if_true, hb, hgetr] at h
    have hpy : v.pyEq (.str s.name) = .ok (decide (v = .str s.name)) := by
      rcases hv with rfl | ⟨t, rfl⟩
      · rw [pyEq_null_str]; simp [Val.null, Val.str]
      · rw [pyEq_str_str]; simp only [Val.str, Val.prim.injEq, Prim.str.injEq]; by_cases h : t = s.name <;> simp [h]
    have hfin : (match validateResourceType v s.name with
        | .error e => (.error e : PyM (Val × Issues))
        | .ok is2 => .ok (.cont d lc, is0.merge is2)) = .ok (.cont d lc, is) := by
      rcases hv with rfl | ⟨t, rfl⟩ <;> exact h
    unfold validateResourceType at hfin
    rw [hpy] at hfin
    simp only at hfin
    cases hfin
    by_cases hvs : v = .str s.name
    · simp only [hvs, decide_true, if_true]
      rw [errorsAt_merge WF.empty, hw0.2 _ (List.prefix_refl _)]
      simp [errorsAt_empty]
    · simp only [hvs, decide_false, Bool.false_eq_true, if_false]
      rw [errorsAt_merge (WF.empty.add _ _ _), hw0.2 _ (List.prefix_refl _)]
      simp [errorsAt_add, errorsAt_empty]

end
end Scim
