import Verif.Lemmas.FilterStr
import Verif.Lemmas.FilterOutcome

/-! Parsing texts in which groups, complex-attribute filters and strings are hidden. -/

namespace Scim
section
variable [PyEnv]

/-- Texts the parser treats as a unit. -/
structure Clean (t : Str) : Prop where
  head : HeadOk t
  last : LastOk t
  kw : NoKeyword t

theorem Clean.ne {t : Str} (h : Clean t) : t ≠ [] := h.head.ne_nil

/-- `kw` is no word of `t`, and `t` has no white space at its ends. -/
structure CleanFor (kw t : Str) : Prop where
  head : HeadOk t
  last : LastOk t
  no : NoWord kw t

theorem Clean.or {t : Str} (h : Clean t) : CleanFor "or".toList t := ⟨h.head, h.last, h.kw.1⟩
theorem Clean.and {t : Str} (h : Clean t) : CleanFor "and".toList t := ⟨h.head, h.last, h.kw.2.1⟩

theorem CleanFor.glue {kw x w y : Str} (hk : IsKw kw) (hx : CleanFor kw x) (hw : Ws w) (hne : w ≠ []) (hy : CleanFor kw y) :
    CleanFor kw (x ++ w ++ y) :=
  ⟨(hx.head.append w).append y, hy.last.append _,
    NoWord.append hk.word (NoWord.append hk.word hx.no (NoWord.ws hk.word hk.ne hw)
      (by have := Gap.ws_right (x := x) hw [] hne; simpa using this)) hy.no (Gap.ws_left hw hne x)⟩

theorem IsKw.clean {kw kw' : Str} (h : IsKw kw') (hn : NoWord kw kw') : CleanFor kw kw' :=
  ⟨h.headOk, lastOk_of_all h.ne (fun c hc => word_not_space (h.word c hc)), hn⟩

/-! ## Operands -/

theorem joined_clean {kw kw' : Str} (hk : IsKw kw) (hk' : IsKw kw') (hn : NoWord kw kw') {P : Str → Op → Prop}
    (hP : ∀ t o, P t o → CleanFor kw t) {t : Str} {os : List Op} (h : Joined kw' P t os) : CleanFor kw t := by
  induction h with
  | one t o h => exact hP t o h
  | more t w w' t' o os h hw hne hw' hne' hj ih =>
    exact ((hP t o h).glue hk hw hne (hk'.clean hn)).glue hk hw' hne' ih

theorem joined_split {kw : Str} (hk : IsKw kw) {P : Str → Op → Prop} (hP : ∀ t o, P t o → CleanFor kw t)
    {f : Str → Issues → PyM (Option Op × Issues)} (hf : ∀ t o, P t o → f t {} = .ok (some o, {}))
    {t : Str} {os : List Op} (h : Joined kw P t os) :
    HeadOk t ∧ os ≠ [] ∧ ∀ pw, ∃ ts, splitKw kw t pw 0 = ts ∧ ts ≠ [] ∧ (∀ x ∈ ts, x ≠ []) ∧
      operandLoop f ts {} = .ok (os.map some, {}) := by
  induction h with
  | one t o h =>
    have hc := hP t o h
    refine ⟨hc.head, by simp, fun pw => ⟨[t], ?_, by simp, by simp [hc.head.ne_nil], ?_⟩⟩
    · have := splitKw_piece hk t [] [] pw (.inr hc.last) hc.no (by simp) (.inl rfl)
      rw [List.append_nil] at this
      rw [this]; simp [splitKw, consTo]
    · simp [operandLoop, hf t o h]
  | more t w w' t' o os h hw hne hw' hne' hj ih =>
    have hc := hP t o h
    obtain ⟨hh, hos, ih⟩ := ih
    obtain ⟨ts, hts, htne, hall, hloop⟩ := ih false
    refine ⟨(((hc.head.append w).append kw).append w').append t', by simp, fun pw =>
      ⟨t :: ts, ?_, by simp, ?_, ?_⟩⟩
    · have e : t ++ w ++ kw ++ w' ++ t' = t ++ (w ++ kw ++ w' ++ t') := by simp
      obtain ⟨c, cs, hcs, hsp⟩ := hw.head hne
      rw [e, splitKw_piece hk t [] _ pw (.inr hc.last) hc.no (by simp)
        (.inr ⟨c, cs ++ kw ++ w' ++ t', by rw [hcs]; simp, hsp⟩), splitKw_sep hk _ hw hne hw' hne' hh, hts]
      simp [consTo]
    · intro x hx
      rcases List.mem_cons.mp hx with rfl | hx
      · exact hc.head.ne_nil
      · exact hall x hx
    · rw [operandLoop, hf t o h]
      dsimp only
      rw [hloop]
      rfl

omit [PyEnv] in
theorem operandIssues_none (ts : List Str) (h : ∀ x ∈ ts, x ≠ []) : operandIssues ts {} = {} := by
  induction ts with
  | nil => rfl
  | cons a ts ih =>
    cases ts with
    | nil => rfl
    | cons b ts =>
      unfold operandIssues
      have ha : a.isEmpty = false := by simp [h a (by simp)]
      have hb : b.isEmpty = false := by simp [h b (by simp)]
      rw [ha, hb]
      exact ih (fun x hx => h x (by simp [hx]))

theorem splitOperands_joined {kw : Str} (hk : IsKw kw) {P : Str → Op → Prop} (hP : ∀ t o, P t o → CleanFor kw t)
    {f : Str → Issues → PyM (Option Op × Issues)} (hf : ∀ t o, P t o → f t {} = .ok (some o, {}))
    {t : Str} {os : List Op} (h : Joined kw P t os) :
    ∃ ts, splitOperands kw t = (ts, {}) ∧ ts ≠ [] ∧ operandLoop f ts {} = .ok (os.map some, {}) := by
  obtain ⟨ts, hts, hne, hall, hl⟩ := (joined_split hk hP hf h).2.2 false
  refine ⟨ts, ?_, hne, hl⟩
  unfold splitOperands
  dsimp only
  rw [hts, operandIssues_none ts hall, List.filter_eq_self.mpr]
  intro x hx
  simp [hall x hx]

omit [PyEnv] in
theorem joinOperands_ok (mk : List Op → Op) (os : List Op) (hne : os ≠ []) :
    joinOperands mk (os.map some) {} = (some (match os with | [o] => o | os => mk os), {}) := by
  unfold joinOperands
  rw [proceed_empty]
  cases os with
  | nil => exact absurd rfl hne
  | cons o os =>
    cases os with
    | nil => rfl
    | cons p os => simp [List.filterMap_map]

theorem parseAnd_ok {ctx : FCtx} {P : Str → Op → Prop} (hP : ∀ t o, P t o → CleanFor "and".toList t)
    (hf : ∀ t o, P t o → parseAndOperand ctx t {} = .ok (some o, {})) {t : Str} {os : List Op}
    (h : Joined "and".toList P t os) : parseAnd ctx t = .ok (some (conjOp os), {}) := by
  obtain ⟨ts, hts, hne, hl⟩ := splitOperands_joined kwAnd hP hf h
  have hos := (joined_split kwAnd hP hf h).2.1
  unfold parseAnd
  rw [hts]
  obtain ⟨a, as, rfl⟩ := List.exists_cons_of_ne_nil hne
  dsimp only
  rw [merge_empty_right, hl]
  dsimp only
  rw [joinOperands_ok _ _ hos]
  cases os with
  | nil => exact absurd rfl hos
  | cons o os => cases os <;> rfl

theorem parseOr_ok {ctx : FCtx} {P : Str → Op → Prop} (hP : ∀ t o, P t o → CleanFor "or".toList t)
    (hf : ∀ t o, P t o → parseOrOperand ctx t {} = .ok (some o, {})) {t : Str} {os : List Op}
    (h : Joined "or".toList P t os) : parseOr ctx t = .ok (some (disjOp os), {}) := by
  obtain ⟨ts, hts, hne, hl⟩ := splitOperands_joined kwOr hP hf h
  have hos := (joined_split kwOr hP hf h).2.1
  unfold parseOr
  rw [hts]
  obtain ⟨a, as, rfl⟩ := List.exists_cons_of_ne_nil hne
  dsimp only
  rw [merge_empty_right, hl]
  dsimp only
  rw [joinOperands_ok _ _ hos]
  cases os with
  | nil => exact absurd rfl hos
  | cons o os => cases os <;> rfl

theorem bar_not_word : isWord '|' = false := not_word_of_ascii _ (by decide) (by decide)

theorem NoWord.or_and : NoWord "or".toList "and".toList := NoWord.of_not_mem (c := 'o') (by decide) (by decide)
theorem NoWord.or_not : NoWord "or".toList "not".toList := NoWord.of_not_mem (c := 'r') (by decide) (by decide)
theorem NoWord.and_not : NoWord "and".toList "not".toList := NoWord.of_not_mem (c := 'a') (by decide) (by decide)

theorem notText_clean {kw : Str} (hk : IsKw kw) (hn : NoWord kw "not".toList) {P : Str → Op → Prop}
    (hP : ∀ t o, P t o → CleanFor kw t) {t : Str} {o : Op} (h : NotText '|' P t o) : CleanFor kw t := by
  cases h with
  | plain t o h => exact hP t o h
  | not w t o h hw hne =>
    have hc := hP t o h
    by_cases hw0 : w = []
    · subst hw0
      have hb := hne.resolve_left (by simp)
      rw [List.append_nil]
      refine ⟨kwNot.headOk.append _, hc.last.append _, NoWord.append hk.word hn hc.no ?_⟩
      intro c d _ hd
      rw [hb] at hd
      cases hd
      exact .inr bar_not_word
    · exact (kwNot.clean hn).glue hk hw hw0 hc

theorem parseAndOperand_ok {ctx : FCtx} {P : Str → Op → Prop} (hP : ∀ t o, P t o → Clean t)
    (hf : ∀ t o, P t o → parseAttrExp ctx t = .ok (some o, {})) {t : Str} {o : Op} (h : NotText '|' P t o) :
    parseAndOperand ctx t {} = .ok (some o, {}) := by
  unfold parseAndOperand
  cases h with
  | plain t o h =>
    have hc := hP t o h
    have := matchKw_none kwNot (a := []) (rest := []) (pw := false) hc.last (by simpa using hc.kw.2.2) (by simp) (.inl rfl)
    rw [List.append_nil] at this
    rw [this]
    dsimp only
    rw [hf t o h]
    dsimp only
    rw [merge_empty_right, proceed_empty]
    rfl
  | not w t o h hw hne =>
    have hc := hP t o h
    have := matchKw_some kwNot (w := []) (w' := w) (next := t) false Ws.nil (.inr rfl) hw ?_ hc.head
    · rw [List.nil_append] at this
      rw [this]
      dsimp only
      rw [if_neg (by simp [hc.ne]), hf t o h]
      dsimp only
      rw [merge_empty_right, proceed_empty]
      rfl
    · intro c hcc
      cases w with
      | nil =>
        rcases hne with h | h
        · exact absurd rfl h
        · rw [List.nil_append, h] at hcc
          cases hcc
          exact bar_not_word
      | cons d w =>
        simp at hcc
        rw [← hcc]
        exact space_not_word (hw d (by simp))

theorem parseFlat_ok {ctx : FCtx} {P : Str → Op → Prop} (hP : ∀ t o, P t o → Clean t)
    (hf : ∀ t o, P t o → parseAttrExp ctx t = .ok (some o, {})) {t : Str} {o : Op} (h : OrText '|' P t o) :
    parseOr ctx t = .ok (some o, {}) ∧ HeadOk t ∧ LastOk t := by
  obtain ⟨os, hj, rfl⟩ := h
  have hA : ∀ t o, AndText '|' P t o → CleanFor "or".toList t := by
    rintro t o ⟨os, hj, rfl⟩
    exact joined_clean kwOr kwAnd NoWord.or_and
      (fun t o h => notText_clean kwOr NoWord.or_not (fun t o h => (hP t o h).or) h) hj
  have hlast : HeadOk t ∧ LastOk t := by
    have : ∀ t os, Joined "or".toList (AndText '|' P) t os → HeadOk t ∧ LastOk t := by
      intro t os h
      induction h with
      | one t o h => exact ⟨(hA t o h).head, (hA t o h).last⟩
      | more t w w' t' o os h hw hne hw' hne' hj ih =>
        exact ⟨((((hA t o h).head.append w).append _).append w').append t', ih.2.append _⟩
    exact this t os hj
  refine ⟨parseOr_ok hA ?_ hj, hlast⟩
  rintro t o ⟨os, hj, rfl⟩
  unfold parseOrOperand
  rw [parseAnd_ok (fun t o h => notText_clean kwAnd NoWord.and_not (fun t o h => (hP t o h).and) h)
    (fun t o h => parseAndOperand_ok hP hf h) hj]
  dsimp only
  rw [merge_empty_right, proceed_empty]
  rfl

/-! ## Attribute expressions -/

theorem nameChars {name : Str} {r : AttrRep} (h : AttrRep.parse name = some r) :
    name ≠ [] ∧ ∀ c ∈ name, isWord c = true ∨ c = ':' ∨ c = '.' ∨ c = '-' ∨ c = '$' := by
  obtain ⟨hp, rfl⟩ := (parse_eq_some_iff name r).mp h
  have hattr : ∀ c ∈ r.attr, isWord c = true ∨ c = ':' ∨ c = '.' ∨ c = '-' ∨ c = '$' := by
    intro c hc
    rcases hp.attr with h | h
    · exact .inl (h.2 c hc)
    · rw [h] at hc
      have : c = '$' ∨ c = 'r' ∨ c = 'e' ∨ c = 'f' := by simpa using hc
      rcases this with rfl | rfl | rfl | rfl
      · simp
      · left; rw [PyEnv.isWord_ascii _ (by decide)]; decide
      · left; rw [PyEnv.isWord_ascii _ (by decide)]; decide
      · left; rw [PyEnv.isWord_ascii _ (by decide)]; decide
  have hsub : ∀ c ∈ r.sub, isWord c = true := by
    intro c hc
    rcases hp.sub with h | h
    · rw [h] at hc; cases hc
    · exact h.2 c hc
  have hschema : ∀ c ∈ r.schema, isWord c = true ∨ c = ':' ∨ c = '.' ∨ c = '-' ∨ c = '$' := by
    intro c hc
    rcases hp.schema with h | ⟨segs, -, hs, he⟩
    · rw [h] at hc; cases hc
    · rw [he] at hc
      clear he
      have : c = ':' ∨ ∃ x ∈ segs, c ∈ x := by
        clear hs
        induction segs with
        | nil => simp [joinWith] at hc
        | cons x segs ih =>
          cases segs with
          | nil => simp [joinWith] at hc; exact .inr ⟨x, by simp, hc⟩
          | cons y segs =>
            rw [joinWith_cons_cons] at hc
            simp only [List.mem_append, List.mem_cons] at hc
            rcases hc with hc | hc | hc
            · exact .inr ⟨x, by simp, hc⟩
            · exact .inl hc
            · rcases ih hc with h | ⟨z, hz, hcz⟩
              · exact .inl h
              · exact .inr ⟨z, by simp [hz], hcz⟩
      rcases this with h | ⟨x, hx, hcx⟩
      · exact .inr (.inl h)
      · rcases (hs x hx).2 c hcx with h | h | h
        · exact .inl h
        · exact .inr (.inr (.inl h))
        · exact .inr (.inr (.inr (.inl h)))
  rw [toStr_eq]
  unfold localStr
  have hne := attrName_ne_nil hp.attr
  refine ⟨?_, ?_⟩
  · split
    · split
      · exact hne
      · simp
    · simp
  · intro c hc
    have hloc : c ∈ (if r.sub.isEmpty then r.attr else r.attr ++ '.' :: r.sub) → 
        isWord c = true ∨ c = ':' ∨ c = '.' ∨ c = '-' ∨ c = '$' := by
      intro h
      split at h
      · exact hattr c h
      · simp only [List.mem_append, List.mem_cons] at h
        rcases h with h | h | h
        · exact hattr c h
        · exact .inr (.inr (.inl h))
        · exact .inl (hsub c h)
    split at hc
    · exact hloc hc
    · simp only [List.mem_append, List.mem_cons] at hc
      rcases hc with h | h | h
      · exact hschema c h
      · exact .inr (.inl h)
      · exact hloc h

/-- Characters that cannot occur in a name. -/
theorem name_not_mem {name : Str} {r : AttrRep} (h : AttrRep.parse name = some r) {c : Char} (h1 : c.toNat < 128)
    (h2 : asciiWord c = false) (h3 : c ≠ ':' ∧ c ≠ '.' ∧ c ≠ '-' ∧ c ≠ '$') : c ∉ name := by
  intro hc
  rcases (nameChars h).2 c hc with h | h | h | h | h
  · rw [not_word_of_ascii c h1 h2] at h; cases h
  · exact h3.1 h
  · exact h3.2.1 h
  · exact h3.2.2.1 h
  · exact h3.2.2.2 h

theorem name_not_space {name : Str} {r : AttrRep} (h : AttrRep.parse name = some r) : ∀ c ∈ name, isSpace c = false := by
  intro c hc
  rcases (nameChars h).2 c hc with h | rfl | rfl | rfl | rfl
  · exact word_not_space h
  all_goals exact not_space_of_ascii _ (by decide) (by decide)

omit [PyEnv] in
theorem asciiLower_inv {c d : Char} (h : asciiLower c = d) (hd : 97 ≤ d.toNat ∧ d.toNat ≤ 122) :
    c.toNat < 128 ∧ ((97 ≤ c.toNat ∧ c.toNat ≤ 122) ∨ (65 ≤ c.toNat ∧ c.toNat ≤ 90)) := by
  unfold asciiLower at h
  split at h
  · omega
  · subst h; omega

omit [PyEnv] in
theorem caseOf_chars {n name : Str} (h : CaseOf n name) (hn : ∀ c ∈ name, 97 ≤ c.toNat ∧ c.toNat ≤ 122) :
    ∀ c ∈ n, c.toNat < 128 ∧ ((97 ≤ c.toNat ∧ c.toNat ≤ 122) ∨ (65 ≤ c.toNat ∧ c.toNat ≤ 90)) := by
  intro c hc
  unfold CaseOf at h
  apply asciiLower_inv (d := asciiLower c) rfl
  apply hn
  rw [← h]
  exact List.mem_map_of_mem hc

theorem caseOf_lower {n name : Str} (h : CaseOf n name) (hn : ∀ c ∈ name, 97 ≤ c.toNat ∧ c.toNat ≤ 122) :
    lower n = name := by
  rw [PyEnv.lower_ascii n (fun c hc => (caseOf_chars h hn c hc).1)]
  exact h

theorem letter_word {c : Char} (h : c.toNat < 128 ∧ ((97 ≤ c.toNat ∧ c.toNat ≤ 122) ∨ (65 ≤ c.toNat ∧ c.toNat ≤ 90))) :
    isWord c = true := by
  rw [PyEnv.isWord_ascii c h.1]
  unfold asciiWord
  simp only [Bool.or_eq_true, Bool.and_eq_true, decide_eq_true_eq]
  omega

omit [PyEnv] in
theorem scim_letters (o : CmpOp) : ∀ c ∈ o.scim, 97 ≤ c.toNat ∧ c.toNat ≤ 122 := by
  cases o <;> decide

omit [PyEnv] in
theorem scim_eq_name (o : CmpOp) : o.scim = o.name := by cases o <;> rfl

omit [PyEnv] in
theorem ofName_scim (o : CmpOp) : CmpOp.ofName o.scim = some o := by cases o <;> decide

omit [PyEnv] in
theorem takes_allows {o : CmpOp} {v : Prim} : o.takes v ↔ o.allows v = true := by
  cases o <;> cases v <;> simp [CmpOp.takes, CmpOp.allows]

/-- The operator names of two letters are no keywords. -/
theorem opName_clean {n name : Str} (h : CaseOf n name) (hn : ∀ c ∈ name, 97 ≤ c.toNat ∧ c.toNat ≤ 122)
    (hl : name.length = 2) (hor : name ≠ "or".toList) : Clean n ∧ ∀ c ∈ n, isWord c = true := by
  have hw : ∀ c ∈ n, isWord c = true := fun c hc => letter_word (caseOf_chars h hn c hc)
  have hlen : n.length = 2 := by rw [← hl, ← h, List.length_map]
  have hne : n ≠ [] := by rintro rfl; simp at hlen
  have hs : ∀ c ∈ n, isSpace c = false := fun c hc => word_not_space (hw c hc)
  refine ⟨⟨headOk_of_all hne hs, lastOk_of_all hne hs, ?_, ?_, ?_⟩, hw⟩
  · intro a b hab
    exfalso
    have := congrArg List.length hab
    simp [hlen] at this
    have ha : a = [] := List.length_eq_zero_iff.mp (by omega)
    have hb : b = [] := List.length_eq_zero_iff.mp (by omega)
    subst ha; subst hb
    apply hor
    rw [← h, hab]
    decide
  · intro a b hab
    exfalso
    have := congrArg List.length hab
    simp [hlen] at this
    omega
  · intro a b hab
    exfalso
    have := congrArg List.length hab
    simp [hlen] at this
    omega

theorem Clean.glue {x w y : Str} (hx : Clean x) (hw : Ws w) (hne : w ≠ []) (hy : Clean y) : Clean (x ++ w ++ y) := by
  have h1 := CleanFor.glue kwOr ⟨hx.head, hx.last, hx.kw.1⟩ hw hne ⟨hy.head, hy.last, hy.kw.1⟩
  have h2 := CleanFor.glue kwAnd ⟨hx.head, hx.last, hx.kw.2.1⟩ hw hne ⟨hy.head, hy.last, hy.kw.2.1⟩
  have h3 := CleanFor.glue kwNot ⟨hx.head, hx.last, hx.kw.2.2⟩ hw hne ⟨hy.head, hy.last, hy.kw.2.2⟩
  exact ⟨h1.head, h1.last, h1.no, h2.no, h3.no⟩

theorem clean_of_all {s : Str} (hne : s ≠ []) (h : ∀ c ∈ s, isSpace c = false) (hk : NoKeyword s) : Clean s :=
  ⟨headOk_of_all hne h, lastOk_of_all hne h, hk⟩

/-- Values in a text whose strings are hidden. -/
def HiddenValue (strings : List (Nat × Str)) (t : Str) (v : Prim) : Prop :=
  (∃ n s, t = placeholder n ∧ aget n strings = some s ∧ Quoted s v) ∨ Bare t v

theorem mark_no_kw {n : Nat} : NoKeyword (placeholder n) := by
  have h : ∀ c : Char, isMark c = false → c ∉ placeholder n := by
    intro c hc hm
    rw [mark_of_mem hm] at hc; cases hc
  exact ⟨NoWord.of_not_mem (c := 'o') (by decide) (h _ (by decide)),
    NoWord.of_not_mem (c := 'a') (by decide) (h _ (by decide)),
    NoWord.of_not_mem (c := 'n') (by decide) (h _ (by decide))⟩

theorem placeholder_clean (n : Nat) : Clean (placeholder n) :=
  clean_of_all (placeholder_ne n) (fun _ hc => mark_not_space (mark_of_mem hc)) mark_no_kw

theorem hiddenValue_chars {strings : List (Nat × Str)} {t : Str} {v : Prim} (h : HiddenValue strings t v) :
    t ≠ [] ∧ (∀ c ∈ t, isSpace c = false) ∧ NoKeyword t := by
  rcases h with ⟨n, s, rfl, -, -⟩ | ⟨h1, h2, h3, -⟩
  · exact ⟨placeholder_ne n, fun _ hc => mark_not_space (mark_of_mem hc), mark_no_kw⟩
  · exact ⟨h1, fun c hc => (h2 c hc).1, h3⟩

theorem quoted_value {s : Str} {v : Prim} (h : Quoted s v) : parseComparisonValue s = .ok v := by
  obtain ⟨q, t, hq, -, rfl, rfl⟩ := h
  unfold parseComparisonValue
  have h1 : startsWith [q] (q :: t ++ [q]) = true := by simp [startsWith]
  have h2 : endsWith [q] (q :: t ++ [q]) = true := by
    unfold endsWith
    rw [List.isSuffixOf_iff_suffix]
    exact ⟨q :: t, rfl⟩
  rw [if_pos]
  · simp
  · rcases hq with rfl | rfl
    · rw [h1, h2]; rfl
    · rw [h1, h2]; simp

theorem bare_value {s : Str} {v : Prim} (h : Bare s v) : parseComparisonValue s = .ok v := by
  obtain ⟨hne, hc, -, hv⟩ := h
  unfold parseComparisonValue
  rw [if_neg]
  · rcases hv with ⟨rfl, rfl⟩ | ⟨rfl, rfl⟩ | ⟨rfl, rfl⟩ | ⟨h1, h2, h3, q, hq, rfl⟩
    · rfl
    · rfl
    · rfl
    · rw [if_neg h2, if_neg h1, if_neg h3, hq]
      unfold numOf
      simp only [intOfFloat, PyFloat.isIntegral]
      by_cases hd : q.den = 1
      · simp [hd]
      · simp [hd]
  · obtain ⟨c, cs, rfl⟩ := List.exists_cons_of_ne_nil hne
    have := (hc c (by simp)).2
    simp only [startsWith, List.isPrefixOf, Bool.and_true, Bool.or_eq_true, Bool.and_eq_true, beq_iff_eq]
    rintro (⟨rfl, -⟩ | ⟨rfl, -⟩) <;> exact this (by decide)

theorem hiddenValue_parse {strings : List (Nat × Str)} {t : Str} {v : Prim} (h : HiddenValue strings t v) :
    parseComparisonValue (encodeStrings strings t) = .ok v := by
  rcases h with ⟨n, s, rfl, hs, hq⟩ | hb
  · rw [encodeStrings_self hs]
    exact quoted_value hq
  · rw [encodeStrings_none]
    · exact bare_value hb
    · intro hm
      exact (hb.2.1 _ hm).2 (by decide)

theorem onAttrRep_onName {name : Str} {r : AttrRep} (h : AttrRep.parse name = some r) (mk : AttrRep → PyM Op) (f : AttrRep → Op)
    (hmk : ∀ x, mk x = .ok (f x)) : onAttrRep r mk = .ok (onName r f) := by
  have hp := ((parse_eq_some_iff name r).mp h).1
  unfold onAttrRep onName
  by_cases hs : r.sub = []
  · rw [if_pos (by simp [hs]), if_pos hs]; exact hmk r
  · rw [if_neg (by simpa using hs), if_neg hs]
    have hsub : WordRun r.sub := hp.sub.resolve_left hs
    have h1 : AttrRep.make r.schema r.attr [] = .ok { schema := r.schema, attr := r.attr } := by
      unfold AttrRep.make
      rw [if_neg (by rw [(isAttrName_iff r.attr).mpr hp.attr]; simp), if_neg (by simp)]
    have h2 : AttrRep.make [] r.sub [] = .ok { attr := r.sub } := by
      unfold AttrRep.make
      rw [if_neg (by rw [(isAttrName_iff r.sub).mpr (.inl hsub)]; simp), if_neg (by simp)]
    rw [h1, h2]
    simp only [hmk]

theorem atom_clean {V : Str → Prim → Prop} (hV : ∀ t v, V t v → Clean t) {t : Str} {o : Op} (h : Atom V t o) : Clean t := by
  cases h with
  | pr name w n r hp hk hw hne hn =>
    exact (clean_of_all (nameChars hp).1 (name_not_space hp) hk).glue hw hne
      (opName_clean hn (by decide) (by decide) (by decide)).1
  | cmp name w n w' t r o v hp hk hw hne hn hw' hne' hv ht =>
    exact ((clean_of_all (nameChars hp).1 (name_not_space hp) hk).glue hw hne
      (opName_clean hn (scim_letters o) (by cases o <;> decide) (by cases o <;> decide)).1).glue hw' hne' (hV t v hv)

theorem hidden_clean {strings : List (Nat × Str)} {t : Str} {v : Prim} (h : HiddenValue strings t v) : Clean t := by
  obtain ⟨h1, h2, h3⟩ := hiddenValue_chars h
  exact clean_of_all h1 h2 h3

theorem lookup_name {ctx : FCtx} {name : Str} {r : AttrRep} (hp : AttrRep.parse name = some r) (x : Str) :
    ctx.lookup (name ++ x) = none := by
  have : parsePlaceholder (name ++ x) = none := by
    unfold parsePlaceholder
    rw [placeholderAt_none]
    obtain ⟨c, cs, rfl⟩ := List.exists_cons_of_ne_nil (nameChars hp).1
    intro h
    simp at h
    exact name_not_mem hp (c := '|') (by decide) (by decide) (by decide) (by rw [h]; simp)
  unfold FCtx.lookup
  rw [this]

theorem parseAttrExp_atom {ctx : FCtx} {t : Str} {o : Op} (h : Atom (HiddenValue ctx.strings) t o) :
    parseAttrExp ctx t = .ok (some o, {}) := by
  have hc := atom_clean (fun t v hv => hidden_clean hv) h
  unfold parseAttrExp
  dsimp only
  rw [strip_self hc.head hc.last]
  cases h with
  | pr name w n r hp hk hw hne hn =>
    have ho := opName_clean hn (by decide) (by decide) (by decide)
    have e : name ++ w ++ n = name ++ (w ++ n) := by simp
    rw [e, lookup_name hp]
    dsimp only
    rw [splitWs_more (name_not_space hp) hw hne ho.1.head, splitWs_one (fun c hc => word_not_space (ho.2 c hc))]
    dsimp only
    unfold parseUnary
    dsimp only
    rw [if_pos (caseOf_lower hn (by decide)), hp]
    dsimp only
    rw [proceed_empty, onAttrRep_onName hp _ .pr (fun x => rfl)]
    rfl
  | cmp name w n w' t r o v hp hk hw hne hn hw' hne' hv ht =>
    have ho := opName_clean hn (scim_letters o) (by cases o <;> decide) (by cases o <;> decide)
    have hvc := hiddenValue_chars hv
    have e : name ++ w ++ n ++ w' ++ t = name ++ (w ++ (n ++ (w' ++ t))) := by simp
    rw [e, lookup_name hp]
    dsimp only
    rw [splitWs_more (name_not_space hp) hw hne (ho.1.head.append _),
      splitWs_more (fun c hc => word_not_space (ho.2 c hc)) hw' hne' (hidden_clean hv).head, splitWs_one hvc.2.1]
    dsimp only
    unfold parseBinary
    rw [caseOf_lower hn (scim_letters o), ofName_scim, hp, hiddenValue_parse hv]
    have hal := takes_allows.mp ht
    simp only [Option.isNone_some, Bool.false_eq_true, if_false, hal, Bool.not_true]
    rw [onAttrRep_onName hp _ (fun x => .cmp o x v) (fun x => by unfold mkCmp; rw [if_pos (allows_supports hal)])]

theorem parseAttrExp_placeholder {ctx : FCtx} {n : Nat} {p : Parsed} (h : ctx.lookup (placeholder n) = some p) :
    parseAttrExp ctx (placeholder n) = .ok (p.op, p.issues) := by
  unfold parseAttrExp
  dsimp only
  rw [strip_self (placeholder_clean n).head (placeholder_clean n).last, h]

end
end Scim
