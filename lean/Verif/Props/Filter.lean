import Verif.Lemmas.FilterPrint
import Verif.Lemmas.FilterBal
import Verif.Spec.Schemas

/-! # C52–C60: parsing of filters -/

namespace Scim
variable [PyEnv]

/-! ## C52, C53: outcomes -/

/-- The codes and exceptions left unrestricted. -/
theorem allCodes : FilterCodes (fun _ => True) :=
  { c104 := trivial, c105 := trivial, c106 := trivial, c111 := trivial, c112 := trivial, c113 := trivial, c100 := trivial
    c102 := trivial, c107 := trivial, c109 := trivial, c110 := trivial, c33 := trivial }

theorem parse_out (s : Str) {r : Option Op × Issues} (h : Filter.parse s = .ok r) : Out (fun _ => True) r := by
  have := filterParse_res (E := fun _ => True) allCodes s (fun _ _ _ _ _ _ => trivial)
  rw [h] at this
  exact this

/-- **C52** `Filter.parse` returns `Invalid` exactly when it reports issues. -/
theorem C52_invalid_iff_issues (s : Str) (r : Option Op × Issues) (h : Filter.parse s = .ok r) :
    r.1 = none ↔ r.2.hasIssues = true := by
  rcases parse_out s h with ⟨h1, h2⟩ | ⟨h1, h2⟩
  · rw [h2]
    constructor
    · intro h; rw [h] at h1; cases h1
    · intro h; exact absurd h (by decide)
  · exact ⟨fun _ => h2.has, fun _ => h1⟩

/-- **C52** the issues are then blocking, and stand at the root. -/
theorem C52_issues_block (s : Str) (r : Option Op × Issues) (h : Filter.parse s = .ok r) :
    (r.1 = none ↔ r.2.canProceed = false) ∧ ∀ l, l ≠ [] → r.2.errorsAt l = [] := by
  rcases parse_out s h with ⟨h1, h2⟩ | ⟨h1, h2⟩
  · rw [h2]
    refine ⟨⟨?_, ?_⟩, fun _ _ => rfl⟩
    · intro h; rw [h] at h1; cases h1
    · intro h; exact absurd h (by decide)
  · refine ⟨⟨fun _ => h2.not_proceed, fun _ => h1⟩, ?_⟩
    intro l hl
    rw [List.eq_nil_iff_forall_not_mem]
    intro e he
    exact hl (h2.only l e he).1

/-- **C53** an exception is an `OverflowError`, and then an infinite number stands in the text: after white space, and
up to a place where no word goes on. -/
theorem C53_only_overflow (s : Str) (e : PyErr) (h : Filter.parse s = .error e) :
    e = .overflowError ∧ ∃ x t y b, s = x ++ t ++ y ∧ (∃ c, x.getLast? = some c ∧ isSpace c = true) ∧
      (∀ c d, t.getLast? = some c → y.head? = some d → isWord c = false ∨ isWord d = false) ∧
      parseFloat t = some (.inf b) := by
  have := filterParse_res (E := fun e => e = .overflowError ∧ ∃ x t y b, s = x ++ t ++ y ∧
      (∃ c, x.getLast? = some c ∧ isSpace c = true) ∧
      (∀ c d, t.getLast? = some c → y.head? = some d → isWord c = false ∨ isWord d = false) ∧
      parseFloat t = some (.inf b)) allCodes s (by
    rintro c e - ⟨x, y, hs, hx, hy⟩ hp hv
    obtain ⟨he, b, hb⟩ := parseComparisonValue_error hp hv
    exact ⟨he, x, c, y, b, hs, hx, hy.2, hb⟩)
  rw [h] at this
  exact this

/-! ## C54–C57: texts and filters -/

/-- **C54** the text of a filter parses to that filter. -/
theorem C54_print_parse (num : Prim → Str) (o : Op) (h : o.Printable num) :
    Filter.parse (o.text num) = .ok (some o, {}) := by
  simpa using filterParse_ok (filterText_x (print_text num o h)) Ws.nil Ws.nil

/-- **C54** every text of the grammar, not only the printed one, parses to the filter it denotes. -/
theorem C54_grammar (t w w' : Str) (o : Op) (h : FilterText t o) (hw : Ws w) (hw' : Ws w') :
    Filter.parse (w ++ t ++ w') = .ok (some o, {}) :=
  filterParse_ok (filterText_x h) hw hw'

theorem atom_text {t : Str} {o : Op} (h : Atom Value t o) : FilterText t o :=
  ⟨0, [o], .one _ _ ⟨[o], .one _ _ (.plain _ _ (.inl h)), rfl⟩, rfl⟩

/-- **C55** the value is the text between the quotes, whatever it contains (but for the quote itself). -/
theorem C55_quoted_verbatim (name : Str) (r : AttrRep) (hr : AttrRep.parse name = some r) (hk : NoKeyword name)
    (o : CmpOp) (s : Str) (q : Char) (hq : q = '"' ∨ q = '\'') (hs : q ∉ s) :
    Filter.parse (name ++ ' ' :: o.scim ++ ' ' :: q :: s ++ [q]) = .ok (some (onName r (fun x => .cmp o x (.str s))), {}) := by
  have ht : o.takes (.str s) := by cases o <;> simp [CmpOp.takes]
  have ha := Atom.cmp (V := Value) name [' '] o.scim [' '] (q :: s ++ [q]) r o (.str s) hr hk blank_ws (by simp)
    (by unfold CaseOf; cases o <;> decide) blank_ws (by simp) (.inl ⟨q, s, hq, hs, rfl, rfl⟩) ht
  have := C54_grammar _ [] [] _ (atom_text ha) Ws.nil Ws.nil
  simpa using this

/-- An operand: an attribute expression or a filter in brackets, possibly negated. -/
def Operand : Str → Op → Prop := NotText '(' (fun t o => Atom Value t o ∨ Group FilterText t o)

theorem operands_level {kw : Str} {P : Nat → Str → Op → Prop} (hP : ∀ n m t o, n ≤ m → P n t o → P m t o) {t : Str}
    {os : List Op} (h : Joined kw (fun t o => ∃ n, P n t o) t os) : ∃ n, Joined kw (P n) t os := by
  induction h with
  | one t o h => obtain ⟨n, h⟩ := h; exact ⟨n, .one _ _ h⟩
  | more t w w' t' o os h hw hne hw' hne' hj ih =>
    obtain ⟨n, h⟩ := h
    obtain ⟨m, ih⟩ := ih
    exact ⟨max n m, .more t w w' t' o os (hP _ _ _ _ (Nat.le_max_left n m) h) hw hne hw' hne'
      (ih.mono (fun _ _ h => hP _ _ _ _ (Nat.le_max_right n m) h))⟩

theorem operand_level {t : Str} {o : Op} (h : Operand t o) : ∃ n, NotText '(' (Part n) t o := by
  have : ∀ t o, (Atom Value t o ∨ Group FilterText t o) → ∃ n, Part n t o := by
    rintro t o (h | h)
    · exact ⟨0, .inl h⟩
    · cases h with
      | mk w t w' o hw hw' h =>
        obtain ⟨n, h⟩ := h
        exact ⟨n, .inr (.mk w t w' o hw hw' h)⟩
  cases h with
  | plain _ _ h => obtain ⟨n, h⟩ := this _ _ h; exact ⟨n, .plain _ _ h⟩
  | not w t o h hw hb => obtain ⟨n, h⟩ := this _ _ h; exact ⟨n, .not w t o h hw hb⟩

theorem disj_text {t : Str} {oss : List Op}
    (h : Joined "or".toList (fun t o => ∃ os, Joined "and".toList Operand t os ∧ o = conjOp os) t oss) :
    FilterText t (disjOp oss) := by
  have h1 : Joined "or".toList (fun t o => ∃ n, AndText '(' (Part n) t o) t oss := by
    refine h.mono ?_
    rintro t o ⟨os, hj, rfl⟩
    obtain ⟨n, hn⟩ := operands_level (P := fun n => NotText '(' (Part n))
      (fun n m t o hnm h => h.mono (fun _ _ => Part.le hnm)) (hj.mono (fun _ _ => operand_level))
    exact ⟨n, os, hn, rfl⟩
  obtain ⟨n, hn⟩ := operands_level (P := fun n => AndText '(' (Part n)) (by
    rintro n m t o hnm ⟨os, hj, rfl⟩
    exact ⟨os, hj.mono (fun _ _ h => h.mono (fun _ _ => Part.le hnm)), rfl⟩) h1
  exact ⟨n + 1, nested_part ⟨oss, hn, rfl⟩⟩

/-- **C56** operands joined by `and`, and those joined by `or`, give the disjunction of the conjunctions.  Operands
are attribute expressions and filters in brackets, possibly negated. -/
theorem C56_precedence (t : Str) (oss : List Op)
    (h : Joined "or".toList (fun t o => ∃ os, Joined "and".toList Operand t os ∧ o = conjOp os) t oss) :
    Filter.parse t = .ok (some (disjOp oss), {}) := by
  simpa using C54_grammar t [] [] _ (disj_text h) Ws.nil Ws.nil

/-- The texts of conjunctions joined to a disjunction. -/
def disjText (xss : List (List (Str × Op))) : Str :=
  joinTexts " or ".toList (xss.map (fun xs => joinTexts " and ".toList (xs.map (·.1))))

theorem joined_list {kw : Str} {P : Str → Op → Prop} (xs : List (Str × Op)) (hne : xs ≠ []) (h : ∀ x ∈ xs, P x.1 x.2) :
    Joined kw P (joinTexts (' ' :: kw ++ [' ']) (xs.map (·.1))) (xs.map (·.2)) := by
  induction xs with
  | nil => exact absurd rfl hne
  | cons x xs ih =>
    cases xs with
    | nil => exact .one _ _ (h x (by simp))
    | cons y ys => exact Joined.cons (h x (by simp)) (ih (by simp) (fun z hz => h z (by simp [hz])))

/-- **C56** with single blanks: `x1 and .. and xn or y1 and .. and ym or ..`. -/
theorem C56_precedence_lists (xss : List (List (Str × Op))) (hne : xss ≠ []) (hne' : ∀ xs ∈ xss, xs ≠ [])
    (h : ∀ xs ∈ xss, ∀ x ∈ xs, Operand x.1 x.2) :
    Filter.parse (disjText xss) = .ok (some (disjOp (xss.map (fun xs => conjOp (xs.map (·.2))))), {}) := by
  refine C56_precedence _ _ ?_
  have := joined_list (kw := "or".toList) (P := fun t o => ∃ os, Joined "and".toList Operand t os ∧ o = conjOp os)
    (xss.map (fun xs => (joinTexts " and ".toList (xs.map (·.1)), conjOp (xs.map (·.2))))) (by simpa using hne) (by
      intro x hx
      obtain ⟨xs, hxs, rfl⟩ := List.mem_map.mp hx
      exact ⟨_, joined_list (kw := "and".toList) xs (hne' xs hxs) (h xs hxs), rfl⟩)
  rw [List.map_map, List.map_map] at this
  exact this

/-- **C57** the letter case of the operator does not matter. -/
theorem C57_operator_case (name w n w' t : Str) (r : AttrRep) (o : CmpOp) (v : Prim) (hr : AttrRep.parse name = some r)
    (hk : NoKeyword name) (hw : Ws w) (hne : w ≠ []) (hw' : Ws w') (hne' : w' ≠ []) (hn : CaseOf n o.scim)
    (hv : Value t v) (ht : o.takes v) :
    Filter.parse (name ++ w ++ n ++ w' ++ t) = Filter.parse (name ++ w ++ o.scim ++ w' ++ t) ∧
      Filter.parse (name ++ w ++ n ++ w' ++ t) = .ok (some (onName r (fun x => .cmp o x v)), {}) := by
  have h1 := C54_grammar _ [] [] _ (atom_text (Atom.cmp (V := Value) name w n w' t r o v hr hk hw hne hn hw' hne' hv ht)) Ws.nil Ws.nil
  have h2 := C54_grammar _ [] [] _ (atom_text (Atom.cmp (V := Value) name w o.scim w' t r o v hr hk hw hne
    (by unfold CaseOf; cases o <;> decide) hw' hne' hv ht)) Ws.nil Ws.nil
  simp only [List.nil_append, List.append_nil] at h1 h2
  exact ⟨h1.trans h2.symm, h1⟩

/-- **C57** likewise for `pr`. -/
theorem C57_present_case (name w n : Str) (r : AttrRep) (hr : AttrRep.parse name = some r)
    (hk : NoKeyword name) (hw : Ws w) (hne : w ≠ []) (hn : CaseOf n "pr".toList) :
    Filter.parse (name ++ w ++ n) = Filter.parse (name ++ w ++ "pr".toList) ∧
      Filter.parse (name ++ w ++ n) = .ok (some (onName r .pr), {}) := by
  have h1 := C54_grammar _ [] [] _ (atom_text (Atom.pr (V := Value) name w n r hr hk hw hne hn)) Ws.nil Ws.nil
  have h2 := C54_grammar _ [] [] _ (atom_text (Atom.pr (V := Value) name w "pr".toList r hr hk hw hne
    (by unfold CaseOf; decide))) Ws.nil Ws.nil
  simp only [List.nil_append, List.append_nil] at h1 h2
  exact ⟨h1.trans h2.symm, h1⟩

/-! ## C58: round brackets -/

/-- **C58** in a text without quotes and square brackets, issue 100 is reported exactly when the round brackets are not
balanced; the text is then rejected. -/
theorem C58_unbalanced (s : Str) (h1 : '"' ∉ s) (h2 : '\'' ∉ s) (h3 : '[' ∉ s) (h4 : ']' ∉ s) (r : Option Op × Issues)
    (h : Filter.parse s = .ok r) : (100 ∈ r.2.codesAt [] ↔ ¬ Balanced s) ∧ (¬ Balanced s → r.1 = none) := by
  rw [filterParse_plain h1 h2 h3 h4] at h
  have hm : 100 ∈ r.2.codesAt [] ↔ Has100 r.2 := by simp [Issues.codesAt, Has100]
  rw [hm, balanced_iff]
  cases hp : parseOperator (s.length + 1) [] [] s with
  | error e => rw [hp] at h; cases h
  | ok q =>
    rw [hp] at h
    obtain ⟨o, is⟩ := q
    simp only [Except.ok.injEq] at h
    subst h
    by_cases hb : run 0 s = some 0
    · have hres := parseOperator_res' (K := (· ≠ 100)) (E := fun _ => True)
        ⟨by decide, by decide, by decide, by decide, by decide, by decide⟩ (by decide)
        (G := fun u => '"' ∉ u ∧ run 0 u = some 0) (by
          rintro u ⟨hu, hub⟩
          refine ⟨.inr ((scan_balanced u hu 0 none (by simp)).mpr hub), ?_⟩
          intro p hp
          refine ⟨?_, groups_balanced u hu 0 none (by simp) p hp⟩
          obtain ⟨x, y, hxy, -⟩ := group_tok hp
          intro hm
          exact hu (by rw [hxy]; exact List.mem_append_left _ (List.mem_append_right _ hm))) (strings := []) (cplx := []) (by simp) (s.length + 1) s (by omega)
        (fun _ _ _ _ _ _ => trivial) (by simp) ⟨h1, hb⟩
      rw [hp] at hres
      have hout := (merge_step (K := (· ≠ 100)) St.empty hres id (by simp)).1.st
      refine ⟨⟨?_, fun h => absurd hb h⟩, fun h => absurd hb h⟩
      rintro ⟨e, he, hc⟩
      rcases hout with hout | hout
      · dsimp only at he hout
        rw [hout] at he
        simp at he
      · exact absurd hc (hout.only [] e he).2
    · obtain ⟨g1, g2, g3⟩ := parseOperator_unbalanced h1 hb hp
      dsimp only at g1 g2 g3
      subst g1
      exact ⟨⟨fun _ => hb, fun _ => has100_merge g3 g2⟩, fun _ => by simp⟩

/-! ## C59: groups and complex-attribute filters -/

/-- **C59** (partial: groups and complex-attribute filters do not stand beside each other as operands of the same `and`
or `or`; inside the groups, either may be used.)  Every text of that form parses to the filter it denotes, with all
its parts. -/
theorem C59_no_mix_partial (t w w' : Str) (o : Op) (h : FilterTextX t o) (hw : Ws w) (hw' : Ws w') :
    Filter.parse (w ++ t ++ w') = .ok (some o, {}) :=
  filterParse_ok h hw hw'

/-! ## C60: comparison values -/

/-- A text in quotes, and what is between them.  (The source takes a lone quote for the empty string.) -/
def InQuotes (t s : Str) : Prop := ∃ q, (q = '"' ∨ q = '\'') ∧ (t = q :: s ++ [q] ∨ (t = [q] ∧ s = []))

omit [PyEnv] in
theorem quotes_iff (t : Str) : (startsWith ['"'] t && endsWith ['"'] t || startsWith ['\''] t && endsWith ['\''] t) = true ↔
    ∃ s, InQuotes t s := by
  have key : ∀ q : Char, (startsWith [q] t && endsWith [q] t) = true ↔ ∃ s, (t = q :: s ++ [q] ∨ (t = [q] ∧ s = [])) := by
    intro q
    simp only [startsWith, endsWith, Bool.and_eq_true, List.isPrefixOf_iff_prefix, List.isSuffixOf_iff_suffix]
    constructor
    · rintro ⟨⟨a, ha⟩, b, hb⟩
      cases b with
      | nil => exact ⟨[], .inr ⟨hb.symm, rfl⟩⟩
      | cons c b =>
        rw [← ha] at hb
        simp at hb
        exact ⟨b, .inl (by rw [← ha, ← hb.2]; simp)⟩
    · rintro ⟨s, rfl | ⟨rfl, rfl⟩⟩
      · exact ⟨⟨s ++ [q], rfl⟩, ⟨q :: s, rfl⟩⟩
      · exact ⟨⟨[], rfl⟩, ⟨[], rfl⟩⟩
  rw [Bool.or_eq_true, key, key]
  constructor
  · rintro (⟨s, h⟩ | ⟨s, h⟩)
    · exact ⟨s, '"', .inl rfl, h⟩
    · exact ⟨s, '\'', .inr rfl, h⟩
  · rintro ⟨s, q, rfl | rfl, h⟩
    · exact .inl ⟨s, h⟩
    · exact .inr ⟨s, h⟩

omit [PyEnv] in
theorem inQuotes_inside {t s : Str} (h : InQuotes t s) : (t.drop 1).dropLast = s := by
  obtain ⟨q, -, rfl | ⟨rfl, rfl⟩⟩ := h
  · have e : (q :: s ++ [q]).drop 1 = s ++ [q] := by simp
    rw [e, List.dropLast_concat]
  · rfl

/-- **C60** what a value text denotes: quoted text its inside, `true`, `false` and `null` the constants, other texts
the number that `float` reads: an `int` if it is integral. -/
theorem C60_value (t : Str) (v : Prim) : parseComparisonValue t = .ok v ↔
    (∃ s, InQuotes t s ∧ v = .str s) ∨ (t = "true".toList ∧ v = .bool true) ∨ (t = "false".toList ∧ v = .bool false) ∨
    (t = "null".toList ∧ v = .none) ∨
    (t ≠ "true".toList ∧ t ≠ "false".toList ∧ t ≠ "null".toList ∧ ∃ q, parseFloat t = some (.fin q) ∧ v = numOf q) := by
  unfold parseComparisonValue
  split
  · rename_i hq
    obtain ⟨s, hs⟩ := (quotes_iff t).mp hq
    rw [inQuotes_inside hs]
    have hfl : ∀ f, parseFloat t ≠ some f := by
      intro f hf
      obtain ⟨-, h2, h3⟩ := PyEnv.parseFloat_chars _ _ hf
      obtain ⟨q, rfl | rfl, rfl | ⟨rfl, -⟩⟩ := hs <;> simp at h2 h3
    have hne : t ≠ "true".toList ∧ t ≠ "false".toList ∧ t ≠ "null".toList := by
      obtain ⟨q, rfl | rfl, rfl | ⟨rfl, -⟩⟩ := hs <;> simp
    constructor
    · intro h; cases h; exact .inl ⟨s, hs, rfl⟩
    · rintro (⟨s', hs', rfl⟩ | ⟨rfl, -⟩ | ⟨rfl, -⟩ | ⟨rfl, -⟩ | ⟨-, -, -, q, hf, -⟩)
      · rw [← inQuotes_inside hs, inQuotes_inside hs']
      · exact absurd rfl hne.1
      · exact absurd rfl hne.2.1
      · exact absurd rfl hne.2.2
      · exact absurd hf (hfl _)
  · rename_i hq
    have hnq : ∀ s, ¬ InQuotes t s := fun s hs => hq ((quotes_iff t).mpr ⟨s, hs⟩)
    split
    · rename_i h; subst h
      constructor
      · intro h; cases h; exact .inr (.inr (.inl ⟨rfl, rfl⟩))
      · rintro (⟨s, hs, -⟩ | ⟨h, -⟩ | ⟨-, rfl⟩ | ⟨h, -⟩ | ⟨-, h, -⟩)
        · exact absurd hs (hnq s)
        · exact absurd h (by decide)
        · rfl
        · exact absurd h (by decide)
        · exact absurd rfl h
    split
    · rename_i h; subst h
      constructor
      · intro h; cases h; exact .inr (.inl ⟨rfl, rfl⟩)
      · rintro (⟨s, hs, -⟩ | ⟨-, rfl⟩ | ⟨h, -⟩ | ⟨h, -⟩ | ⟨h, -⟩)
        · exact absurd hs (hnq s)
        · rfl
        · exact absurd h (by decide)
        · exact absurd h (by decide)
        · exact absurd rfl h
    split
    · rename_i h; subst h
      constructor
      · intro h; cases h; exact .inr (.inr (.inr (.inl ⟨rfl, rfl⟩)))
      · rintro (⟨s, hs, -⟩ | ⟨h, -⟩ | ⟨h, -⟩ | ⟨-, rfl⟩ | ⟨-, -, h, -⟩)
        · exact absurd hs (hnq s)
        · exact absurd h (by decide)
        · exact absurd h (by decide)
        · rfl
        · exact absurd rfl h
    rename_i n1 n2 n3
    have simpl : ((∃ s, InQuotes t s ∧ v = .str s) ∨ (t = "true".toList ∧ v = .bool true) ∨
        (t = "false".toList ∧ v = .bool false) ∨ (t = "null".toList ∧ v = .none) ∨
        (t ≠ "true".toList ∧ t ≠ "false".toList ∧ t ≠ "null".toList ∧ ∃ q, parseFloat t = some (.fin q) ∧ v = numOf q)) ↔
        ∃ q, parseFloat t = some (.fin q) ∧ v = numOf q := by
      constructor
      · rintro (⟨s, hs, -⟩ | ⟨h, -⟩ | ⟨h, -⟩ | ⟨h, -⟩ | ⟨-, -, -, h⟩)
        · exact absurd hs (hnq s)
        · exact absurd h n2
        · exact absurd h n1
        · exact absurd h n3
        · exact h
      · exact fun h => .inr (.inr (.inr (.inr ⟨n2, n1, n3, h⟩)))
    rw [simpl]
    cases hf : parseFloat t with
    | none => simp
    | some f =>
      cases f with
      | inf b => simp [intOfFloat]
      | nan => simp [intOfFloat]
      | fin q =>
        simp only [Option.some.injEq, PyFloat.fin.injEq, exists_eq_left']
        simp only [intOfFloat, PyFloat.isIntegral, numOf]
        by_cases hd : q.den = 1
        · simp [hd, eq_comm]
        · simp only [hd, if_false, Bool.false_eq_true, beq_iff_eq]
          exact ⟨fun h => by cases h; rfl, fun h => by rw [h]⟩

/-- **C60** every other text is rejected with `ValueError`, but for infinite numbers. -/
theorem C60_reject (t : Str) (e : PyErr) (h : parseComparisonValue t = .error e) :
    e = .valueError ∨ (e = .overflowError ∧ ∃ b, parseFloat t = some (.inf b)) := by
  unfold parseComparisonValue at h
  split at h
  · cases h
  split at h
  · cases h
  split at h
  · cases h
  split at h
  · cases h
  cases hf : parseFloat t with
  | none => rw [hf] at h; cases h; exact .inl rfl
  | some f =>
    rw [hf] at h
    cases f with
    | inf b => cases h; exact .inr ⟨rfl, b, rfl⟩
    | nan => cases h; exact .inl rfl
    | fin q => cases h

end Scim

namespace Scim.Examples.Filter
local instance filterEnv : PyEnv := asciiEnv

theorem noWord_char {kw s : Str} (c : Char) (h1 : c ∈ kw) (h2 : c ∉ s) : NoWord kw s := by
  intro a b h
  exact absurd (by rw [h]; simp [h1]) h2

theorem noKeyword_chars {s : Str} (h1 : 'o' ∉ s) (h2 : 'd' ∉ s) : NoKeyword s :=
  ⟨noWord_char 'o' (by decide) h1, noWord_char 'd' (by decide) h2, noWord_char 'o' (by decide) h1⟩

/-- A printer of numbers. -/
def exNum : Prim → Str
  | .int 5 => "5".toList
  | _ => []

def exOp : Op :=
  .or [.and [.cmp .co { attr := "name".toList } (.str "x or ( y".toList), .cmp .gt { attr := "age".toList } (.int 5)],
    .not (.cplx { attr := "emails".toList } (.pr { attr := "value".toList })), .cmp .eq { attr := "title".toList } .none]

/-- **C52** -/
example : ((Filter.parse "a pr and".toList).toOption.map (fun r => (r.1, r.2.codesAt []))) = some (none, [104]) := by
  decide +kernel

/-- **C53** infinite numbers do raise. -/
theorem C53_inf_raises : Filter.parse "a pr and (b gt inf)".toList = .error .overflowError := by decide +kernel

/-- **C54** -/
example : String.ofList (exOp.text exNum) =
    "(name co \"x or ( y\" and age gt 5) or (not emails.value pr) or title eq null" := by decide +kernel
theorem exOp_printable : exOp.Printable exNum := by
  have hp : ∀ s r, AttrRep.parse s = some r → r.Proper := fun s r h => ((parse_eq_some_iff s r).1 h).1
  have hb : Bare "5".toList (.int 5) := by
    refine ⟨by decide, by decide, noKeyword_chars (by decide) (by decide), .inr (.inr (.inr ⟨by decide, by decide, by decide, 5, ?_, ?_⟩))⟩
    · decide +kernel
    · decide +kernel
  have hn : Bare "null".toList .none :=
    ⟨by decide, by decide, noKeyword_chars (by decide) (by decide), .inr (.inr (.inl ⟨rfl, rfl⟩))⟩
  refine ⟨by decide, ⟨by decide, ?_, ?_, trivial⟩, ?_, ?_, trivial⟩
  · exact ⟨⟨hp "name".toList _ (by decide +kernel), noKeyword_chars (by decide) (by decide)⟩, rfl, ⟨_, rfl⟩,
      .inl ⟨'"', _, .inl rfl, by decide, rfl, rfl⟩⟩
  · exact ⟨⟨hp "age".toList _ (by decide +kernel), noKeyword_chars (by decide) (by decide)⟩, rfl, .inr (.inl ⟨_, rfl⟩), .inr hb⟩
  · exact ⟨⟨hp "emails.value".toList _ (by decide +kernel), noKeyword_chars (by decide) (by decide)⟩, rfl, rfl, by decide⟩
  · exact ⟨⟨hp "title".toList _ (by decide +kernel), noKeyword_chars (by decide) (by decide)⟩, rfl, trivial, .inr hn⟩

/-- **C55** -/
example : Filter.parse "name eq \"a or (b eq |&PH_1&| [not]\"".toList =
    .ok (some (.cmp .eq { attr := "name".toList } (.str "a or (b eq |&PH_1&| [not]".toList)), {}) := by decide +kernel

/-- **C56** -/
example : Operand "not (a pr)".toList (.not (.pr { attr := "a".toList })) :=
  .not [' '] "(a pr)".toList _ (.inr (.mk [] "a pr".toList [] _ Ws.nil Ws.nil (atom_text
    (.pr "a".toList [' '] "pr".toList { attr := "a".toList } (by decide +kernel) (noKeyword_chars (by decide) (by decide)) blank_ws (by simp)
      (by unfold CaseOf; decide))))) blank_ws (.inl (by simp))
example : Filter.parse (disjText [[("a pr".toList, .pr { attr := "a".toList }), ("not (b pr)".toList, .not (.pr { attr := "b".toList }))],
      [("c pr".toList, .pr { attr := "c".toList })]]) =
    .ok (some (.or [.and [.pr { attr := "a".toList }, .not (.pr { attr := "b".toList })], .pr { attr := "c".toList }]), {}) := by
  decide +kernel
/-- **C56** is about `and`, `or` and `not` in small letters; others are not known. -/
example : ((Filter.parse "a pr AND b pr".toList).toOption.map (fun r => (r.1, r.2.codesAt []))) = some (none, [106]) := by
  decide +kernel

/-- **C57** -/
example : CaseOf "sW".toList CmpOp.sw.scim := by unfold CaseOf; decide

/-- **C58** -/
example : ¬ Balanced "a pr) and (b pr".toList := by
  intro h
  have := h.2 "a pr)".toList ⟨_, rfl⟩
  revert this; decide
example : ((Filter.parse "a pr) and (b pr".toList).toOption.map (fun r => (r.1, r.2.codesAt []))) = some (none, [100, 100]) := by
  decide +kernel

/-- **C59** is false: the group takes the place of the second complex-attribute filter, because both have the same
placeholder. -/
theorem C59_false : ∃ t : Str, t = "e[b pr] and (a pr) and f[c pr]".toList ∧
    Filter.parse t = .ok (some (.and [.cplx { attr := "e".toList } (.pr { attr := "b".toList }),
      .pr { attr := "a".toList }, .pr { attr := "a".toList }]), {}) := ⟨_, rfl, by decide +kernel⟩

theorem atom_name (c : Char) (h : AttrRep.parse [c] = some { attr := [c] }) (h1 : 'o' ≠ c) (h2 : 'd' ≠ c) :
    Atom Value (c :: " pr".toList) (.pr { attr := [c] }) :=
  .pr [c] [' '] "pr".toList { attr := [c] } h (noKeyword_chars (by simpa using h1) (by simpa using h2)) blank_ws (by simp)
    (by unfold CaseOf; decide)

/-- **C59** the hypothesis of the partial theorem is met by complex-attribute filters beside attribute expressions. -/
example : FilterTextX "e[ b pr] and a pr".toList
    (.and [.cplx { attr := "e".toList } (.pr { attr := "b".toList }), .pr { attr := "a".toList }]) := by
  refine ⟨0, [_], .one _ _ ⟨[_, _], .more "e[ b pr]".toList [' '] [' '] "a pr".toList _ _ (.plain _ _ (.inr ?_)) blank_ws (by simp)
    blank_ws (by simp) (.one _ _ (.plain _ _ (.inl ?_))), rfl⟩, rfl⟩
  · refine .mk "e".toList [' '] "b pr".toList [] { attr := "e".toList } 0 _ (by decide +kernel) rfl (by decide) (by decide) blank_ws Ws.nil ?_
    exact ⟨[_], .one _ _ ⟨[_], .one _ _ (.plain _ _ (.inl (atom_name 'b' (by decide +kernel) (by decide) (by decide)))), rfl⟩, rfl⟩
  · exact atom_name 'a' (by decide +kernel) (by decide) (by decide)

/-- **C60** -/
example : parseComparisonValue "12".toList = .ok (.int 12) ∧ parseComparisonValue "1.5".toList = .ok (.flt (.fin (3/2))) ∧
    parseComparisonValue "'a b'".toList = .ok (.str "a b".toList) ∧ parseComparisonValue "True".toList = .error .valueError := by
  decide +kernel

end Scim.Examples.Filter
