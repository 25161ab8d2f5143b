import Verif.Lemmas.FilterHide

/-! The parser on texts of the grammar. -/

namespace Scim
section
variable [PyEnv]

/-! ## Characters -/

/-- Neither a quote nor a bracket. -/
def Quiet (c : Char) : Prop := c ∉ "\"'()[]".toList

instance (c : Char) : Decidable (Quiet c) := inferInstanceAs (Decidable (c ∉ _))

/-- Only quotes and brackets are significant. -/
def Stage.Quiets (S : Stage) : Prop := ∀ c, Quiet c → S.sig c = false

omit [PyEnv] in
theorem quiet_iff {c : Char} : Quiet c ↔ c ≠ '"' ∧ c ≠ '\'' ∧ c ≠ '(' ∧ c ≠ ')' ∧ c ≠ '[' ∧ c ≠ ']' := by
  simp [Quiet]

theorem quiet_word {c : Char} (h : isWord c = true) : Quiet c := by
  rw [quiet_iff]
  refine ⟨?_, ?_, ?_, ?_, ?_, ?_⟩ <;> rintro rfl <;>
    rw [not_word_of_ascii _ (by decide) (by decide)] at h <;> cases h

theorem quiet_space {c : Char} (h : isSpace c = true) : Quiet c := by
  rw [quiet_iff]
  refine ⟨?_, ?_, ?_, ?_, ?_, ?_⟩ <;> rintro rfl <;>
    rw [not_space_of_ascii _ (by decide) (by decide)] at h <;> cases h

theorem quiet_name {name : Str} {r : AttrRep} (h : AttrRep.parse name = some r) : ∀ c ∈ name, Quiet c := by
  intro c hc
  rcases (nameChars h).2 c hc with h | rfl | rfl | rfl | rfl
  · exact quiet_word h
  all_goals decide

theorem quiet_letter {c : Char} (h : c.toNat < 128 ∧ ((97 ≤ c.toNat ∧ c.toNat ≤ 122) ∨ (65 ≤ c.toNat ∧ c.toNat ≤ 90))) :
    Quiet c := quiet_word (letter_word h)

omit [PyEnv] in
theorem quiet_mark {c : Char} (h : isMark c = true) : Quiet c := by
  rw [quiet_iff]
  refine ⟨?_, ?_, ?_, ?_, ?_, ?_⟩ <;> rintro rfl <;> revert h <;> decide

theorem quiet_bare {t : Str} {v : Prim} (h : Bare t v) : ∀ c ∈ t, Quiet c := by
  intro c hc
  have := (h.2.1 c hc).2
  rw [quiet_iff]
  simp at this
  simp [this]

theorem quiet_hidden {strings : List (Nat × Str)} {t : Str} {v : Prim} (h : HiddenValue strings t v) : ∀ c ∈ t, Quiet c := by
  rcases h with ⟨n, s, rfl, -, -⟩ | h
  · exact fun c hc => quiet_mark (mark_of_mem hc)
  · exact quiet_bare h

/-- All characters are quiet. -/
def AllQuiet (t : Str) : Prop := ∀ c ∈ t, Quiet c

omit [PyEnv] in
theorem AllQuiet.append {x y : Str} (hx : AllQuiet x) (hy : AllQuiet y) : AllQuiet (x ++ y) := by
  intro c hc
  rcases List.mem_append.mp hc with hc | hc
  · exact hx c hc
  · exact hy c hc

theorem Ws.quiet {w : Str} (h : Ws w) : AllQuiet w := fun c hc => quiet_space (h c hc)

theorem caseOf_quiet {n name : Str} (h : CaseOf n name) (hn : ∀ c ∈ name, 97 ≤ c.toNat ∧ c.toNat ≤ 122) : AllQuiet n :=
  fun c hc => quiet_letter (caseOf_chars h hn c hc)

theorem atom_quiet {strings : List (Nat × Str)} {t : Str} {o : Op} (h : Atom (HiddenValue strings) t o) : AllQuiet t := by
  cases h with
  | pr name w n r hp hk hw hne hn =>
    exact ((AllQuiet.append (quiet_name hp) hw.quiet)).append (caseOf_quiet hn (by decide))
  | cmp name w n w' t r o v hp hk hw hne hn hw' hne' hv ht =>
    exact (((AllQuiet.append (quiet_name hp) hw.quiet).append (caseOf_quiet hn (scim_letters o))).append hw'.quiet).append
      (quiet_hidden hv)

theorem atom_ends {strings : List (Nat × Str)} {t : Str} {o : Op} (h : Atom (HiddenValue strings) t o) :
    HeadOk t ∧ LastOk t :=
  have := atom_clean (fun _ _ hv => hidden_clean hv) h
  ⟨this.head, this.last⟩

theorem Stage.Quiets.plain {S : Stage} (h : S.Quiets) (hg : ∀ c, isSpace c = true → S.glue c = false) : S.Plain :=
  ⟨fun c hc => ⟨h c (quiet_space hc), hg c hc⟩, fun c hc => h c (quiet_letter ⟨by omega, .inl hc⟩)⟩

/-! ## Strings -/

/-- Hiding strings. -/
def S1 : Stage where
  sig c := c = '"' || c = '\''
  glue _ := false
  itemOk s := ∃ v, Quoted s v

omit [PyEnv] in
theorem S1_quiets : S1.Quiets := by
  intro c hc
  rw [quiet_iff] at hc
  simp [S1, hc]

theorem S1_plain : S1.Plain := S1_quiets.plain (fun _ _ => rfl)

omit [PyEnv] in
theorem S1_good : S1.Good where
  item t h := by
    obtain ⟨v, q, s, hq, hs, rfl, -⟩ := h
    refine ⟨[], q, s ++ [q], rfl, ?_, by simp⟩
    rcases hq with rfl | rfl <;> decide
  mark c h := S1_quiets c (quiet_mark h)

omit [PyEnv] in
theorem scanStrings_skip (u v : Str) (pos : Nat) : scanStrings (u ++ v) pos u.length = scanStrings v (pos + u.length) 0 := by
  induction u generalizing pos with
  | nil => rfl
  | cons c u ih =>
    rw [List.cons_append, List.length_cons, scanStrings, ih]
    congr 1
    omega

omit [PyEnv] in
theorem scanStrings_segs (b : Bool) (segs : List Seg) (hok : Ok S1 b segs) (pos : Nat) :
    scanStrings (orig segs) pos 0 = items pos segs := by
  induction segs generalizing b pos with
  | nil => rfl
  | cons a x ih =>
    cases a with
    | ch c =>
      have hc := hok.1
      simp only [S1, Bool.or_eq_false_iff, decide_eq_false_iff_not] at hc
      rw [orig, scanStrings, if_neg (by rintro ⟨h | h, -⟩; exact hc.2 h; exact hc.1 h), ih _ hok.2]
      rfl
    | item t =>
      obtain ⟨-, ⟨v, q, s, hq, hs, rfl, -⟩, hok⟩ := hok
      have e : orig (Seg.item (q :: s ++ [q]) :: x) = q :: ((s ++ [q]) ++ orig x) := by simp [orig]
      have htw : ((s ++ [q]) ++ orig x).takeWhile (· ≠ q) = s := by
        rw [List.append_assoc, List.takeWhile_append_of_pos (by intro c hc; simp; rintro rfl; exact hs hc)]
        simp
      rw [e, scanStrings, if_pos ⟨hq.symm, by simp⟩, htw]
      dsimp only
      have e2 : s.length + 1 = (s ++ [q]).length := by simp
      rw [e2, scanStrings_skip, ih _ hok]
      simp only [items]
      congr 2
      simp; omega

theorem lift_atom_S1 {strings : List (Nat × Str)} :
    Lift S1 (fun n s => aget n strings = some s) '(' (Atom Value) (Atom (HiddenValue strings)) := by
  intro t o h
  cases h with
  | pr name w n r hp hk hw hne hn =>
    refine LiftT.plain ?_ (Atom.pr name w n r hp hk hw hne hn)
    exact fun c hc => S1_quiets c ((((AllQuiet.append (quiet_name hp) hw.quiet)).append (caseOf_quiet hn (by decide))) c hc)
  | cmp name w n w' t r o v hp hk hw hne hn hw' hne' hv ht =>
    have hpre : AllQuiet (name ++ w ++ n ++ w') :=
      ((AllQuiet.append (quiet_name hp) hw.quiet).append (caseOf_quiet hn (scim_letters o))).append hw'.quiet
    rcases hv with hv | hv
    · refine ⟨chars (name ++ w ++ n ++ w') ++ [.item t], ?_, ?_, ?_, ?_⟩
      · simp [orig_append, orig_chars, orig]
      · rw [ok_append]
        refine ⟨ok_chars _ _ _ (fun c hc => S1_quiets c (hpre c hc)), ?_, ⟨v, hv⟩, trivial⟩
        rcases List.eq_nil_or_concat w' with rfl | ⟨u, c, rfl⟩
        · exact absurd rfl hne'
        · rw [List.concat_eq_append, ← List.append_assoc, endState_chars_last]; rfl
      · intro hh
        exfalso
        obtain ⟨c, cs, rfl⟩ := List.exists_cons_of_ne_nil (nameChars hp).1
        simp at hh
        have := quiet_name hp c (by simp)
        rw [hh] at this
        revert this; decide
      · intro pos hA
        simp only [items_append, items_chars, List.nil_append, items, List.mem_singleton, forall_eq] at hA
        simp only [hid_append, hid_chars, hid, List.append_nil]
        refine ⟨Atom.cmp name w n w' _ r o v hp hk hw hne hn hw' hne' (.inl ⟨_, t, rfl, hA, hv⟩) ht, ?_⟩
        intro hh
        exfalso
        obtain ⟨c, cs, rfl⟩ := List.exists_cons_of_ne_nil (nameChars hp).1
        simp at hh
        have := quiet_name hp c (by simp)
        rw [hh] at this
        revert this; decide
    · refine LiftT.plain ?_ (Atom.cmp name w n w' t r o v hp hk hw hne hn hw' hne' (.inr hv) ht)
      exact fun c hc => S1_quiets c (hpre.append (quiet_bare hv) c hc)

theorem lift_noText {S : Stage} {A : Nat → Str → Prop} {b : Char} : Lift S A b NoText NoText := by
  intro t o h; exact h.elim

theorem lift_nested_S1 {strings : List (Nat × Str)} {X X' : Str → Op → Prop}
    (hX : Lift S1 (fun n s => aget n strings = some s) '(' X X') (n : Nat) :
    Lift S1 (fun n s => aget n strings = some s) '(' (Nested Value X n) (Nested (HiddenValue strings) X' n) :=
  lift_nested S1_plain rfl rfl rfl lift_atom_S1 hX n

theorem lift_cplx_S1 {strings : List (Nat × Str)} :
    Lift S1 (fun n s => aget n strings = some s) '(' (CplxText Value) (CplxText (HiddenValue strings)) := by
  intro t o h
  cases h with
  | mk name w t w' r n o hp hr h1 h2 hw hw' ht =>
    obtain ⟨segs, g1, g2, g3, g4⟩ := LiftT.wrap (x := name ++ ['[']) (y := w' ++ [']']) S1_plain
      (lift_nested_S1 lift_noText n t o ht) (by
        intro c hc
        rcases List.mem_append.mp hc with hc | hc
        · exact S1_quiets c (quiet_name hp c hc)
        · simp at hc; subst hc; decide) hw (by intro c _; rfl) (by
        intro c hc
        rcases List.mem_append.mp hc with hc | hc
        · exact S1_quiets c (quiet_space (hw' c hc))
        · simp at hc; subst hc; decide)
    have hne : name ++ ['['] ≠ [] := by simp
    refine ⟨segs, by simpa using g1, g3, fun _ => g2 hne _, ?_⟩
    intro pos hA
    obtain ⟨t', ht', hP⟩ := g4 pos hA
    have e : name ++ ['['] ++ w ++ t' ++ (w' ++ [']']) = name ++ '[' :: w ++ t' ++ w' ++ [']'] := by simp
    rw [ht', e]
    refine ⟨CplxText.mk name w t' w' r n o hp hr h1 h2 hw hw' hP, ?_⟩
    intro hh
    obtain ⟨c, cs, rfl⟩ := List.exists_cons_of_ne_nil (nameChars hp).1
    simpa using hh

/-! ## Square brackets -/

/-- The characters collected before a square bracket. -/
def repChar (c : Char) : Bool := isWord c || c = ':' || c = '.'

/-- Hiding complex-attribute filters. -/
def S2 (strings : List (Nat × Str)) : Stage where
  sig c := c = '"' || c = '[' || c = ']'
  glue := repChar
  itemOk s := ∃ o, CplxText (HiddenValue strings) s o

theorem S2_quiets (strings : List (Nat × Str)) : (S2 strings).Quiets := by
  intro c hc
  rw [quiet_iff] at hc
  simp [S2, hc]

theorem repChar_not {c : Char} (h1 : c.toNat < 128) (h2 : asciiWord c = false) (h3 : c ≠ ':') (h4 : c ≠ '.') :
    repChar c = false := by
  simp [repChar, not_word_of_ascii c h1 h2, h3, h4]

theorem S2_plain (strings : List (Nat × Str)) : (S2 strings).Plain := by
  refine (S2_quiets strings).plain ?_
  intro c hc
  have h1 := space_not_word hc
  have h2 : c ≠ ':' := by rintro rfl; rw [not_space_of_ascii _ (by decide) (by decide)] at hc; cases hc
  have h3 : c ≠ '.' := by rintro rfl; rw [not_space_of_ascii _ (by decide) (by decide)] at hc; cases hc
  simp [S2, repChar, h1, h2, h3]

/-- Texts without square brackets and double quotes. -/
def NoSq (t : Str) : Prop := ∀ c ∈ t, c ≠ '"' ∧ c ≠ '[' ∧ c ≠ ']'

omit [PyEnv] in
theorem AllQuiet.noSq {t : Str} (h : AllQuiet t) : NoSq t := by
  intro c hc
  have := quiet_iff.mp (h c hc)
  exact ⟨this.1, this.2.2.2.2.1, this.2.2.2.2.2⟩

theorem noSq_closed : Closed NoSq where
  append x y hx hy c hc := by
    rcases List.mem_append.mp hc with hc | hc
    · exact hx c hc
    · exact hy c hc
  ws w hw := hw.quiet.noSq
  letters s hs := AllQuiet.noSq (fun c hc => quiet_letter ⟨by have := hs c hc; omega, .inl (hs c hc)⟩)

theorem nested_noSq {strings : List (Nat × Str)} {n : Nat} {t : Str} {o : Op}
    (h : Nested (HiddenValue strings) NoText n t o) : NoSq t := by
  refine nested_closed noSq_closed ?_ (fun t o h => (atom_quiet h).noSq) (fun t o h => h.elim) n h
  intro t ht c hc
  simp at hc
  rcases hc with rfl | hc | rfl
  · decide
  · exact ht c hc
  · decide

theorem cplx_shape {strings : List (Nat × Str)} {s : Str} {o : Op} (h : CplxText (HiddenValue strings) s o) :
    ∃ name sub, s = name ++ '[' :: sub ++ [']'] ∧ (∀ c ∈ name, repChar c = true) ∧ NoSq sub := by
  cases h with
  | mk name w t w' r n o hp hr h1 h2 hw hw' ht =>
    refine ⟨name, w ++ t ++ w', by simp, ?_, ?_⟩
    · intro c hc
      rcases (nameChars hp).2 c hc with h | rfl | rfl | rfl | rfl
      · simp [repChar, h]
      · simp [repChar]
      · simp [repChar]
      · exact absurd hc h1
      · exact absurd hc h2
    · exact noSq_closed.append _ _ (noSq_closed.append _ _ (noSq_closed.ws w hw) (nested_noSq ht)) (noSq_closed.ws w' hw')

theorem repChar_quiet {c : Char} (h : repChar c = true) : Quiet c := by
  simp only [repChar, Bool.or_eq_true, decide_eq_true_eq] at h
  rcases h with (h | rfl) | rfl
  · exact quiet_word h
  · decide
  · decide

theorem S2_good (strings : List (Nat × Str)) : (S2 strings).Good where
  item t h := by
    obtain ⟨o, h⟩ := h
    obtain ⟨name, sub, rfl, hn, -⟩ := cplx_shape h
    refine ⟨name, '[', sub ++ [']'], by simp, rfl, ?_⟩
    intro c hc
    exact S2_quiets strings c (repChar_quiet (hn c hc))
  mark c h := S2_quiets strings c (quiet_mark h)

theorem scanCplx_name (name rest rep : Str) (pos : Nat) (h : ∀ c ∈ name, repChar c = true) :
    scanCplx (name ++ rest) pos false rep none = scanCplx rest (pos + name.length) false (name.reverse ++ rep) none := by
  induction name generalizing pos rep with
  | nil => rfl
  | cons c name ih =>
    have hc := h c (by simp)
    have hq : c ≠ '"' := (quiet_iff.mp (repChar_quiet hc)).1
    rw [List.cons_append, scanCplx.eq_def]
    simp only [hq, if_false, Bool.false_eq_true]
    have hc' : (isWord c || decide (c = ':') || decide (c = '.')) = true := hc
    rw [if_pos hc', ih _ _ (fun d hd => h d (by simp [hd]))]
    have e : pos + 1 + name.length = pos + (c :: name).length := by simp; omega
    simp [e]

theorem scanCplx_sub (sub rest rep : Str) (pos : Nat) (b : OpenBracket) (h : NoSq sub) :
    scanCplx (sub ++ rest) pos false rep (some b) =
      scanCplx rest (pos + sub.length) false rep (some { b with text := sub.reverse ++ b.text }) := by
  induction sub generalizing pos b with
  | nil => rfl
  | cons c sub ih =>
    have hc := h c (by simp)
    rw [List.cons_append, scanCplx.eq_def]
    simp only [hc.1, hc.2.1, hc.2.2, if_false, Bool.false_eq_true]
    rw [ih _ _ (fun d hd => h d (by simp [hd]))]
    have e : pos + 1 + sub.length = pos + (c :: sub).length := by simp; omega
    simp [e]

theorem scanCplx_item (name sub rest : Str) (pos : Nat) (hn : ∀ c ∈ name, repChar c = true) (hs : NoSq sub) :
    scanCplx ((name ++ '[' :: sub ++ [']']) ++ rest) pos false [] none =
      { scanCplx rest (pos + (name ++ '[' :: sub ++ [']']).length) false [] none with
        items := { start := pos, rep := name, sub := sub } ::
          (scanCplx rest (pos + (name ++ '[' :: sub ++ [']']).length) false [] none).items } := by
  have e : (name ++ '[' :: sub ++ [']']) ++ rest = name ++ ('[' :: (sub ++ (']' :: rest))) := by simp
  rw [e, scanCplx_name _ _ _ _ hn, scanCplx.eq_def]
  have hb : repChar '[' = false := repChar_not (by decide) (by decide) (by decide) (by decide)
  have hb' : (isWord '[' || decide ('[' = ':') || decide ('[' = '.')) = false := hb
  simp only [hb', if_false, Bool.false_eq_true, reduceCtorEq, if_true]
  have h1 : ('[' = '"') = False := by decide
  simp only [h1, if_false, Bool.false_eq_true]
  rw [scanCplx_sub _ _ _ _ _ hs, scanCplx.eq_def]
  have h2 : (']' = '"') = False := by decide
  have h3 : (']' = '[') = False := by decide
  simp only [h2, h3, if_false, Bool.false_eq_true, if_true]
  have e2 : pos + name.length + 1 + sub.length + 1 = pos + (name ++ '[' :: sub ++ [']']).length := by simp; omega
  rw [e2]
  simp

theorem scanCplx_segs (strings : List (Nat × Str)) (b : Bool) (segs : List Seg) (hok : Ok (S2 strings) b segs) (pos : Nat)
    (rep : Str) (hr : b = false → rep = []) :
    ∃ its, scanCplx (orig segs) pos false rep none = { items := its } ∧
      its.map (fun x => (x.start, x.exp)) = items pos segs ∧ ∀ x ∈ its, '[' ∉ x.rep := by
  induction segs generalizing b pos rep with
  | nil => exact ⟨[], rfl, rfl, by simp⟩
  | cons a x ih =>
    cases a with
    | ch c =>
      have hc : c ≠ '"' ∧ c ≠ '[' ∧ c ≠ ']' := by
        have := hok.1
        simpa [S2, and_assoc] using this
      rw [orig, scanCplx.eq_def]
      simp only [hc.1, hc.2.1, hc.2.2, if_false, Bool.false_eq_true]
      by_cases hg : repChar c = true
      · have hg' : (isWord c || decide (c = ':') || decide (c = '.')) = true := hg
        rw [if_pos hg']
        exact ih _ hok.2 (pos + 1) (c :: rep) (by intro h; change repChar c = false at h; rw [h] at hg; cases hg)
      · have hg' : ¬ (isWord c || decide (c = ':') || decide (c = '.')) = true := hg
        rw [if_neg hg']
        exact ih _ hok.2 (pos + 1) [] (fun _ => rfl)
    | item t =>
      obtain ⟨hb, ⟨o, ht⟩, hok⟩ := hok
      have := hr hb
      subst this
      obtain ⟨name, sub, rfl, hn, hs⟩ := cplx_shape ht
      obtain ⟨its, h1, h2, h3⟩ := ih _ hok (pos + (name ++ '[' :: sub ++ [']']).length) [] (fun _ => rfl)
      refine ⟨{ start := pos, rep := name, sub := sub } :: its, ?_, ?_, ?_⟩
      · rw [orig, scanCplx_item name sub _ pos hn hs, h1]
      · rw [List.map_cons, h2]
        rfl
      · intro y hy
        rcases List.mem_cons.mp hy with rfl | hy
        · exact fun hm => (quiet_iff.mp (repChar_quiet (hn _ hm))).2.2.2.2.1 rfl
        · exact h3 y hy

/-! ## Round brackets -/

/-- Texts whose round brackets match. -/
def NestOk (u : Str) : Prop :=
  ∀ rest pos g, 1 ≤ g.depth → scanGroups (u ++ rest) pos false (some g) =
    scanGroups rest (pos + u.length) false (some { g with text := u.reverse ++ g.text })

omit [PyEnv] in
theorem NestOk.append {u v : Str} (hu : NestOk u) (hv : NestOk v) : NestOk (u ++ v) := by
  intro rest pos g hg
  rw [List.append_assoc, hu _ _ _ hg, hv _ _ _ (by exact hg)]
  simp [Nat.add_assoc]

omit [PyEnv] in
theorem AllQuiet.nestOk {u : Str} (h : AllQuiet u) : NestOk u := by
  induction u with
  | nil => intro rest pos g _; rfl
  | cons c u ih =>
    intro rest pos g hg
    have hc := quiet_iff.mp (h c (by simp))
    rw [List.cons_append, scanGroups.eq_def]
    simp only [hc.1, hc.2.2.1, hc.2.2.2.1, if_false, Bool.false_eq_true]
    rw [ih (fun d hd => h d (by simp [hd])) _ _ _ (by exact hg)]
    have e : pos + 1 + u.length = pos + (c :: u).length := by simp; omega
    simp [e]

omit [PyEnv] in
theorem NestOk.bracket {u : Str} (h : NestOk u) : NestOk ('(' :: u ++ [')']) := by
  intro rest pos g hg
  have e : '(' :: u ++ [')'] ++ rest = '(' :: (u ++ (')' :: rest)) := by simp
  rw [e, scanGroups.eq_def]
  have h1 : ('(' = '"') = False := by decide
  simp only [h1, if_false, Bool.false_eq_true, if_true]
  rw [h _ _ _ (by dsimp only; omega), scanGroups.eq_def]
  have h2 : (')' = '"') = False := by decide
  have h3 : (')' = '(') = False := by decide
  have h4 : ¬ (g.depth + 1 - 1 = 0) := by omega
  simp only [h2, h3, h4, if_false, Bool.false_eq_true, if_true]
  congr 1
  · simp; omega
  · simp

theorem nestOk_closed : Closed NestOk where
  append _ _ hx hy := hx.append hy
  ws _ hw := hw.quiet.nestOk
  letters _ hs := AllQuiet.nestOk (fun c hc => quiet_letter ⟨by have := hs c hc; omega, .inl (hs c hc)⟩)

/-- Texts standing for complex-attribute filters: placeholders. -/
def CTok (cplx : List (Nat × Parsed)) (t : Str) (o : Op) : Prop :=
  ∃ n p, t = placeholder n ∧ aget n cplx = some p ∧ p.op = some o ∧ p.issues = {}

omit [PyEnv] in
theorem cTok_quiet {cplx : List (Nat × Parsed)} {t : Str} {o : Op} (h : CTok cplx t o) : AllQuiet t := by
  obtain ⟨n, p, rfl, -⟩ := h
  exact fun c hc => quiet_mark (mark_of_mem hc)

theorem nested_nestOk {strings : List (Nat × Str)} {cplx : List (Nat × Parsed)} {n : Nat} {t : Str} {o : Op}
    (h : Nested (HiddenValue strings) (CTok cplx) n t o) : NestOk t :=
  nested_closed nestOk_closed (fun _ ht => ht.bracket) (fun _ _ h => (atom_quiet h).nestOk)
    (fun _ _ h => (cTok_quiet h).nestOk) n h

theorem nested_headLast {strings : List (Nat × Str)} {cplx : List (Nat × Parsed)} {n : Nat} {t : Str} {o : Op}
    (h : Nested (HiddenValue strings) (CTok cplx) n t o) : HeadOk t ∧ LastOk t := by
  refine nested_ends (fun _ _ h => atom_ends h) ?_ n h
  rintro t o ⟨n, p, rfl, -⟩
  exact ⟨(placeholder_clean n).head, (placeholder_clean n).last⟩

/-- Hiding groups. -/
def S3 (P : Str → Op → Prop) : Stage where
  sig c := c = '"' || c = '(' || c = ')'
  glue _ := false
  itemOk s := ∃ o, Group P s o

theorem S3_quiets (P : Str → Op → Prop) : (S3 P).Quiets := by
  intro c hc
  rw [quiet_iff] at hc
  simp [S3, hc]

theorem S3_plain (P : Str → Op → Prop) : (S3 P).Plain := (S3_quiets P).plain (fun _ _ => rfl)

theorem S3_good (P : Str → Op → Prop) : (S3 P).Good where
  item t h := by
    obtain ⟨o, h⟩ := h
    cases h with
    | mk w t w' o hw hw' ht => exact ⟨[], '(', w ++ t ++ w' ++ [')'], by simp, rfl, by simp⟩
  mark c h := S3_quiets P c (quiet_mark h)

theorem scanGroups_segs {P : Str → Op → Prop} (hP : ∀ t o, P t o → NestOk t) (b : Bool) (segs : List Seg)
    (hok : Ok (S3 P) b segs) (pos : Nat) :
    scanGroups (orig segs) pos false none = { groups := items pos segs } := by
  induction segs generalizing b pos with
  | nil => rfl
  | cons a x ih =>
    cases a with
    | ch c =>
      have hc : c ≠ '"' ∧ c ≠ '(' ∧ c ≠ ')' := by
        have := hok.1
        simpa [S3, and_assoc] using this
      rw [orig, scanGroups.eq_def]
      simp only [hc.1, hc.2.1, hc.2.2, if_false, Bool.false_eq_true]
      exact ih _ hok.2 _
    | item t =>
      obtain ⟨-, ⟨o, ht⟩, hok⟩ := hok
      cases ht with
      | mk w t w' o hw hw' ht =>
        have hn : NestOk (w ++ t ++ w') := (hw.quiet.nestOk.append (hP t o ht)).append hw'.quiet.nestOk
        have e : orig (Seg.item ('(' :: w ++ t ++ w' ++ [')']) :: x) = '(' :: ((w ++ t ++ w') ++ (')' :: orig x)) := by
          simp [orig]
        rw [e, scanGroups.eq_def]
        have h1 : ('(' = '"') = False := by decide
        simp only [h1, if_false, Bool.false_eq_true, if_true]
        rw [hn _ _ _ (by dsimp only; omega), scanGroups.eq_def]
        have h2 : (')' = '"') = False := by decide
        have h3 : (')' = '(') = False := by decide
        simp only [h2, h3, if_false, Bool.false_eq_true, if_true, Nat.sub_self]
        have e2 : pos + 1 + (w ++ t ++ w').length + 1 = pos + ('(' :: w ++ t ++ w' ++ [')']).length := by simp; omega
        rw [e2, ih _ hok]
        simp [items]

omit [PyEnv] in
theorem parseGroups_ok {f : Str → PyM (Option Op × Issues)} (gs : List (Nat × Str))
    (h : ∀ g ∈ gs, ∃ o, f (g.2.drop 1).dropLast = .ok (some o, {})) :
    ∃ ps, parseGroups f gs = .ok ps ∧ ps.map (·.1) = gs.map (·.1) ∧
      ∀ g ∈ gs, ∃ p, (g.1, p) ∈ ps ∧ f (g.2.drop 1).dropLast = .ok (p.op, p.issues) := by
  induction gs with
  | nil => exact ⟨[], rfl, rfl, by simp⟩
  | cons g gs ih =>
    obtain ⟨o, ho⟩ := h g (by simp)
    obtain ⟨ps, h1, h2, h3⟩ := ih (fun g hg => h g (by simp [hg]))
    obtain ⟨n, t⟩ := g
    refine ⟨(n, { op := some o, issues := {}, exp := t }) :: ps, ?_, by simp [h2], ?_⟩
    · rw [parseGroups, ho]
      dsimp only
      rw [h1]
    · intro g hg
      rcases List.mem_cons.mp hg with rfl | hg
      · exact ⟨_, List.mem_cons_self, ho⟩
      · obtain ⟨p, hp, hf⟩ := h3 g hg
        exact ⟨p, by simp [hp], hf⟩

/-- What stands for an operand once groups are hidden. -/
def FlatPrim (ctx : FCtx) (t : Str) (o : Op) : Prop :=
  Atom (HiddenValue ctx.strings) t o ∨
    ∃ n p, t = placeholder n ∧ ctx.lookup t = some p ∧ p.op = some o ∧ p.issues = {}

theorem flat_ok {ctx : FCtx} {t : Str} {o : Op} (h : OrText '|' (FlatPrim ctx) t o) :
    parseOr ctx t = .ok (some o, {}) ∧ HeadOk t ∧ LastOk t := by
  refine parseFlat_ok ?_ ?_ h
  · rintro t o (h | ⟨n, p, rfl, -⟩)
    · exact atom_clean (fun _ _ hv => hidden_clean hv) h
    · exact placeholder_clean n
  · rintro t o (h | ⟨n, p, rfl, hl, ho, hi⟩)
    · exact parseAttrExp_atom h
    · rw [parseAttrExp_placeholder hl, ho, hi]

omit [PyEnv] in
theorem wrap_ws {S : Stage} {A : Nat → Str → Prop} {b : Char} [PyEnv] (hS : S.Plain) {w t w' : Str} {Q : Str → Prop}
    (h : LiftT S A b t Q) (hw : Ws w) (hw' : Ws w') :
    ∃ segs, orig segs = w ++ t ++ w' ∧ Ok S false segs ∧
      ∀ pos, (∀ q ∈ items pos segs, A q.1 q.2) → ∃ t', hid pos segs = w ++ t' ++ w' ∧ Q t' := by
  obtain ⟨segs, g1, -, g3, g4⟩ := LiftT.wrap (x := []) (y := w') hS h (by simp) hw (by simp)
    (fun c hc => (hS.ws c (hw' c hc)).1)
  exact ⟨segs, by simpa using g1, g3, by simpa using g4⟩

theorem lookup_cplx {strings : List (Nat × Str)} {cplx : List (Nat × Parsed)} {n : Nat} {p : Parsed}
    (h : aget n cplx = some p) :
    FCtx.lookup { strings, groups := [], cplx } (placeholder n) = some p := by
  unfold FCtx.lookup
  rw [parsePlaceholder_self]
  simp [h]

theorem lookup_group {strings : List (Nat × Str)} {groups cplx : List (Nat × Parsed)} {n : Nat} {p : Parsed}
    (h : aget n groups = some p) :
    FCtx.lookup { strings, groups, cplx } (placeholder n) = some p := by
  unfold FCtx.lookup
  rw [parsePlaceholder_self]
  simp [h]

/-- The last step of the parser, on a text whose groups are hidden. -/
theorem parseOperator_step {fuel : Nat} {strings : List (Nat × Str)} {cplx groups : List (Nat × Parsed)} {exp : Str}
    {gs : List (Nat × Str)} {w t w' : Str} {o : Op} (hsc : scanGroups exp 0 false none = { groups := gs })
    (hg : parseGroups (parseOperator fuel strings cplx) gs = .ok groups)
    (hh : hideLoop gs exp = w ++ t ++ w') (hw : Ws w) (hw' : Ws w')
    (hf : OrText '|' (FlatPrim { strings, groups, cplx }) t o) :
    parseOperator (fuel + 1) strings cplx exp = .ok (some o, {}) := by
  obtain ⟨h1, h2, h3⟩ := flat_ok hf
  unfold parseOperator
  rw [hsc]
  dsimp only
  rw [hg]
  dsimp only
  rw [hh, strip_ws hw hw' h2 h3, h1]
  obtain ⟨c, cs, rfl⟩ := List.exists_cons_of_ne_nil h2.ne_nil
  simp only [strayIssues, Bool.false_eq_true, if_false, List.isEmpty_cons, proceed_empty, Bool.not_true,
    merge_empty_right, if_true]

theorem atom_flat {P : Str → Op → Prop} {A : Nat → Str → Prop} {ctx : FCtx} {t : Str} {o : Op}
    (h : Atom (HiddenValue ctx.strings) t o) : LiftT (S3 P) A '|' t (fun t' => FlatPrim ctx t' o) := by
  refine LiftT.plain' (fun c hc => S3_quiets _ c (atom_quiet h c hc)) ?_ (.inl h)
  obtain ⟨c, cs, rfl, -⟩ := (atom_ends h).1
  intro hh; simp at hh; subst hh
  have := atom_quiet h '(' (by simp)
  revert this; decide

/-- A text without groups. -/
theorem parseOperator_flat {strings : List (Nat × Str)} {cplx : List (Nat × Parsed)} {t : Str} {o : Op}
    (h : OrText '(' (fun t o => Atom (HiddenValue strings) t o ∨ CTok cplx t o) t o) {w w' : Str} (hw : Ws w) (hw' : Ws w')
    (fuel : Nat) : parseOperator (fuel + 1) strings cplx (w ++ t ++ w') = .ok (some o, {}) := by
  have hlift : Lift (S3 NoText) (fun _ _ => True) '|' (fun t o => Atom (HiddenValue strings) t o ∨ CTok cplx t o)
      (FlatPrim { strings, groups := [], cplx }) := by
    rintro t o (h | ⟨n, p, rfl, hp, ho, hi⟩)
    · exact atom_flat h
    · refine LiftT.plain' (fun c hc => S3_quiets _ c (quiet_mark (mark_of_mem hc))) ?_
        (.inr ⟨n, p, rfl, lookup_cplx hp, ho, hi⟩)
      rw [placeholder_head]; decide
  obtain ⟨segs, g1, g2, g3⟩ := wrap_ws (S3_plain _) (lift_or (S3_plain _) hlift t o h) hw hw'
  have hit : items 0 segs = [] := by
    cases hi : items 0 segs with
    | nil => rfl
    | cons q l =>
      obtain ⟨o', h'⟩ := (items_ge (S3_good NoText) _ _ g2 0).2.2 q (by rw [hi]; simp)
      obtain ⟨q1, q2⟩ := q
      dsimp only at h'
      generalize q2 = q2 at h'
      cases h' with
      | mk _ _ _ _ _ _ h => exact h.elim
  obtain ⟨t', ht', hQ⟩ := g3 0 (by simp)
  have hsc := scanGroups_segs (P := NoText) (fun t o h => h.elim) _ _ g2 0
  have hhl := hideLoop_segs (S3_good NoText) _ _ g2 0 [] (by simp)
  rw [List.nil_append, List.nil_append] at hhl
  rw [g1] at hsc hhl
  rw [hit] at hsc hhl
  refine parseOperator_step hsc (groups := []) rfl ?_ hw hw' hQ
  rw [hhl, ht']

/-- The text inside the brackets of a group. -/
theorem group_inner {P : Str → Op → Prop} {s : Str} {o : Op} (h : Group P s o) :
    ∃ w t w', (s.drop 1).dropLast = w ++ t ++ w' ∧ Ws w ∧ Ws w' ∧ P t o ∧ s.length = (w ++ t ++ w').length + 2 := by
  cases h with
  | mk w t w' o hw hw' ht =>
    refine ⟨w, t, w', ?_, hw, hw', ht, by simp; omega⟩
    have : ('(' :: w ++ t ++ w' ++ [')']).drop 1 = (w ++ t ++ w') ++ [')'] := by simp
    rw [this, List.dropLast_concat]

/-- Hiding the groups of one level. -/
theorem group_lift {strings : List (Nat × Str)} {cplx : List (Nat × Parsed)} {P : Str → Op → Prop}
    (groups : List (Nat × Parsed)) :
    Lift (S3 P) (fun i s => ∀ o, Group P s o → ∃ p, aget i groups = some p ∧ p.op = some o ∧ p.issues = {}) '|'
      (fun t o => Atom (HiddenValue strings) t o ∨ Group P t o) (FlatPrim { strings, groups, cplx }) := by
  rintro t o (h | h)
  · exact atom_flat h
  · refine ⟨[.item t], by simp [orig], ⟨rfl, ⟨o, h⟩, trivial⟩, fun _ => ⟨rfl, ⟨o, h⟩, trivial⟩, ?_⟩
    intro pos hA
    simp only [items, List.mem_singleton, forall_eq] at hA
    obtain ⟨p, hp, ho, hi⟩ := hA o h
    simp only [hid, List.append_nil]
    exact ⟨.inr ⟨pos, p, rfl, lookup_group hp, ho, hi⟩, fun _ => placeholder_head pos⟩

theorem parseOperator_ok {strings : List (Nat × Str)} {cplx : List (Nat × Parsed)} (n : Nat) {t : Str} {o : Op}
    (h : Nested (HiddenValue strings) (CTok cplx) n t o) {w w' : Str} (hw : Ws w) (hw' : Ws w') (fuel : Nat)
    (hfuel : (w ++ t ++ w').length < fuel) :
    parseOperator fuel strings cplx (w ++ t ++ w') = .ok (some o, {}) := by
  induction n generalizing t o w w' fuel with
  | zero =>
    obtain ⟨fuel, rfl⟩ : ∃ f, fuel = f + 1 := ⟨fuel - 1, by omega⟩
    exact parseOperator_flat h hw hw' fuel
  | succ n ih =>
    obtain ⟨fuel, rfl⟩ : ∃ f, fuel = f + 1 := ⟨fuel - 1, by omega⟩
    rcases h with h | h
    · exact parseOperator_flat h hw hw' fuel
    · have key := @group_lift _ strings cplx (Nested (HiddenValue strings) (CTok cplx) n)
      obtain ⟨segs, g1, g2, -⟩ := wrap_ws (S3_plain _) (lift_or (S3_plain _) (key []) t o h) hw hw'
      have hsc := scanGroups_segs (fun t o h => nested_nestOk h) _ _ g2 0
      rw [g1] at hsc
      obtain ⟨-, hnd, hit⟩ := items_ge (S3_good _) _ _ g2 0
      have hin : ∀ q ∈ items 0 segs, ∀ o, Group (Nested (HiddenValue strings) (CTok cplx) n) q.2 o →
          parseOperator fuel strings cplx (q.2.drop 1).dropLast = .ok (some o, {}) := by
        intro q hq o hg
        have hlen := group_shorter (s := w ++ t ++ w') (p := q) (by rw [hsc]; exact hq)
        obtain ⟨u, x, u', he, hu, hu', hx, -⟩ := group_inner hg
        rw [he] at hlen ⊢
        exact ih hx hu hu' fuel (by omega)
      obtain ⟨ps, hps, hkeys, hmem⟩ := parseGroups_ok (f := parseOperator fuel strings cplx) (items 0 segs) (by
        intro q hq
        obtain ⟨o, ho⟩ := hit q hq
        exact ⟨o, hin q hq o ho⟩)
      obtain ⟨segs', g1', g2', g3'⟩ := wrap_ws (S3_plain _) (lift_or (S3_plain _) (key ps) t o h) hw hw'
      have hsc' := scanGroups_segs (fun t o h => nested_nestOk h) _ _ g2' 0
      have hhl := hideLoop_segs (S3_good _) _ _ g2' 0 [] (by simp)
      rw [List.nil_append, List.nil_append] at hhl
      rw [g1'] at hsc' hhl
      have hsame : items 0 segs' = items 0 segs := by
        have := hsc'.symm.trans hsc
        injection this
      obtain ⟨t', ht', hQ⟩ := g3' 0 (by
        intro q hq o ho
        rw [hsame] at hq
        obtain ⟨p, hp, hf⟩ := hmem q hq
        rw [hin q hq o ho] at hf
        injection hf with hf
        injection hf with h1 h2
        refine ⟨p, aget_of_mem (by rw [hkeys]; exact hnd) hp, h1.symm, h2.symm⟩)
      refine parseOperator_step hsc' (groups := ps) (by rw [hsame]; exact hps) ?_ hw hw' hQ
      rw [hhl, ht']

/-! ## Complex-attribute filters -/

theorem Joined.mono {kw : Str} {P P' : Str → Op → Prop} (h : ∀ t o, P t o → P' t o) {t : Str} {os : List Op}
    (hj : Joined kw P t os) : Joined kw P' t os := by
  induction hj with
  | one t o ht => exact .one _ _ (h _ _ ht)
  | more t w w' t' o os ht hw hne hw' hne' hj ih => exact .more _ _ _ _ _ _ (h _ _ ht) hw hne hw' hne' ih

theorem NotText.mono {b : Char} {P P' : Str → Op → Prop} (h : ∀ t o, P t o → P' t o) {t : Str} {o : Op}
    (hj : NotText b P t o) : NotText b P' t o := by
  cases hj with
  | plain _ _ ht => exact .plain _ _ (h _ _ ht)
  | not w t o ht hw hb => exact .not w t o (h _ _ ht) hw hb

theorem OrText.mono {b : Char} {P P' : Str → Op → Prop} (h : ∀ t o, P t o → P' t o) {t : Str} {o : Op}
    (hj : OrText b P t o) : OrText b P' t o := by
  obtain ⟨os, hj, rfl⟩ := hj
  refine ⟨os, hj.mono ?_, rfl⟩
  rintro t o ⟨os, hj, rfl⟩
  exact ⟨os, hj.mono (fun t o => NotText.mono h), rfl⟩

theorem Group.mono {P P' : Str → Op → Prop} (h : ∀ t o, P t o → P' t o) {t : Str} {o : Op}
    (hj : Group P t o) : Group P' t o := by
  cases hj with
  | mk w t w' o hw hw' ht => exact .mk w t w' o hw hw' (h _ _ ht)

theorem Nested.mono {V V' : Str → Prim → Prop} {X X' : Str → Op → Prop} (hV : ∀ t o, Atom V t o → Atom V' t o)
    (h : ∀ t o, X t o → X' t o) (n : Nat) {t : Str} {o : Op}
    (hj : Nested V X n t o) : Nested V' X' n t o := by
  induction n generalizing t o with
  | zero => exact OrText.mono (fun t o => Or.imp (hV t o) (h t o)) hj
  | succ n ih =>
    exact hj.imp (OrText.mono (fun t o => Or.imp (hV t o) (h t o)))
      (OrText.mono (fun t o => Or.imp (hV t o) (Group.mono (fun _ _ => ih))))

/-- A greater depth is no restriction. -/
theorem Nested.succ {V : Str → Prim → Prop} {X : Str → Op → Prop} (n : Nat) {t : Str} {o : Op}
    (hj : Nested V X n t o) : Nested V X (n + 1) t o := by
  induction n generalizing t o with
  | zero => exact .inl hj
  | succ n ih => exact hj.imp id (OrText.mono (fun t o => Or.imp id (Group.mono (fun _ _ => ih))))

theorem Nested.le {V : Str → Prim → Prop} {X : Str → Op → Prop} {n m : Nat} (hnm : n ≤ m) {t : Str} {o : Op}
    (hj : Nested V X n t o) : Nested V X m t o := by
  induction hnm with
  | refl => exact hj
  | step _ ih => exact ih.succ

omit [PyEnv] in
theorem split_at_unique {c : Char} {a a' b b' : Str} (ha : c ∉ a) (ha' : c ∉ a') (h : a ++ c :: b = a' ++ c :: b') :
    a = a' ∧ b = b' := by
  induction a generalizing a' with
  | nil =>
    cases a' with
    | nil => simpa using h
    | cons d a' => simp at h ha'; exact absurd h.1 ha'.1
  | cons d a ih =>
    cases a' with
    | nil => simp at h ha; exact absurd h.1.symm ha.1
    | cons d' a' =>
      simp at h ha ha'
      obtain ⟨rfl, h⟩ := h
      obtain ⟨rfl, rfl⟩ := ih ha.2 ha'.2 h
      exact ⟨rfl, rfl⟩

theorem parseCplxItem_ok {strings : List (Nat × Str)} {x : CplxItem} {o : Op} (hx : '[' ∉ x.rep)
    (h : CplxText (HiddenValue strings) x.exp o) :
    parseCplxItem strings x = .ok { op := some o, issues := {}, exp := x.exp } := by
  have : ∃ s, s = x.exp := ⟨_, rfl⟩
  obtain ⟨s, hs⟩ := this
  rw [← hs] at h
  cases h with
  | mk name w t w' r n o hp hr h1 h2 hw hw' ht =>
    have hname : '[' ∉ name := fun hm => (quiet_iff.mp (quiet_name hp _ hm)).2.2.2.2.1 rfl
    have e : name ++ '[' :: (w ++ t ++ w' ++ [']']) = x.rep ++ '[' :: (x.sub ++ [']']) := by
      simpa [CplxItem.exp] using hs
    obtain ⟨e1, e2⟩ := split_at_unique hname hx e
    have e3 : w ++ t ++ w' = x.sub := List.append_cancel_right e2
    have ht' : Nested (HiddenValue strings) (CTok []) n t o := Nested.mono (fun _ _ h => h) (fun t o h => h.elim) n ht
    obtain ⟨hh, hl⟩ := nested_headLast ht'
    have hpo := parseOperator_ok n ht' hw hw' (x.sub.length + 1) (by rw [e3]; omega)
    rw [e3] at hpo
    have hst : strip x.sub = t := by rw [← e3]; exact strip_ws hw hw' hh hl
    obtain ⟨c, cs, rfl⟩ := List.exists_cons_of_ne_nil hh.ne_nil
    unfold parseCplxItem
    rw [hst, ← e1, hp]
    simp only [List.isEmpty_cons, Bool.false_eq_true, if_false, hr, List.isEmpty_nil, Bool.not_true, proceed_empty]
    rw [hpo]
    simp [proceed_empty]

theorem parseCplxItems_ok {strings : List (Nat × Str)} (xs : List CplxItem)
    (h : ∀ x ∈ xs, ∃ o, parseCplxItem strings x = .ok { op := some o, issues := {}, exp := x.exp }) :
    ∃ ps, parseCplxItems strings xs = .ok ps ∧ ps.map (·.1) = xs.map (·.start) ∧
      ∀ x ∈ xs, ∃ p, (x.start, p) ∈ ps ∧ parseCplxItem strings x = .ok p := by
  induction xs with
  | nil => exact ⟨[], rfl, rfl, by simp⟩
  | cons x xs ih =>
    obtain ⟨o, ho⟩ := h x (by simp)
    obtain ⟨ps, h1, h2, h3⟩ := ih (fun x hx => h x (by simp [hx]))
    refine ⟨(x.start, { op := some o, issues := {}, exp := x.exp }) :: ps, ?_, by simp [h2], ?_⟩
    · rw [parseCplxItems, ho]
      dsimp only
      rw [h1]
    · intro y hy
      rcases List.mem_cons.mp hy with rfl | hy
      · exact ⟨_, List.mem_cons_self, ho⟩
      · obtain ⟨p, hp, hf⟩ := h3 y hy
        exact ⟨p, by simp [hp], hf⟩

/-- Hiding complex-attribute filters. -/
theorem cplx_lift {strings : List (Nat × Str)} (cplx : List (Nat × Parsed)) (n : Nat) :
    Lift (S2 strings) (fun i s => ∀ o, CplxText (HiddenValue strings) s o →
        ∃ p, aget i cplx = some p ∧ p.op = some o ∧ p.issues = {}) '('
      (Nested (HiddenValue strings) (CplxText (HiddenValue strings)) n) (Nested (HiddenValue strings) (CTok cplx) n) := by
  refine lift_nested (S2_plain strings) rfl rfl
    (repChar_not (by decide) (by decide) (by decide) (by decide)) ?_ ?_ n
  · intro t o h
    exact LiftT.plain (fun c hc => S2_quiets _ c (atom_quiet h c hc)) h
  · intro t o h
    have hne : t.head? ≠ some '(' := by
      cases h with
      | mk name w t w' r n o hp hr h1 h2 hw hw' ht =>
        obtain ⟨c, cs, rfl⟩ := List.exists_cons_of_ne_nil (nameChars hp).1
        intro hh
        simp at hh
        have := quiet_name hp c (by simp)
        rw [hh] at this
        revert this; decide
    refine ⟨[.item t], by simp [orig], ⟨rfl, ⟨o, h⟩, trivial⟩, fun hh => absurd hh hne, ?_⟩
    intro pos hA
    simp only [items, List.mem_singleton, forall_eq] at hA
    obtain ⟨p, hp, ho, hi⟩ := hA o h
    simp only [hid, List.append_nil]
    exact ⟨⟨pos, p, rfl, hp, ho, hi⟩, fun hh => absurd hh hne⟩

/-- Filters with hidden strings. -/
theorem filterParse_hidden {s : Str} {strings : List (Nat × Str)} (hstr : scanStrings s 0 0 = strings) {n : Nat} {t : Str}
    {o : Op} {w w' : Str} (hw : Ws w) (hw' : Ws w') (hh : hideLoop strings s = w ++ t ++ w')
    (h : Nested (HiddenValue strings) (CplxText (HiddenValue strings)) n t o) : Filter.parse s = .ok (some o, {}) := by
  obtain ⟨segs, g1, g2, -⟩ := wrap_ws (S2_plain strings) (cplx_lift [] n t o h) hw hw'
  obtain ⟨its, hsc, hits, hbr⟩ := scanCplx_segs strings false segs g2 0 [] (fun _ => rfl)
  rw [g1] at hsc
  obtain ⟨-, hnd, hit⟩ := items_ge (S2_good strings) _ _ g2 0
  have hitem : ∀ x ∈ its, ∀ o, CplxText (HiddenValue strings) x.exp o →
      parseCplxItem strings x = .ok { op := some o, issues := {}, exp := x.exp } :=
    fun x hx o ho => parseCplxItem_ok (hbr x hx) ho
  obtain ⟨ps, hps, hkeys, hmem⟩ := parseCplxItems_ok its (by
    intro x hx
    obtain ⟨o, ho⟩ := hit (x.start, x.exp) (by rw [← hits]; exact List.mem_map.mpr ⟨x, hx, rfl⟩)
    exact ⟨o, hitem x hx o ho⟩)
  obtain ⟨segs', g1', g2', g3'⟩ := wrap_ws (S2_plain strings) (cplx_lift ps n t o h) hw hw'
  obtain ⟨its', hsc', hits', -⟩ := scanCplx_segs strings false segs' g2' 0 [] (fun _ => rfl)
  rw [g1'] at hsc'
  have hsame : its' = its := by
    have := hsc'.symm.trans hsc
    injection this
  have hhl := hideLoop_segs (S2_good strings) _ _ g2' 0 [] (by simp)
  rw [List.nil_append, List.nil_append, g1', ← hits', hsame] at hhl
  obtain ⟨t', ht', hQ⟩ := g3' 0 (by
    intro q hq o ho
    rw [← hits', hsame] at hq
    obtain ⟨x, hx, rfl⟩ := List.mem_map.mp hq
    obtain ⟨p, hp, hf⟩ := hmem x hx
    rw [hitem x hx o ho] at hf
    injection hf with hf
    subst hf
    refine ⟨_, aget_of_mem ?_ hp, rfl, rfl⟩
    rw [hkeys]
    have := hnd
    rw [← hits, List.map_map] at this
    exact this)
  have hpo := parseOperator_ok n hQ hw hw' ((w ++ t' ++ w').length + 1) (by omega)
  unfold Filter.parse
  rw [hstr]
  dsimp only
  rw [hh, hsc]
  dsimp only
  rw [hps]
  simp only [strayBracketIssues, Bool.false_eq_true, if_false, proceed_empty, Bool.not_true, openedIssues]
  rw [hhl, ht', hpo]
  simp [merge_empty_right, proceed_empty]

/-- Texts of the grammar parse to their operator, without issues. -/
theorem filterParse_ok {t : Str} {o : Op} (h : FilterTextX t o) {w w' : Str} (hw : Ws w) (hw' : Ws w') :
    Filter.parse (w ++ t ++ w') = .ok (some o, {}) := by
  obtain ⟨n, h⟩ := h
  have hstr : scanStrings (w ++ t ++ w') 0 0 = scanStrings (w ++ t ++ w') 0 0 := rfl
  revert hstr
  generalize hst : scanStrings (w ++ t ++ w') 0 0 = strings
  intro _
  obtain ⟨segs, g1, g2, g3⟩ := wrap_ws S1_plain (lift_nested_S1 (strings := strings) lift_cplx_S1 n t o h) hw hw'
  have hsc := scanStrings_segs _ _ g2 0
  have hhl := hideLoop_segs S1_good _ _ g2 0 [] (by simp)
  obtain ⟨-, hnd, -⟩ := items_ge S1_good _ _ g2 0
  rw [List.nil_append, List.nil_append, ← hsc, g1, hst] at hhl
  rw [← hsc, g1, hst] at hnd
  obtain ⟨t', ht', hQ⟩ := g3 0 (by
    intro q hq
    rw [← hsc, g1, hst] at hq
    exact aget_of_mem hnd hq)
  exact filterParse_hidden hst hw hw' (hhl.trans ht') hQ

end
end Scim
