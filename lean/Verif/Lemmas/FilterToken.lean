import Verif.Lemmas.FilterStr
import Verif.Lemmas.Assoc

/-! Where the values the parser reads stand in the text. -/

namespace Scim
section
variable [PyEnv]

/-- The text `y` after `t` does not continue a word or begin with a bar. -/
def EndOk (t y : Str) : Prop :=
  y.head? ≠ some '|' ∧ ∀ c d, t.getLast? = some c → y.head? = some d → isWord c = false ∨ isWord d = false

/-- A part of the text. -/
def Tok (s t : Str) : Prop := ∃ x y, s = x ++ t ++ y ∧ EndOk t y

/-- A part of the text after white space. -/
def ValTok (s t : Str) : Prop :=
  ∃ x y, s = x ++ t ++ y ∧ (∃ c, x.getLast? = some c ∧ isSpace c = true) ∧ EndOk t y

theorem EndOk.nil (t : Str) : EndOk t [] := by simp [EndOk]

theorem EndOk.space {t y : Str} {c : Char} (hc : isSpace c = true) : EndOk t (c :: y) := by
  refine ⟨?_, ?_⟩
  · simp; rintro rfl; rw [not_space_of_ascii _ (by decide) (by decide)] at hc; cases hc
  · intro _ d _ hd
    simp at hd
    subst hd
    exact .inr (space_not_word hc)

theorem EndOk.punct {t y : Str} {c : Char} (h1 : c.toNat < 128) (h2 : asciiWord c = false) (h3 : c ≠ '|') :
    EndOk t (c :: y) := by
  refine ⟨by simpa using h3, ?_⟩
  intro _ d _ hd
  simp at hd
  subst hd
  exact .inr (not_word_of_ascii _ h1 h2)

theorem EndOk.glue {u y' y : Str} (h : EndOk (x ++ u ++ y') y) (h' : EndOk u y') : EndOk u (y' ++ y) := by
  cases y' with
  | nil =>
    refine ⟨h.1, ?_⟩
    intro c d hc hd
    refine h.2 c d ?_ hd
    rw [List.append_nil, getLast?_append_ne]
    · exact hc
    · rintro rfl; cases hc
  | cons e y' => exact ⟨h'.1, fun c d hc hd => h'.2 c d hc hd⟩

theorem Tok.refl (s : Str) : Tok s s := ⟨[], [], by simp, EndOk.nil _⟩

theorem Tok.suffix (x s : Str) : Tok (x ++ s) s := ⟨x, [], by simp, EndOk.nil _⟩

theorem Tok.trans {s t u : Str} (h : Tok s t) (h' : Tok t u) : Tok s u := by
  obtain ⟨x, y, rfl, he⟩ := h
  obtain ⟨x', y', rfl, he'⟩ := h'
  exact ⟨x ++ x', y' ++ y, by simp, he.glue he'⟩

theorem Tok.val {s t u : Str} (h : Tok s t) (h' : ValTok t u) : ValTok s u := by
  obtain ⟨x, y, rfl, he⟩ := h
  obtain ⟨x', y', rfl, ⟨c, hc, hs⟩, he'⟩ := h'
  refine ⟨x ++ x', y' ++ y, by simp, ⟨c, ?_, hs⟩, he.glue he'⟩
  rw [getLast?_append_ne]
  · exact hc
  · rintro rfl; cases hc

/-! ## The functions on texts -/

theorem lstrip_suffix (s : Str) : ∃ w, s = w ++ lstrip s ∧ Ws w := by
  refine ⟨s.takeWhile isSpace, (List.takeWhile_append_dropWhile).symm, ?_⟩
  induction s with
  | nil => intro c hc; simp at hc
  | cons d ds ih =>
    intro c hc
    rw [List.takeWhile_cons] at hc
    split at hc
    · rcases List.mem_cons.mp hc with rfl | hc
      · assumption
      · exact ih c hc
    · simp at hc

theorem Tok.strip (s : Str) : Tok s (strip s) := by
  obtain ⟨w, hw, -⟩ := lstrip_suffix s
  obtain ⟨v, hv, hvs⟩ := lstrip_suffix (lstrip s).reverse
  have e : lstrip s = Scim.strip s ++ v.reverse := by
    have := congrArg List.reverse hv
    rw [List.reverse_reverse, List.reverse_append] at this
    exact this
  refine ⟨w, v.reverse, ?_, ?_⟩
  · rw [List.append_assoc, ← e]; exact hw
  · cases hr : v.reverse with
    | nil => exact EndOk.nil _
    | cons c cs =>
      refine EndOk.space (hvs c ?_)
      have : c ∈ v.reverse := by rw [hr]; simp
      simpa using this

theorem matchKw_tok {kw : Str} {pw : Bool} {s rest : Str} (h : matchKw kw pw s = some rest) : Tok s rest := by
  unfold matchKw at h
  dsimp only at h
  split at h
  · cases h
    obtain ⟨w, hw, -⟩ := lstrip_suffix s
    obtain ⟨v, hv, -⟩ := lstrip_suffix ((lstrip s).drop kw.length)
    have e : s = (w ++ (lstrip s).take kw.length ++ v) ++ lstrip ((lstrip s).drop kw.length) := by
      rw [List.append_assoc _ v, ← hv, List.append_assoc, List.take_append_drop]
      exact hw
    have := Tok.suffix (w ++ (lstrip s).take kw.length ++ v) (lstrip ((lstrip s).drop kw.length))
    rw [← e] at this
    exact this
  · cases h

theorem splitWs_cons {s p q : Str} {r : List Str} (h : splitWs s = p :: q :: r) :
    ∃ x s', s = x ++ s' ∧ (∃ c, x.getLast? = some c ∧ isSpace c = true) ∧ splitWs s' = q :: r := by
  induction s generalizing p with
  | nil => simp [splitWs] at h
  | cons c cs ih =>
    rw [splitWs] at h
    split at h
    · rename_i hc
      split at h
      · obtain ⟨x, s', rfl, hx, hs⟩ := ih h
        refine ⟨c :: x, s', rfl, ?_, hs⟩
        obtain ⟨d, hd, hds⟩ := hx
        refine ⟨d, ?_, hds⟩
        have := getLast?_append_ne [c] (y := x) (by rintro rfl; cases hd)
        simpa [hd] using this
      · injection h with h1 h2
        exact ⟨[c], cs, rfl, ⟨c, rfl, hc⟩, h2⟩
    · split at h
      · injection h with h1 h2; cases h2
      · rename_i p' ps hps
        injection h with h1 h2
        subst h2
        obtain ⟨x, s', rfl, hx, hs⟩ := ih hps
        refine ⟨c :: x, s', rfl, ?_, hs⟩
        obtain ⟨d, hd, hds⟩ := hx
        refine ⟨d, ?_, hds⟩
        have := getLast?_append_ne [c] (y := x) (by rintro rfl; cases hd)
        simpa [hd] using this

theorem splitWs_single {s p : Str} (h : splitWs s = [p]) : s = p := by
  induction s generalizing p with
  | nil => simpa [splitWs] using h
  | cons c cs ih =>
    rw [splitWs] at h
    have hne : ∀ t : Str, splitWs t ≠ [] := by
      intro t
      induction t with
      | nil => simp [splitWs]
      | cons d ds ih =>
        rw [splitWs]
        split
        · split
          · exact ih
          · simp
        · split <;> simp
    split at h
    · split at h
      · have := ih h
        subst this
        rename_i hc hh
        -- a text starting with white space has two pieces
        exfalso
        cases cs with
        | nil => simp at hh
        | cons d ds =>
          simp at hh
          have key : ∀ (t : Str) (d : Char), isSpace d = true → ∀ p, splitWs (d :: t) ≠ [p] := by
            intro t
            induction t with
            | nil => intro d hd p; simp [splitWs, hd]
            | cons e t iht =>
              intro d hd p
              rw [splitWs, if_pos hd]
              split
              · rename_i he; simp at he; exact iht e he p
              · intro h'; injection h' with _ h'; exact hne _ h'
          exact key ds d hh _ h
      · injection h with _ h; exact absurd h (hne _)
    · split at h
      · rename_i hn; exact absurd hn (hne _)
      · rename_i p' ps hps
        injection h with h1 h2
        subst h2
        rw [← h1, ih hps]

theorem splitWs_val {s a b c : Str} (h : splitWs s = [a, b, c]) : ValTok s c := by
  obtain ⟨x, s', rfl, hx, hs⟩ := splitWs_cons h
  obtain ⟨x', s'', rfl, ⟨d, hd, hds⟩, hs'⟩ := splitWs_cons hs
  rw [splitWs_single hs']
  refine ⟨x ++ x', [], by simp, ⟨d, ?_, hds⟩, EndOk.nil _⟩
  rw [getLast?_append_ne]
  · exact hd
  · rintro rfl; cases hd

/-- What a match of a keyword begins with. -/
theorem matchKw_head {kw : Str} (hk : IsKw kw) (hb : '|' ∉ kw) {pw : Bool} {c : Char} {cs rest : Str}
    (h : matchKw kw pw (c :: cs) = some rest) : c ≠ '|' ∧ (isWord c = true → pw = false) := by
  unfold matchKw at h
  dsimp only at h
  split at h
  · rename_i hc
    simp only [Bool.and_eq_true, Bool.or_eq_true, decide_eq_true_eq, Bool.not_eq_true'] at hc
    obtain ⟨⟨h1, h2⟩, -⟩ := hc
    by_cases hs : isSpace c = true
    · refine ⟨?_, ?_⟩
      · rintro rfl; rw [not_space_of_ascii _ (by decide) (by decide)] at hs; cases hs
      · intro hw; rw [space_not_word hs] at hw; cases hw
    · have e : lstrip (c :: cs) = c :: cs := lstrip_head ⟨c, cs, rfl, by simpa using hs⟩
      rw [e] at h1 h2
      refine ⟨?_, fun _ => by simpa using h2⟩
      obtain ⟨d, ds, rfl⟩ := List.exists_cons_of_ne_nil hk.ne
      rw [List.isPrefixOf_iff_prefix] at h1
      obtain ⟨r, hr⟩ := h1
      simp at hr
      rintro rfl
      exact hb (by simp [hr.1])
  · cases h

theorem splitKw_first {kw : Str} (hk : IsKw kw) (hb : '|' ∉ kw) (s : Str) (pw : Bool) {p : Str} {ps : List Str}
    (h : splitKw kw s pw 0 = p :: ps) :
    ∃ y, s = p ++ y ∧ y.head? ≠ some '|' ∧ ∀ d, y.head? = some d → isWord d = true → lastWord pw p = false := by
  induction s generalizing pw p ps with
  | nil =>
    simp only [splitKw, List.cons.injEq] at h
    exact ⟨[], by rw [← h.1]; rfl, by simp, by simp⟩
  | cons c cs ih =>
    rw [splitKw] at h
    split at h
    · rename_i rest hm
      injection h with h1 h2
      subst h1
      obtain ⟨g1, g2⟩ := matchKw_head hk hb hm
      refine ⟨c :: cs, rfl, by simpa using g1, ?_⟩
      intro d hd hw
      simp at hd
      subst hd
      exact g2 hw
    · split at h
      · rename_i hn; exact absurd hn (splitKw_ne_nil _ _ _ _)
      · rename_i p' ps' hps
        injection h with h1 h2
        subst h1
        obtain ⟨y, rfl, hy1, hy2⟩ := ih _ hps
        refine ⟨y, rfl, hy1, ?_⟩
        intro d hd hw
        rw [lastWord_cons]
        exact hy2 d hd hw

theorem splitKw_tok {kw : Str} (hk : IsKw kw) (hb : '|' ∉ kw) (s : Str) (pw : Bool) (k : Nat) :
    ∀ p ∈ splitKw kw s pw k, p ≠ [] → Tok s p := by
  induction s generalizing pw k with
  | nil =>
    intro p hp hne
    simp only [splitKw, List.mem_singleton] at hp
    exact absurd hp hne
  | cons c cs ih =>
    intro p hp hne
    have up : Tok cs p → Tok (c :: cs) p := fun h => (Tok.suffix [c] cs).trans h
    cases k with
    | succ k =>
      rw [splitKw] at hp
      exact up (ih _ _ p hp hne)
    | zero =>
      cases hs : splitKw kw (c :: cs) pw 0 with
      | nil => exact absurd hs (splitKw_ne_nil _ _ _ _)
      | cons q qs =>
        have hfirst := splitKw_first hk hb _ _ hs
        rw [hs] at hp
        rw [splitKw] at hs
        rcases List.mem_cons.mp hp with rfl | hp
        · obtain ⟨y, hy, g1, g2⟩ := hfirst
          refine ⟨[], y, by simpa using hy, g1, ?_⟩
          intro a d ha hd
          by_cases hw : isWord d = true
          · left
            have := g2 d hd hw
            simpa [lastWord, ha] using this
          · right; simpa using hw
        · split at hs
          · injection hs with h1 h2
            subst h2
            exact up (ih _ _ p hp hne)
          · split at hs
            · rename_i hn; exact absurd hn (splitKw_ne_nil _ _ _ _)
            · rename_i p' ps' hps
              injection hs with h1 h2
              subst h2
              exact up (ih _ _ p (by rw [hps]; simp [hp]) hne)

/-! ## Replacement -/

omit [PyEnv] in
theorem replaceFirst_cases (n m s : Str) : replaceFirst n m s = s ∨ ∃ a b, s = a ++ n ++ b ∧ replaceFirst n m s = a ++ m ++ b := by
  induction s with
  | nil => exact .inl rfl
  | cons c cs ih =>
    rw [replaceFirst]
    split
    · rename_i h
      right
      rw [List.isPrefixOf_iff_prefix] at h
      obtain ⟨r, hr⟩ := h
      refine ⟨[], r, by simpa using hr.symm, ?_⟩
      rw [← hr]; simp
    · rcases ih with h | ⟨a, b, h1, h2⟩
      · left; rw [h]
      · right; exact ⟨c :: a, b, by rw [h1]; simp, by rw [h2]; simp⟩

/-- Values without bars are not affected by placeholders. -/
theorem valTok_replace {n : Nat} {t s c : Str} (h : ValTok (replaceFirst t (placeholder n) s) c) (hc : '|' ∉ c) :
    ValTok s c := by
  rcases replaceFirst_cases t (placeholder n) s with e | ⟨a, b, rfl, e⟩
  · rw [e] at h; exact h
  · rw [e] at h
    obtain ⟨x, y, hs, ⟨d, hd, hds⟩, he⟩ := h
    obtain ⟨ph, hph⟩ : ∃ ph, placeholder n = '|' :: ph := by
      have := placeholder_head n
      cases hp : placeholder n with
      | nil => exact absurd hp (placeholder_ne n)
      | cons q ph => rw [hp] at this; simp at this; exact ⟨ph, by rw [this]⟩
    have hmark : ∀ q ∈ placeholder n, isSpace q = false := fun q hq => mark_not_space (mark_of_mem hq)
    have hbar : ∀ z : Str, c ++ y = placeholder n ++ z → False := by
      intro z hz
      rw [hph] at hz
      cases c with
      | nil => rw [List.nil_append] at hz; rw [hz] at he; exact he.1 rfl
      | cons q c => simp at hz; exact hc (by simp [hz.1])
    rw [List.append_assoc, List.append_assoc] at hs
    rcases List.append_eq_append_iff.mp hs with ⟨x1, rfl, h1⟩ | ⟨a1, rfl, h1⟩
    · -- the value starts after `a`
      rcases List.append_eq_append_iff.mp h1 with ⟨x2, rfl, h2⟩ | ⟨p2, hp2, h2⟩
      · have hne : x2 ≠ [] := by
          rintro rfl
          rw [List.append_nil, getLast?_append_ne _ (placeholder_ne n)] at hd
          rw [hmark d (List.mem_of_getLast? hd)] at hds
          cases hds
        refine ⟨a ++ t ++ x2, y, by rw [h2]; simp, ⟨d, ?_, hds⟩, he⟩
        rw [getLast?_append_ne _ hne]
        rw [← List.append_assoc, getLast?_append_ne _ hne] at hd
        exact hd
      · cases x1 with
        | nil =>
          rw [List.nil_append] at hp2
          exact (hbar b (by rw [hp2]; exact h2)).elim
        | cons q x1 =>
          rw [getLast?_append_ne _ (by simp)] at hd
          rw [hmark d (by rw [hp2]; exact List.mem_append_left _ (List.mem_of_getLast? hd))] at hds
          cases hds
    · rcases List.append_eq_append_iff.mp h1 with ⟨a2, rfl, h2⟩ | ⟨c1, rfl, h2⟩
      · -- the value ends within `a`
        cases a2 with
        | nil =>
          rw [List.nil_append] at h2
          rw [h2, hph] at he
          exact (he.1 rfl).elim
        | cons q a2 =>
          refine ⟨x, q :: a2 ++ t ++ b, by simp, ⟨d, hd, hds⟩, ?_⟩
          rw [h2] at he
          exact he
      · cases c1 with
        | nil =>
          rw [List.nil_append] at h2
          rw [← h2, hph] at he
          exact (he.1 rfl).elim
        | cons q c1 =>
          rw [hph] at h2
          simp at h2
          exact (hc (by rw [← h2.1]; simp)).elim

theorem valTok_hide (ts : List (Nat × Str)) {s c : Str} (h : ValTok (hideLoop ts s) c) (hc : '|' ∉ c) : ValTok s c := by
  induction ts generalizing s with
  | nil => exact h
  | cons p ts ih =>
    obtain ⟨n, t⟩ := p
    exact valTok_replace (ih h) hc

/-! ## Brackets -/

omit [PyEnv] in
/-- Where a group stands. -/
theorem scanGroups_inside (s : Str) (pos : Nat) (ig : Bool) (g : Option OpenGroup) (pre : Str)
    (hg : ∀ o, g = some o → ∃ u, o.text = u ++ ['('] ∧ u.reverse <:+ pre) :
    ∀ p ∈ (scanGroups s pos ig g).groups, ∃ x u y, pre ++ s = x ++ u ++ ')' :: y ∧ p.2 = '(' :: u ++ [')'] := by
  induction s generalizing pos ig g pre with
  | nil => simp [scanGroups]
  | cons c cs ih =>
    intro p hp
    have ext : ∀ o, g = some o → ∃ u, (c :: o.text) = u ++ ['('] ∧ u.reverse <:+ pre ++ [c] := by
      intro o ho
      obtain ⟨u, hu, x, hx⟩ := hg o ho
      exact ⟨c :: u, by rw [hu]; rfl, x, by rw [← hx]; simp⟩
    have e : pre ++ c :: cs = (pre ++ [c]) ++ cs := by simp
    rw [scanGroups.eq_def] at hp
    dsimp only at hp
    generalize (if c = '"' then !ig else ig) = ig' at hp
    rw [e]
    split at hp
    · refine ih _ _ _ (pre ++ [c]) ?_ p hp
      intro o ho
      cases g with
      | none => cases ho
      | some o' => cases ho; exact ext o' rfl
    · split at hp
      · split at hp
        · rename_i hc
          refine ih _ _ _ (pre ++ [c]) ?_ p hp
          intro o ho
          cases ho
          exact ⟨[], by rw [hc]; rfl, by simp⟩
        · split at hp
          · exact ih _ _ _ (pre ++ [c]) (by simp) p hp
          · exact ih _ _ _ (pre ++ [c]) (by simp) p hp
      · split at hp
        · refine ih _ _ _ (pre ++ [c]) ?_ p hp
          intro o ho
          cases ho
          exact ext _ rfl
        · split at hp
          · rename_i hc
            split at hp
            · simp only [List.mem_cons] at hp
              rcases hp with rfl | hp
              · obtain ⟨u, hu, x, hx⟩ := hg _ rfl
                refine ⟨x, u.reverse, cs, ?_, ?_⟩
                · rw [hx, hc]; simp
                · rw [hc]; simp [hu]
              · exact ih _ _ _ (pre ++ [c]) (by simp) p hp
            · refine ih _ _ _ (pre ++ [c]) ?_ p hp
              intro o ho
              cases ho
              exact ext _ rfl
          · refine ih _ _ _ (pre ++ [c]) ?_ p hp
            intro o ho
            cases ho
            exact ext _ rfl

/-- The text inside a group. -/
theorem group_tok {s : Str} {p : Nat × Str} (hp : p ∈ (scanGroups s 0 false none).groups) :
    Tok s (p.2.drop 1).dropLast := by
  obtain ⟨x, u, y, h1, h2⟩ := scanGroups_inside s 0 false none [] (by simp) p hp
  rw [h2]
  have e : ('(' :: u ++ [')']).drop 1 = u ++ [')'] := by simp
  rw [e, List.dropLast_concat]
  exact ⟨x, ')' :: y, by simpa using h1, EndOk.punct (by decide) (by decide) (by decide)⟩

/-- Where the inside of a complex-attribute filter stands. -/
theorem scanCplx_inside (s : Str) (pos : Nat) (ig : Bool) (rep : Str) (b : Option OpenBracket) (pre : Str)
    (hb : ∀ o, b = some o → o.text.reverse <:+ pre) :
    ∀ p ∈ (scanCplx s pos ig rep b).items, ∃ x y, pre ++ s = x ++ p.sub ++ ']' :: y := by
  induction s generalizing pos ig rep b pre with
  | nil => simp [scanCplx]
  | cons c cs ih =>
    intro p hp
    have ext : ∀ o, b = some o → (c :: o.text).reverse <:+ pre ++ [c] := by
      intro o ho
      obtain ⟨x, hx⟩ := hb o ho
      exact ⟨x, by rw [← hx]; simp⟩
    have e : pre ++ c :: cs = (pre ++ [c]) ++ cs := by simp
    rw [scanCplx.eq_def] at hp
    dsimp only at hp
    generalize (if c = '"' then !ig else ig) = ig' at hp
    rw [e]
    split at hp
    · refine ih _ _ _ _ (pre ++ [c]) ?_ p hp
      intro o ho
      cases b with
      | none => cases ho
      | some o' => cases ho; exact ext o' rfl
    · split at hp
      · split at hp
        · exact ih _ _ _ _ (pre ++ [c]) (by simp) p hp
        · split at hp
          · refine ih _ _ _ _ (pre ++ [c]) ?_ p hp
            intro o ho
            cases ho
            simp
          · split at hp
            · exact ih _ _ _ _ (pre ++ [c]) (by simp) p hp
            · exact ih _ _ _ _ (pre ++ [c]) (by simp) p hp
      · split at hp
        · simp at hp
        · split at hp
          · rename_i hc
            simp only [List.mem_cons] at hp
            rcases hp with rfl | hp
            · obtain ⟨x, hx⟩ := hb _ rfl
              exact ⟨x, cs, by rw [hc]; simp [← hx]⟩
            · exact ih _ _ _ _ (pre ++ [c]) (by simp) p hp
          · refine ih _ _ _ _ (pre ++ [c]) ?_ p hp
            intro o ho
            cases ho
            exact ext _ rfl

/-- The text inside a complex-attribute filter. -/
theorem cplx_tok {s : Str} {p : CplxItem} (hp : p ∈ (scanCplx s 0 false [] none).items) : Tok s p.sub := by
  obtain ⟨x, y, h⟩ := scanCplx_inside s 0 false [] none [] (by simp) p hp
  exact ⟨x, ']' :: y, by simpa using h, EndOk.punct (by decide) (by decide) (by decide)⟩

/-! ## Encoded values -/

/-- A quote occurs. -/
def HasQuote (s : Str) : Prop := '"' ∈ s ∨ '\'' ∈ s

omit [PyEnv] in
theorem scanStrings_quote (s : Str) (pos k : Nat) : ∀ p ∈ scanStrings s pos k, HasQuote p.2 := by
  induction s generalizing pos k with
  | nil => simp [scanStrings]
  | cons c cs ih =>
    intro p hp
    cases k with
    | succ k => rw [scanStrings] at hp; exact ih _ _ p hp
    | zero =>
      rw [scanStrings] at hp
      split at hp
      · rename_i hc
        rcases List.mem_cons.mp hp with rfl | hp
        · rcases hc.1 with rfl | rfl
          · exact .inr (by simp)
          · exact .inl (by simp)
        · exact ih _ _ p hp
      · exact ih _ _ p hp

omit [PyEnv] in
theorem replaceAll_cases {n m : Str} (hm : HasQuote m) (s : Str) : replaceAll n m s = s ∨ HasQuote (replaceAll n m s) := by
  unfold replaceAll
  induction s with
  | nil => exact .inl rfl
  | cons c cs ih =>
    rw [replaceAllAux]
    split
    · right
      rcases hm with hm | hm
      · exact .inl (List.mem_append_left _ hm)
      · exact .inr (List.mem_append_left _ hm)
    · rcases ih with h | h
      · left; rw [h]
      · right
        exact h.imp (List.mem_cons_of_mem _) (List.mem_cons_of_mem _)

theorem encodeStrings_cases {strings : List (Nat × Str)} (hq : ∀ p ∈ strings, HasQuote p.2) (c : Str) :
    encodeStrings strings c = c ∨ HasQuote (encodeStrings strings c) := by
  unfold encodeStrings
  have key : ∀ (ps : List (Str × Nat)) (acc : Str), (acc = c ∨ HasQuote acc) →
      let r := ps.foldl (fun acc p => match aget p.2 strings with
        | some s => replaceAll p.1 s acc
        | none => acc) acc
      r = c ∨ HasQuote r := by
    intro ps
    induction ps with
    | nil => intro acc h; exact h
    | cons p ps ih =>
      intro acc h
      rw [List.foldl_cons]
      apply ih
      split
      · rename_i s hs
        rcases replaceAll_cases (n := p.1) (hq _ (mem_of_aget hs)) acc with e | e
        · rw [e]; exact h
        · exact .inr e
      · exact h
  exact key _ c (.inl rfl)

theorem encodeStrings_float {strings : List (Nat × Str)} (hq : ∀ p ∈ strings, HasQuote p.2) {c : Str} {f : PyFloat}
    (h : parseFloat (encodeStrings strings c) = some f) : parseFloat c = some f ∧ '|' ∉ c := by
  obtain ⟨h1, h2, h3⟩ := PyEnv.parseFloat_chars _ _ h
  rcases encodeStrings_cases hq c with e | e
  · rw [e] at h h1; exact ⟨h, h1⟩
  · rcases e with e | e
    · exact absurd e h2
    · exact absurd e h3

end
end Scim
