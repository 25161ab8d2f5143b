import Verif.Model.Filter
import Verif.Spec.Filter
import Verif.Lemmas.AttrRep

/-! Lemmas on the text functions of the filter parser. -/

namespace Scim

/-! ## Replacement -/

/-- A text whose character `q` is its first one in what precedes is replaced where it stands. -/
theorem replaceFirst_at (n r m pre rest : Str) (q : Char) (hp : q ∉ pre) (hn : q ∉ n) :
    replaceFirst (n ++ q :: r) m (pre ++ ((n ++ q :: r) ++ rest)) = pre ++ (m ++ rest) := by
  induction pre with
  | nil =>
    have hne : (n ++ q :: r) ++ rest ≠ [] := by simp
    simp only [List.nil_append]
    obtain ⟨c, cs, hc⟩ := List.exists_cons_of_ne_nil hne
    have hpre : (n ++ q :: r).isPrefixOf (c :: cs) = true := by
      rw [List.isPrefixOf_iff_prefix, ← hc]; exact List.prefix_append _ _
    rw [hc]
    unfold replaceFirst
    rw [if_pos hpre, ← hc, List.drop_left]
  | cons c pre ih =>
    rw [List.cons_append]
    unfold replaceFirst
    rw [if_neg, ih (fun h => hp (by simp [h]))]
    · rfl
    · rw [List.isPrefixOf_iff_prefix]
      rintro ⟨x, hx⟩
      have h1 : (n ++ q :: r ++ x)[n.length]? = some q := by simp
      rw [hx] at h1
      have h2 : (c :: (pre ++ ((n ++ q :: r) ++ rest))) = (c :: pre ++ n) ++ (q :: r ++ rest) := by simp
      rw [h2, List.getElem?_append_left (by simp; omega)] at h1
      have := List.mem_of_getElem? h1
      simp only [List.cons_append, List.mem_cons, List.mem_append] at this hp
      rcases this with h | h | h
      · exact hp (.inl h)
      · exact hp (.inr h)
      · exact hn h

theorem replaceAllAux_skip (n m s : Str) (k : Nat) (h : s.length ≤ k) : replaceAllAux n m k s = [] := by
  induction s generalizing k with
  | nil => cases k <;> rfl
  | cons c cs ih =>
    cases k with
    | zero => simp at h
    | succ k => exact ih k (by simpa using h)

theorem replaceAll_self (n m : Str) (h : n ≠ []) : replaceAll n m n = m := by
  obtain ⟨c, cs, rfl⟩ := List.exists_cons_of_ne_nil h
  unfold replaceAll replaceAllAux
  rw [if_pos (by rw [List.isPrefixOf_iff_prefix]; exact List.prefix_refl _),
    replaceAllAux_skip _ _ _ _ (by simp)]
  simp

section
variable [PyEnv]

/-! ## Characters -/

theorem not_space_of_ascii (c : Char) (h1 : c.toNat < 128) (h2 : asciiSpace c = false) : isSpace c = false := by
  rw [PyEnv.isSpace_ascii c h1]; exact h2

theorem space_not_word {c : Char} (h : isSpace c = true) : isWord c = false := PyEnv.space_not_word c h

theorem word_not_space {c : Char} (h : isWord c = true) : isSpace c = false := by
  cases hs : isSpace c with
  | false => rfl
  | true => rw [space_not_word hs] at h; cases h

theorem Ws.head {w : Str} (h : Ws w) (hne : w ≠ []) : ∃ c cs, w = c :: cs ∧ isSpace c = true := by
  obtain ⟨c, cs, rfl⟩ := List.exists_cons_of_ne_nil hne
  exact ⟨c, cs, rfl, h c (by simp)⟩

theorem Ws.tail {c : Char} {w : Str} (h : Ws (c :: w)) : Ws w := fun x hx => h x (by simp [hx])

theorem Ws.append {w w' : Str} (h : Ws w) (h' : Ws w') : Ws (w ++ w') := by
  intro c hc
  rcases List.mem_append.mp hc with hc | hc
  · exact h c hc
  · exact h' c hc

theorem Ws.nil : Ws [] := by intro c hc; simp at hc

theorem Ws.not_mem {w : Str} (h : Ws w) {c : Char} (hc : c.toNat < 128) (hs : asciiSpace c = false) : c ∉ w := by
  intro hm
  have := h c hm
  rw [not_space_of_ascii c hc hs] at this
  cases this

/-- The first character is not white space. -/
def HeadOk (s : Str) : Prop := ∃ c cs, s = c :: cs ∧ isSpace c = false

/-- The last character is not white space. -/
def LastOk (s : Str) : Prop := ∃ cs c, s = cs ++ [c] ∧ isSpace c = false

theorem HeadOk.append {s : Str} (h : HeadOk s) (t : Str) : HeadOk (s ++ t) := by
  obtain ⟨c, cs, rfl, hc⟩ := h
  exact ⟨c, cs ++ t, rfl, hc⟩

theorem LastOk.append {t : Str} (h : LastOk t) (s : Str) : LastOk (s ++ t) := by
  obtain ⟨cs, c, rfl, hc⟩ := h
  exact ⟨s ++ cs, c, by simp, hc⟩

theorem HeadOk.ne_nil {s : Str} (h : HeadOk s) : s ≠ [] := by
  obtain ⟨c, cs, rfl, -⟩ := h; simp

theorem headOk_of_all {s : Str} (hne : s ≠ []) (h : ∀ c ∈ s, isSpace c = false) : HeadOk s := by
  obtain ⟨c, cs, rfl⟩ := List.exists_cons_of_ne_nil hne
  exact ⟨c, cs, rfl, h c (by simp)⟩

theorem lastOk_of_all {s : Str} (hne : s ≠ []) (h : ∀ c ∈ s, isSpace c = false) : LastOk s := by
  refine ⟨s.dropLast, s.getLast hne, (List.dropLast_concat_getLast hne).symm, h _ (List.getLast_mem hne)⟩

theorem lstrip_ws {w s : Str} (hw : Ws w) : lstrip (w ++ s) = lstrip s := by
  induction w with
  | nil => rfl
  | cons c w ih =>
    unfold lstrip at *
    rw [List.cons_append, List.dropWhile_cons, if_pos (hw c (by simp))]
    exact ih hw.tail

theorem lstrip_head {s : Str} (h : HeadOk s) : lstrip s = s := by
  obtain ⟨c, cs, rfl, hc⟩ := h
  unfold lstrip
  rw [List.dropWhile_cons, if_neg (by simp [hc])]

theorem lstrip_all {w : Str} (hw : Ws w) : lstrip w = [] := by
  have := lstrip_ws (s := []) hw
  rw [List.append_nil] at this
  rw [this]; rfl

theorem Ws.reverse {w : Str} (hw : Ws w) : Ws w.reverse := fun c hc => hw c (by simpa using hc)

theorem LastOk.reverse {s : Str} (h : LastOk s) : HeadOk s.reverse := by
  obtain ⟨cs, c, rfl, hc⟩ := h
  exact ⟨c, cs.reverse, by simp, hc⟩

theorem strip_ws {w s w' : Str} (hw : Ws w) (hw' : Ws w') (h : HeadOk s) (hl : LastOk s) :
    strip (w ++ s ++ w') = s := by
  unfold strip
  rw [List.append_assoc, lstrip_ws hw, lstrip_head (h.append w'), List.reverse_append, lstrip_ws hw'.reverse,
    lstrip_head hl.reverse, List.reverse_reverse]

theorem strip_self {s : Str} (h : HeadOk s) (hl : LastOk s) : strip s = s := by
  have := strip_ws (w := []) (w' := []) Ws.nil Ws.nil h hl
  simpa using this

/-- White space split off. -/
theorem split_ws (s : Str) : ∃ w y, s = w ++ y ∧ Ws w ∧ (y = [] ∨ HeadOk y) := by
  induction s with
  | nil => exact ⟨[], [], rfl, Ws.nil, .inl rfl⟩
  | cons c s ih =>
    cases hc : isSpace c with
    | false => exact ⟨[], c :: s, rfl, Ws.nil, .inr ⟨c, s, rfl, hc⟩⟩
    | true =>
      obtain ⟨w, y, rfl, hw, hy⟩ := ih
      refine ⟨c :: w, y, rfl, ?_, hy⟩
      intro d hd
      rcases List.mem_cons.mp hd with rfl | hd
      · exact hc
      · exact hw d hd

omit [PyEnv] in
theorem getLast?_append_ne (x : Str) {y : Str} (h : y ≠ []) : (x ++ y).getLast? = y.getLast? := by
  rw [List.getLast?_append, List.getLast?_eq_some_getLast h]; rfl

/-! ## Words -/

/-- No word continues from `x` to `y`. -/
def Gap (x y : Str) : Prop :=
  ∀ c d, x.getLast? = some c → y.head? = some d → isWord c = false ∨ isWord d = false

theorem NoWord.append {kw x y : Str} (hk : ∀ c ∈ kw, isWord c = true) (hx : NoWord kw x)
    (hy : NoWord kw y) (hg : Gap x y) : NoWord kw (x ++ y) := by
  intro a b h
  rw [List.append_assoc, List.append_eq_append_iff] at h
  rcases h with ⟨u, hu1, hu2⟩ | ⟨u, hu1, hu2⟩
  · -- a = x ++ u
    rcases hy u b (by rw [hu2, List.append_assoc]) with ⟨c, hc, hw⟩ | h
    · left
      refine ⟨c, ?_, hw⟩
      rw [hu1, List.getLast?_append, hc]; rfl
    · exact .inr h
  · -- x = a ++ u, kw ++ b = u ++ y
    rw [List.append_eq_append_iff] at hu2
    rcases hu2 with ⟨v, hv1, hv2⟩ | ⟨v, hv1, hv2⟩
    · -- u = kw ++ v
      rcases hx a v (by rw [hu1, hv1, List.append_assoc]) with h | ⟨c, hc, hw⟩
      · exact .inl h
      · right
        refine ⟨c, ?_, hw⟩
        rw [hv2, List.head?_append, hc]; rfl
    · -- kw = u ++ v, y = v ++ b
      cases u with
      | nil =>
        simp at hv1
        subst hv1
        rcases hy [] b (by simpa using hv2) with ⟨c, hc, -⟩ | h
        · simp at hc
        · exact .inr h
      | cons d u =>
        cases v with
        | nil =>
          simp at hv1
          rcases hx a [] (by rw [hu1, ← hv1]; simp) with h | ⟨c, hc, -⟩
          · exact .inl h
          · simp at hc
        | cons e v =>
          exfalso
          have h1 : x.getLast? = some ((d :: u).getLast (by simp)) := by
            rw [hu1, List.getLast?_append, List.getLast?_eq_some_getLast (by simp)]; rfl
          have h2 : y.head? = some e := by rw [hv2]; rfl
          rcases hg _ _ h1 h2 with h | h
          · rw [hk _ (by rw [hv1]; exact List.mem_append_left _ (List.getLast_mem _))] at h; cases h
          · rw [hk e (by rw [hv1]; simp)] at h; cases h

theorem NoWord.of_not_mem {kw s : Str} {c : Char} (hc : c ∈ kw) (hs : c ∉ s) : NoWord kw s := by
  intro a b h
  exact absurd (by rw [h]; simp [hc]) hs

theorem NoWord.ws {kw w : Str} (hk : ∀ c ∈ kw, isWord c = true) (hne : kw ≠ []) (hw : Ws w) : NoWord kw w := by
  obtain ⟨c, cs, rfl⟩ := List.exists_cons_of_ne_nil hne
  apply NoWord.of_not_mem (c := c) (by simp)
  intro h
  have := hk c (by simp)
  rw [space_not_word (hw c h)] at this
  cases this

theorem Gap.ws_left {w y : Str} (hw : Ws w) (hne : w ≠ []) (x : Str) : Gap (x ++ w) y := by
  intro c d hc _
  left
  apply space_not_word
  apply hw
  rw [getLast?_append_ne _ hne] at hc
  exact List.mem_of_getLast? hc

theorem Gap.ws_right {x w : Str} (hw : Ws w) (y : Str) (hne : w ≠ []) : Gap x (w ++ y) := by
  intro c d _ hd
  right
  apply space_not_word
  obtain ⟨e, cs, rfl, he⟩ := hw.head hne
  simp at hd
  rw [← hd]; exact he

/-- A keyword of word characters. -/
structure IsKw (kw : Str) : Prop where
  ne : kw ≠ []
  word : ∀ c ∈ kw, isWord c = true

theorem isKw_ascii {kw : Str} (hne : kw ≠ []) (h : ∀ c ∈ kw, c.toNat < 128 ∧ asciiWord c = true) : IsKw kw :=
  ⟨hne, fun c hc => by rw [PyEnv.isWord_ascii c (h c hc).1]; exact (h c hc).2⟩

theorem kwOr : IsKw "or".toList := isKw_ascii (by decide) (by decide)
theorem kwAnd : IsKw "and".toList := isKw_ascii (by decide) (by decide)
theorem kwNot : IsKw "not".toList := isKw_ascii (by decide) (by decide)

theorem IsKw.headOk {kw : Str} (h : IsKw kw) : HeadOk kw :=
  headOk_of_all h.ne (fun c hc => word_not_space (h.word c hc))

/-! ## Splitting at a keyword -/

theorem splitKw_ne_nil (kw s : Str) (pw : Bool) (k : Nat) : splitKw kw s pw k ≠ [] := by
  induction s generalizing pw k with
  | nil => simp [splitKw]
  | cons c cs ih =>
    cases k with
    | succ k => rw [splitKw]; exact ih _ _
    | zero =>
      rw [splitKw]
      split
      · simp
      · split <;> simp

theorem splitKw_single {kw s : Str} {pw : Bool} {p : Str} (h : splitKw kw s pw 0 = [p]) : p = s := by
  induction s generalizing pw p with
  | nil => simp [splitKw] at h; exact h
  | cons c cs ih =>
    rw [splitKw] at h
    split at h
    · simp at h
      exact absurd h.2 (splitKw_ne_nil _ _ _ _)
    · split at h
      · rename_i hn; exact absurd hn (splitKw_ne_nil _ _ _ _)
      · rename_i q qs hq
        simp at h
        obtain ⟨h1, h2⟩ := h
        subst h2
        rw [← h1, ih hq]

/-- whether the character before the end is a word character -/
def lastWord (pw : Bool) (x : Str) : Bool :=
  match x.getLast? with
  | none => pw
  | some c => isWord c

theorem lastWord_cons (pw : Bool) (c : Char) (x : Str) : lastWord pw (c :: x) = lastWord (isWord c) x := by
  unfold lastWord
  cases x with
  | nil => rfl
  | cons d x => rw [List.getLast?_cons_cons, List.getLast?_eq_some_getLast (by simp)]

theorem matchKw_none {kw : Str} (hk : IsKw kw) {a x rest : Str} {pw : Bool} (hx : LastOk x)
    (hn : NoWord kw (a ++ x)) (hpw : a ≠ [] → pw = lastWord false a) (hr : rest = [] ∨ ∃ c cs, rest = c :: cs ∧ isSpace c = true) :
    matchKw kw pw (x ++ rest) = none := by
  unfold matchKw
  dsimp only
  rw [if_neg]
  intro hm
  simp only [Bool.and_eq_true, Bool.or_eq_true, decide_eq_true_eq, Bool.not_eq_true', List.isPrefixOf_iff_prefix] at hm
  obtain ⟨⟨⟨z, hz⟩, hb⟩, ha⟩ := hm
  -- split off the white space
  obtain ⟨w, y, rfl, hw, hy⟩ : ∃ w y, x = w ++ y ∧ Ws w ∧ HeadOk y := by
    obtain ⟨w, y, rfl, hw, hy⟩ := split_ws x
    refine ⟨w, y, rfl, hw, hy.resolve_left ?_⟩
    rintro rfl
    obtain ⟨cs, c, hcs, hc⟩ := hx
    rw [List.append_nil] at hcs
    rw [hw c (by rw [hcs]; simp)] at hc
    cases hc
  have hstrip : lstrip (w ++ y ++ rest) = y ++ rest := by
    rw [List.append_assoc, lstrip_ws hw, lstrip_head (hy.append rest)]
  rw [hstrip] at hz hb ha
  -- the keyword lies within y
  rw [List.append_eq_append_iff] at hz
  rcases hz with ⟨v, hv1, hv2⟩ | ⟨v, hv1, hv2⟩
  · -- y = kw ++ v
    subst hv1
    rcases hn (a ++ w) v (by simp) with ⟨c, hc, hcw⟩ | ⟨c, hc, hcw⟩
    · have hw0 : w = [] := by
        cases w with
        | nil => rfl
        | cons d w =>
          rw [getLast?_append_ne _ (by simp)] at hc
          have := space_not_word (hw c (List.mem_of_getLast? hc))
          rw [this] at hcw; cases hcw
      subst hw0
      have hane : a ≠ [] := by rintro rfl; simp at hc
      rw [List.append_nil] at hc
      have := hpw hane
      unfold lastWord at this
      rw [hc] at this
      dsimp only at this
      rw [hcw] at this
      subst this
      simp at hb
    · have : (List.drop kw.length (kw ++ v ++ rest)).head? = some c := by
        rw [List.append_assoc, List.drop_left, List.head?_append, hc]; rfl
      rw [this] at ha
      simp [hcw] at ha
  · -- kw = y ++ v, rest = v ++ z
    cases v with
    | nil =>
      simp at hv1 hv2
      subst hv1
      rcases hn (a ++ w) [] (by simp) with ⟨c, hc, hcw⟩ | ⟨c, hc, hcw⟩
      · have hw0 : w = [] := by
          cases w with
          | nil => rfl
          | cons d w =>
            rw [getLast?_append_ne _ (by simp)] at hc
            have := space_not_word (hw c (List.mem_of_getLast? hc))
            rw [this] at hcw; cases hcw
        subst hw0
        have hane : a ≠ [] := by rintro rfl; simp at hc
        rw [List.append_nil] at hc
        have := hpw hane
        unfold lastWord at this
        rw [hc] at this
        dsimp only at this
        rw [hcw] at this
        subst this
        simp at hb
      · simp at hc
    | cons d v =>
      rcases hr with rfl | ⟨c, cs, rfl, hc⟩
      · simp at hv2
      · simp only [List.cons_append, List.cons.injEq] at hv2
        have := hk.word d (by rw [hv1]; simp)
        rw [← hv2.1, space_not_word hc] at this
        cases this

/-- Prepending to the first piece. -/
def consTo (x : Str) : List Str → List Str
  | [] => [x]
  | p :: ps => (x ++ p) :: ps

theorem splitKw_piece {kw : Str} (hk : IsKw kw) (x a rest : Str) (pw : Bool) (hx : x = [] ∨ LastOk x)
    (hn : NoWord kw (a ++ x)) (hpw : a ≠ [] → pw = lastWord false a)
    (hr : rest = [] ∨ ∃ c cs, rest = c :: cs ∧ isSpace c = true) :
    splitKw kw (x ++ rest) pw 0 = consTo x (splitKw kw rest (lastWord pw x) 0) := by
  induction x generalizing a pw with
  | nil =>
    simp only [List.nil_append, lastWord, List.getLast?_nil]
    cases h : splitKw kw rest pw 0 with
    | nil => exact absurd h (splitKw_ne_nil _ _ _ _)
    | cons p ps => rfl
  | cons c x ih =>
    have hx' : LastOk (c :: x) := by
      rcases hx with h | h
      · cases h
      · exact h
    have hnone := matchKw_none hk hx' hn hpw hr
    rw [List.cons_append] at hnone ⊢
    rw [splitKw, hnone]
    dsimp only
    have hx2 : x = [] ∨ LastOk x := by
      obtain ⟨cs, d, hd, hs⟩ := hx'
      cases cs with
      | nil => simp at hd; exact .inl hd.2
      | cons e cs =>
        simp at hd
        exact .inr ⟨cs, d, hd.2, hs⟩
    rw [ih (a ++ [c]) (isWord c) hx2 (by simpa using hn) (by intro _; simp [lastWord]), ← lastWord_cons pw c x]
    cases h : splitKw kw rest (lastWord pw (c :: x)) 0 with
    | nil => exact absurd h (splitKw_ne_nil _ _ _ _)
    | cons p ps => rfl

theorem splitKw_skip (kw u v : Str) (pw : Bool) : splitKw kw (u ++ v) pw u.length = splitKw kw v (lastWord pw u) 0 := by
  induction u generalizing pw with
  | nil => rfl
  | cons c u ih => rw [List.cons_append, List.length_cons, splitKw, ih, lastWord_cons]

theorem matchKw_some {kw w w' next : Str} (hk : IsKw kw) (pw : Bool) (hw : Ws w) (hne : w ≠ [] ∨ pw = false)
    (hw' : Ws w') (hg : ∀ c, (w' ++ next).head? = some c → isWord c = false) (hnext : HeadOk next) :
    matchKw kw pw (w ++ kw ++ w' ++ next) = some next := by
  unfold matchKw
  dsimp only
  have h1 : lstrip (w ++ kw ++ w' ++ next) = kw ++ (w' ++ next) := by
    rw [List.append_assoc, List.append_assoc, lstrip_ws hw, lstrip_head (hk.headOk.append _)]
  rw [h1, if_pos, List.drop_left, lstrip_ws hw', lstrip_head hnext]
  simp only [Bool.and_eq_true, Bool.or_eq_true, decide_eq_true_eq, Bool.not_eq_true', List.isPrefixOf_iff_prefix]
  refine ⟨⟨List.prefix_append _ _, ?_⟩, ?_⟩
  · rcases hne with h | h
    · left
      have := List.length_pos_iff.mpr h
      simp only [List.length_append]; omega
    · right; exact h
  · rw [List.drop_left]
    cases hh : (w' ++ next).head? with
    | none => rfl
    | some c => simp [hg c hh]

theorem splitKw_sep {kw w w' next : Str} (hk : IsKw kw) (pw : Bool) (hw : Ws w) (hne : w ≠ [])
    (hw' : Ws w') (hne' : w' ≠ []) (hnext : HeadOk next) :
    splitKw kw (w ++ kw ++ w' ++ next) pw 0 = [] :: splitKw kw next false 0 := by
  obtain ⟨c, cs, rfl, hc⟩ := hw.head hne
  obtain ⟨d, ds, hd, hds⟩ := hw'.head hne'
  have hm := matchKw_some hk pw hw (.inl hne) hw' (next := next)
    (by intro e he; rw [hd] at he; simp at he; rw [← he]; exact space_not_word hds) hnext
  have e1 : c :: cs ++ kw ++ w' ++ next = c :: ((cs ++ kw ++ w') ++ next) := by simp
  rw [e1] at hm ⊢
  rw [splitKw, hm]
  dsimp only
  have e2 : (cs ++ kw ++ w' ++ next).length - next.length = (cs ++ kw ++ w').length := by
    rw [List.length_append]; omega
  rw [e2, splitKw_skip]
  congr 2
  unfold lastWord
  rw [getLast?_append_ne _ hne', List.getLast?_eq_some_getLast hne']
  exact space_not_word (hw' _ (List.getLast_mem hne'))

/-! ## Splitting at white space -/

theorem splitWs_one {x : Str} (h : ∀ c ∈ x, isSpace c = false) : splitWs x = [x] := by
  induction x with
  | nil => rfl
  | cons c x ih =>
    rw [splitWs, if_neg (by simp [h c (by simp)]), ih (fun d hd => h d (by simp [hd]))]

theorem splitWs_lead {w y : Str} (hw : Ws w) (hne : w ≠ []) (hy : HeadOk y) : splitWs (w ++ y) = [] :: splitWs y := by
  induction w with
  | nil => exact absurd rfl hne
  | cons c w ih =>
    rw [List.cons_append, splitWs, if_pos (hw c (by simp))]
    cases w with
    | nil =>
      obtain ⟨d, ds, rfl, hd⟩ := hy
      simp [hd]
    | cons e w =>
      rw [if_pos (by simp [hw e (by simp)])]
      exact ih hw.tail (by simp)

theorem splitWs_more {x w y : Str} (h : ∀ c ∈ x, isSpace c = false) (hw : Ws w) (hne : w ≠ []) (hy : HeadOk y) :
    splitWs (x ++ (w ++ y)) = x :: splitWs y := by
  induction x with
  | nil => exact splitWs_lead hw hne hy
  | cons c x ih =>
    rw [List.cons_append, splitWs, if_neg (by simp [h c (by simp)]), ih (fun d hd => h d (by simp [hd]))]

/-! ## Placeholders -/

/-- The characters of placeholders. -/
def isMark (c : Char) : Bool := c = '|' || c = '&' || c = '_' || (65 ≤ c.toNat && c.toNat ≤ 90) || (48 ≤ c.toNat && c.toNat ≤ 57)

omit [PyEnv] in
theorem digit_chars {n : Nat} {c : Char} (h : c ∈ Nat.toDigits 10 n) : 48 ≤ c.toNat ∧ c.toNat ≤ 57 := by
  have := Nat.isDigit_of_mem_toDigits (by decide) (by decide) h
  unfold Char.isDigit at this
  simp only [Bool.and_eq_true, decide_eq_true_eq, ge_iff_le, UInt32.le_iff_toNat_le] at this
  exact this

omit [PyEnv] in
theorem mark_of_mem {n : Nat} {c : Char} (h : c ∈ placeholder n) : isMark c = true := by
  unfold placeholder at h
  have h1 : ∀ c ∈ phOpen, isMark c = true := by decide
  have h2 : ∀ c ∈ phClose, isMark c = true := by decide
  rcases List.mem_append.mp h with h | h
  · rcases List.mem_append.mp h with h | h
    · exact h1 c h
    · have := digit_chars h
      unfold isMark
      simp [this.1, this.2]
  · exact h2 c h

omit [PyEnv] in
theorem isMark_ascii {c : Char} (h : isMark c = true) : c.toNat < 128 := by
  unfold isMark at h
  simp only [Bool.or_eq_true, decide_eq_true_eq, Bool.and_eq_true] at h
  rcases h with (((rfl | rfl) | rfl) | h) | h
  · decide
  · decide
  · decide
  · omega
  · omega

theorem mark_not_space {c : Char} (h : isMark c = true) : isSpace c = false := by
  apply not_space_of_ascii _ (isMark_ascii h)
  unfold isMark at h
  unfold asciiSpace
  simp only [Bool.or_eq_true, decide_eq_true_eq, Bool.and_eq_true] at h
  rcases h with (((rfl | rfl) | rfl) | h) | h
  · decide
  · decide
  · decide
  · simp; omega
  · simp; omega

omit [PyEnv] in
theorem placeholder_head (n : Nat) : (placeholder n).head? = some '|' := rfl

omit [PyEnv] in
theorem placeholder_ne (n : Nat) : placeholder n ≠ [] := by
  intro h; have := placeholder_head n; rw [h] at this; cases this

theorem digitsVal_toDigits (n : Nat) : digitsVal (Nat.toDigits 10 n) = n := by
  have h : ∀ (l : Str) (acc : Nat), (∀ c ∈ l, 48 ≤ c.toNat ∧ c.toNat ≤ 57) →
      l.foldl (fun acc c => acc * 10 + (digit c).getD 0) acc = Nat.ofDigitChars 10 l acc := by
    intro l
    induction l with
    | nil => intro acc _; simp [Nat.ofDigitChars_eq_foldl]
    | cons c l ih =>
      intro acc hl
      rw [List.foldl_cons, ih _ (fun d hd => hl d (by simp [hd])), Nat.ofDigitChars_eq_foldl, Nat.ofDigitChars_eq_foldl,
        List.foldl_cons]
      congr 1
      have hc := hl c (by simp)
      rw [PyEnv.digit_ascii c (by omega)]
      unfold asciiDigit
      rw [if_pos hc]
      simp [Nat.mul_comm]
  unfold digitsVal
  rw [h _ 0 (fun c hc => digit_chars hc), Nat.ofDigitChars_ten_toDigits]

theorem placeholderAt_self (n : Nat) (rest : Str) :
    placeholderAt (placeholder n ++ rest) = some ((placeholder n).length, n) := by
  unfold placeholderAt
  have e : placeholder n ++ rest = phOpen ++ (Nat.toDigits 10 n ++ (phClose ++ rest)) := by
    unfold placeholder; simp
  have hd : ∀ c ∈ Nat.toDigits 10 n, (digit c).isSome = true := by
    intro c hc
    have := digit_chars hc
    rw [PyEnv.digit_ascii c (by omega)]
    unfold asciiDigit
    rw [if_pos this]; rfl
  have htw : (Nat.toDigits 10 n ++ (phClose ++ rest)).takeWhile (fun c => (digit c).isSome) = Nat.toDigits 10 n := by
    rw [List.takeWhile_append_of_pos hd]
    have : (phClose ++ rest).takeWhile (fun c => (digit c).isSome) = [] := by
      change List.takeWhile _ ('&' :: ('|' :: rest)) = []
      rw [List.takeWhile_cons, if_neg]
      rw [PyEnv.digit_ascii '&' (by decide)]
      decide
    rw [this, List.append_nil]
  rw [e, if_pos (by rw [List.isPrefixOf_iff_prefix]; exact List.prefix_append _ _), List.drop_left]
  dsimp only
  rw [htw]
  rw [if_pos]
  · rw [digitsVal_toDigits]
    simp [placeholder]; omega
  · simp only [Bool.and_eq_true, Bool.not_eq_true', List.isPrefixOf_iff_prefix]
    refine ⟨?_, by rw [List.drop_left]; exact List.prefix_append _ _⟩
    cases h : Nat.toDigits 10 n with
    | nil => exact absurd h (Nat.toDigits_ne_nil)
    | cons c cs => rfl

theorem parsePlaceholder_self (n : Nat) : parsePlaceholder (placeholder n) = some n := by
  unfold parsePlaceholder
  have := placeholderAt_self n []
  rw [List.append_nil] at this
  rw [this]
  simp

theorem findPlaceholders_skip (s : Str) (k : Nat) (h : s.length ≤ k) : findPlaceholders s k = [] := by
  induction s generalizing k with
  | nil => cases k <;> rfl
  | cons c cs ih =>
    cases k with
    | zero => simp at h
    | succ k => exact ih k (by simpa using h)

theorem findPlaceholders_self (n : Nat) : findPlaceholders (placeholder n) 0 = [(placeholder n, n)] := by
  have h := placeholderAt_self n []
  rw [List.append_nil] at h
  obtain ⟨c, cs, hc⟩ := List.exists_cons_of_ne_nil (placeholder_ne n)
  rw [hc] at h ⊢
  rw [findPlaceholders, h]
  dsimp only
  rw [findPlaceholders_skip _ _ (by simp)]
  simp

theorem placeholderAt_none {s : Str} (h : s.head? ≠ some '|') : placeholderAt s = none := by
  unfold placeholderAt
  rw [if_neg]
  rw [List.isPrefixOf_iff_prefix]
  rintro ⟨t, rfl⟩
  exact h rfl

theorem findPlaceholders_none {s : Str} (h : '|' ∉ s) : findPlaceholders s 0 = [] := by
  induction s with
  | nil => rfl
  | cons c cs ih =>
    rw [findPlaceholders, placeholderAt_none (by simp; rintro rfl; exact h (by simp))]
    exact ih (fun hm => h (by simp [hm]))

theorem encodeStrings_self {strings : List (Nat × Str)} {n : Nat} {t : Str} (h : aget n strings = some t) :
    encodeStrings strings (placeholder n) = t := by
  unfold encodeStrings
  rw [findPlaceholders_self]
  simp only [List.foldl_cons, List.foldl_nil, h]
  exact replaceAll_self _ _ (placeholder_ne n)

theorem encodeStrings_none {strings : List (Nat × Str)} {s : Str} (h : '|' ∉ s) : encodeStrings strings s = s := by
  unfold encodeStrings
  rw [findPlaceholders_none h]
  rfl

end
end Scim
