import Verif.Lemmas.FilterFlat

/-! Hiding parts of a text behind placeholders. -/

namespace Scim

/-- A character, or a part to be hidden. -/
inductive Seg where
  | ch (c : Char)
  | item (t : Str)

/-- The text. -/
def orig : List Seg → Str
  | [] => []
  | .ch c :: r => c :: orig r
  | .item t :: r => t ++ orig r

/-- The text with the parts hidden; the first character stands at `pos`. -/
def hid : Nat → List Seg → Str
  | _, [] => []
  | pos, .ch c :: r => c :: hid (pos + 1) r
  | pos, .item t :: r => placeholder pos ++ hid (pos + t.length) r

/-- The hidden parts with their positions. -/
def items : Nat → List Seg → List (Nat × Str)
  | _, [] => []
  | pos, .ch _ :: r => items (pos + 1) r
  | pos, .item t :: r => (pos, t) :: items (pos + t.length) r

/-- Characters only. -/
def chars (s : Str) : List Seg := s.map .ch

theorem orig_append (x y : List Seg) : orig (x ++ y) = orig x ++ orig y := by
  induction x with
  | nil => rfl
  | cons a x ih => cases a <;> simp [orig, ih]

theorem hid_append (pos : Nat) (x y : List Seg) : hid pos (x ++ y) = hid pos x ++ hid (pos + (orig x).length) y := by
  induction x generalizing pos with
  | nil => rfl
  | cons a x ih =>
    cases a with
    | ch c => simp [hid, orig, ih, Nat.add_assoc, Nat.add_comm]
    | item t => simp [hid, orig, ih, Nat.add_assoc]

theorem items_append (pos : Nat) (x y : List Seg) :
    items pos (x ++ y) = items pos x ++ items (pos + (orig x).length) y := by
  induction x generalizing pos with
  | nil => rfl
  | cons a x ih =>
    cases a with
    | ch c => simp [items, orig, ih, Nat.add_assoc, Nat.add_comm]
    | item t => simp [items, orig, ih, Nat.add_assoc]

theorem orig_chars (s : Str) : orig (chars s) = s := by
  induction s with
  | nil => rfl
  | cons c s ih => exact congrArg (c :: ·) ih

theorem hid_chars (pos : Nat) (s : Str) : hid pos (chars s) = s := by
  induction s generalizing pos with
  | nil => rfl
  | cons c s ih => exact congrArg (c :: ·) (ih _)

theorem items_chars (pos : Nat) (s : Str) : items pos (chars s) = [] := by
  induction s generalizing pos with
  | nil => rfl
  | cons c s ih => exact ih _

/-- What is hidden at a stage. -/
structure Stage where
  /-- characters that occur in the hidden parts only -/
  sig : Char → Bool
  /-- characters that do not directly precede a hidden part -/
  glue : Char → Bool
  /-- the hidden parts -/
  itemOk : Str → Prop

/-- The parts are as the stage says; `b` tells whether a character before is of the kind `glue`. -/
def Ok (S : Stage) : Bool → List Seg → Prop
  | _, [] => True
  | _, .ch c :: r => S.sig c = false ∧ Ok S (S.glue c) r
  | b, .item t :: r => b = false ∧ S.itemOk t ∧ Ok S false r

/-- The state after a text. -/
def endState (S : Stage) : Bool → List Seg → Bool
  | b, [] => b
  | _, .ch c :: r => endState S (S.glue c) r
  | _, .item _ :: r => endState S false r

theorem ok_append (S : Stage) (b : Bool) (x y : List Seg) :
    Ok S b (x ++ y) ↔ Ok S b x ∧ Ok S (endState S b x) y := by
  induction x generalizing b with
  | nil => simp [Ok, endState]
  | cons a x ih => cases a <;> simp [Ok, endState, ih, and_assoc]

theorem ok_chars (S : Stage) (b : Bool) (s : Str) (h : ∀ c ∈ s, S.sig c = false) : Ok S b (chars s) := by
  induction s generalizing b with
  | nil => trivial
  | cons c s ih => exact ⟨h c (by simp), ih _ (fun d hd => h d (by simp [hd]))⟩

theorem endState_chars_last (S : Stage) (b : Bool) (s : Str) (c : Char) : endState S b (chars (s ++ [c])) = S.glue c := by
  induction s generalizing b with
  | nil => rfl
  | cons d s ih => exact ih _

theorem Ok.false {S : Stage} {b : Bool} {x : List Seg} (h : Ok S b x) : Ok S false x := by
  cases x with
  | nil => trivial
  | cons a x =>
    cases a with
    | ch c => exact h
    | item t => exact ⟨rfl, h.2⟩

/-- A usable stage: hidden parts have a first `sig` character, placeholders have none. -/
structure Stage.Good (S : Stage) : Prop where
  item : ∀ t, S.itemOk t → ∃ n q r, t = n ++ q :: r ∧ S.sig q = true ∧ ∀ c ∈ n, S.sig c = false
  mark : ∀ c, isMark c = true → S.sig c = false

theorem hideLoop_segs {S : Stage} (hS : S.Good) (b : Bool) (segs : List Seg) (hok : Ok S b segs) (pos : Nat) (pre : Str)
    (hpre : ∀ c ∈ pre, S.sig c = false) : hideLoop (items pos segs) (pre ++ orig segs) = pre ++ hid pos segs := by
  induction segs generalizing b pos pre with
  | nil => rfl
  | cons a x ih =>
    cases a with
    | ch c =>
      have := ih _ hok.2 (pos + 1) (pre ++ [c]) (by
        intro d hd
        rcases List.mem_append.mp hd with hd | hd
        · exact hpre d hd
        · simp at hd; subst hd; exact hok.1)
      simpa [items, orig, hid] using this
    | item t =>
      obtain ⟨-, hit, hok⟩ := hok
      obtain ⟨n, q, r, rfl, hq, hn⟩ := hS.item t hit
      simp only [items, orig, hideLoop, hid]
      rw [replaceFirst_at n r _ pre (orig x) q (fun h => by rw [hpre q h] at hq; cases hq)
        (fun h => by rw [hn q h] at hq; cases hq)]
      have := ih _ hok (pos + (n ++ q :: r).length) (pre ++ placeholder pos) (by
        intro d hd
        rcases List.mem_append.mp hd with hd | hd
        · exact hpre d hd
        · exact hS.mark d (mark_of_mem hd))
      simpa using this

theorem items_ge {S : Stage} (hS : S.Good) (b : Bool) (segs : List Seg) (hok : Ok S b segs) (pos : Nat) :
    (∀ q ∈ items pos segs, pos ≤ q.1) ∧ ((items pos segs).map (·.1)).Nodup ∧
      ∀ q ∈ items pos segs, S.itemOk q.2 := by
  induction segs generalizing b pos with
  | nil => simp [items]
  | cons a x ih =>
    cases a with
    | ch c =>
      obtain ⟨h1, h2, h3⟩ := ih _ hok.2 (pos + 1)
      exact ⟨fun q hq => by have := h1 q hq; omega, h2, h3⟩
    | item t =>
      obtain ⟨-, hit, hok⟩ := hok
      obtain ⟨h1, h2, h3⟩ := ih _ hok (pos + t.length)
      obtain ⟨n, q0, r, ht, -, -⟩ := hS.item t hit
      have hlen : 0 < t.length := by rw [ht]; simp; omega
      refine ⟨?_, ?_, ?_⟩
      · intro q hq
        simp only [items, List.mem_cons] at hq
        rcases hq with rfl | hq
        · exact Nat.le_refl _
        · have := h1 q hq; omega
      · simp only [items, List.map_cons, List.nodup_cons]
        refine ⟨?_, h2⟩
        intro hm
        obtain ⟨q, hq, he⟩ := List.mem_map.mp hm
        have := h1 q hq
        omega
      · intro q hq
        simp only [items, List.mem_cons] at hq
        rcases hq with rfl | hq
        · exact hit
        · exact h3 q hq

/-! ## Lifting the grammar -/

section
variable [PyEnv]

/-- The text `t` has parts such that, hidden, it satisfies `Q`.  `A` tells what placeholders stand for, `b` is the
character groups begin with after hiding. -/
def LiftT (S : Stage) (A : Nat → Str → Prop) (b : Char) (t : Str) (Q : Str → Prop) : Prop :=
  ∃ segs, orig segs = t ∧ Ok S false segs ∧ (t.head? = some '(' → Ok S (S.glue 't') segs) ∧
    ∀ pos, (∀ q ∈ items pos segs, A q.1 q.2) → Q (hid pos segs) ∧ (t.head? = some '(' → (hid pos segs).head? = some b)

/-- All texts of `P` become texts of `P'`. -/
def Lift (S : Stage) (A : Nat → Str → Prop) (b : Char) (P P' : Str → Op → Prop) : Prop :=
  ∀ t o, P t o → LiftT S A b t (fun t' => P' t' o)

/-- White space, letters and `(` do no harm. -/
structure Stage.Plain (S : Stage) : Prop where
  ws : ∀ c, isSpace c = true → S.sig c = false ∧ S.glue c = false
  letter : ∀ c, 97 ≤ c.toNat ∧ c.toNat ≤ 122 → S.sig c = false

omit [PyEnv] in
theorem LiftT.plain {S : Stage} {A : Nat → Str → Prop} {t : Str} {Q : Str → Prop}
    (h : ∀ c ∈ t, S.sig c = false) (hQ : Q t) : LiftT S A '(' t Q :=
  ⟨chars t, orig_chars t, ok_chars _ _ _ h, fun _ => ok_chars _ _ _ h, fun pos _ => by
    rw [hid_chars]; exact ⟨hQ, id⟩⟩

omit [PyEnv] in
theorem LiftT.plain' {S : Stage} {A : Nat → Str → Prop} {b : Char} {t : Str} {Q : Str → Prop}
    (h : ∀ c ∈ t, S.sig c = false) (hn : t.head? ≠ some '(') (hQ : Q t) : LiftT S A b t Q :=
  ⟨chars t, orig_chars t, ok_chars _ _ _ h, fun hh => absurd hh hn, fun pos _ => by
    rw [hid_chars]; exact ⟨hQ, fun hh => absurd hh hn⟩⟩

theorem paren_not_space : isSpace '(' = false := not_space_of_ascii _ (by decide) (by decide)

theorem ok_after_ws {S : Stage} (hS : S.Plain) {w : Str} (hw : Ws w) {segs : List Seg} {b : Bool}
    (h : Ok S false segs) (hb : w ≠ [] ∨ b = false) : Ok S b (chars w ++ segs) := by
  rw [ok_append]
  refine ⟨ok_chars _ _ _ (fun c hc => (hS.ws c (hw c hc)).1), ?_⟩
  rcases List.eq_nil_or_concat w with rfl | ⟨u, c, rfl⟩
  · rcases hb with h | rfl
    · exact absurd rfl h
    · exact h
  · rw [List.concat_eq_append] at hw ⊢
    rw [endState_chars_last, (hS.ws c (hw c (by simp))).2]
    exact h

theorem lift_joined {S : Stage} (hS : S.Plain) {A : Nat → Str → Prop} {b : Char} {kw : Str}
    (hk : ∀ c ∈ kw, 97 ≤ c.toNat ∧ c.toNat ≤ 122)
    {P P' : Str → Op → Prop} (h : Lift S A b P P') {t : Str} {os : List Op} (hj : Joined kw P t os) :
    LiftT S A b t (fun t' => Joined kw P' t' os) := by
  induction hj with
  | one t o ht =>
    obtain ⟨segs, h1, h2, h3, h4⟩ := h t o ht
    exact ⟨segs, h1, h2, h3, fun pos hA => ⟨.one _ _ (h4 pos hA).1, (h4 pos hA).2⟩⟩
  | more t w w' t' o os ht hw hne hw' hne' hj ih =>
    obtain ⟨s1, h1, h2, h3, h4⟩ := h t o ht
    obtain ⟨s2, g1, g2, g3, g4⟩ := ih
    have hmid : ∀ b, Ok S b (chars (w ++ kw) ++ (chars w' ++ s2)) := by
      intro b
      rw [ok_append]
      refine ⟨ok_chars _ _ _ ?_, ok_after_ws hS hw' g2 (.inl hne')⟩
      intro c hc
      rcases List.mem_append.mp hc with hc | hc
      · exact (hS.ws c (hw c hc)).1
      · exact hS.letter c (hk c hc)
    refine ⟨s1 ++ (chars (w ++ kw) ++ (chars w' ++ s2)), ?_, ?_, ?_, ?_⟩
    · simp [orig_append, orig_chars, h1, g1]
    · rw [ok_append]; exact ⟨h2, hmid _⟩
    · intro hh
      rw [ok_append]
      refine ⟨?_, hmid _⟩
      cases t with
      | nil =>
        obtain ⟨c, cs, rfl, hc⟩ := hw.head hne
        simp at hh
        rw [hh, paren_not_space] at hc; cases hc
      | cons d t => exact h3 hh
    · intro pos hA
      simp only [items_append, items_chars, List.nil_append] at hA
      obtain ⟨q1, q2⟩ := h4 pos (fun q hq => hA q (by simp [hq]))
      simp only [hid_append, hid_chars]
      obtain ⟨q3, -⟩ := g4 _ (fun q hq => hA q (List.mem_append_right _ hq))
      refine ⟨?_, ?_⟩
      · have := Joined.more (kw := kw) _ w w' _ o os q1 hw hne hw' hne' q3
        simpa using this
      · intro hh
        cases t with
        | nil =>
          obtain ⟨c, cs, rfl, hc⟩ := hw.head hne
          simp at hh
          rw [hh, paren_not_space] at hc; cases hc
        | cons d t =>
          rw [List.head?_append, q2 hh]; rfl

theorem lift_not {S : Stage} (hS : S.Plain) {A : Nat → Str → Prop} {b : Char}
    {P P' : Str → Op → Prop} (h : Lift S A b P P') : Lift S A b (NotText '(' P) (NotText b P') := by
  intro t o ht
  cases ht with
  | plain t o ht =>
    obtain ⟨segs, h1, h2, h3, h4⟩ := h t o ht
    exact ⟨segs, h1, h2, h3, fun pos hA => ⟨.plain _ _ (h4 pos hA).1, (h4 pos hA).2⟩⟩
  | not w t o ht hw hne =>
    obtain ⟨segs, h1, h2, h3, h4⟩ := h t o ht
    have hok : ∀ b, Ok S b (chars "not".toList ++ (chars w ++ segs)) := by
      intro b
      rw [ok_append]
      refine ⟨ok_chars _ _ _ (fun c hc => hS.letter c ?_), ?_⟩
      · revert hc; revert c; decide
      · by_cases hw0 : w = []
        · subst hw0
          exact h3 (hne.resolve_left (by simp))
        · exact ok_after_ws hS hw h2 (.inl hw0)
    refine ⟨chars "not".toList ++ (chars w ++ segs), ?_, hok _, fun _ => hok _, ?_⟩
    · simp [orig_append, orig_chars, h1]
    · intro pos hA
      simp only [items_append, items_chars, List.nil_append] at hA
      obtain ⟨q1, q2⟩ := h4 _ hA
      simp only [hid_append, hid_chars]
      refine ⟨?_, ?_⟩
      · have := NotText.not (b := b) w _ o q1 hw ?_
        · simpa using this
        · rcases hne with h | h
          · exact .inl h
          · exact .inr (q2 h)
      · intro hh; simp at hh

theorem lift_or {S : Stage} (hS : S.Plain) {A : Nat → Str → Prop} {b : Char}
    {P P' : Str → Op → Prop} (h : Lift S A b P P') : Lift S A b (OrText '(' P) (OrText b P') := by
  have hand : Lift S A b (AndText '(' P) (AndText b P') := by
    rintro t o ⟨os, hj, rfl⟩
    obtain ⟨segs, h1, h2, h3, h4⟩ := lift_joined hS (by decide) (lift_not hS h) hj
    exact ⟨segs, h1, h2, h3, fun pos hA => ⟨⟨os, (h4 pos hA).1, rfl⟩, (h4 pos hA).2⟩⟩
  rintro t o ⟨os, hj, rfl⟩
  obtain ⟨segs, h1, h2, h3, h4⟩ := lift_joined hS (by decide) hand hj
  exact ⟨segs, h1, h2, h3, fun pos hA => ⟨⟨os, (h4 pos hA).1, rfl⟩, (h4 pos hA).2⟩⟩

omit [PyEnv] in
theorem Lift.or_elim {S : Stage} {A : Nat → Str → Prop} {b : Char} {P P' Q Q' : Str → Op → Prop}
    (h1 : Lift S A b P P') (h2 : Lift S A b Q Q') : Lift S A b (fun t o => P t o ∨ Q t o) (fun t o => P' t o ∨ Q' t o) := by
  rintro t o (h | h)
  · obtain ⟨segs, g1, g2, g3, g4⟩ := h1 t o h
    exact ⟨segs, g1, g2, g3, fun pos hA => ⟨.inl (g4 pos hA).1, (g4 pos hA).2⟩⟩
  · obtain ⟨segs, g1, g2, g3, g4⟩ := h2 t o h
    exact ⟨segs, g1, g2, g3, fun pos hA => ⟨.inr (g4 pos hA).1, (g4 pos hA).2⟩⟩

/-- Enclosing a text between two texts of plain characters. -/
theorem LiftT.wrap {S : Stage} (hS : S.Plain) {A : Nat → Str → Prop} {b : Char} {x w t y : Str} {Q : Str → Prop}
    (h : LiftT S A b t Q) (hx : ∀ c ∈ x, S.sig c = false) (hw : Ws w)
    (hxl : ∀ c, x.getLast? = some c → S.glue c = false) (hy : ∀ c ∈ y, S.sig c = false) :
    ∃ segs, orig segs = x ++ w ++ t ++ y ∧ (x ≠ [] → ∀ b, Ok S b segs) ∧ Ok S false segs ∧
      ∀ pos, (∀ q ∈ items pos segs, A q.1 q.2) → ∃ t', hid pos segs = x ++ w ++ t' ++ y ∧ Q t' := by
  obtain ⟨s, h1, h2, h3, h4⟩ := h
  have hx' : ∀ b, (x ≠ [] ∨ b = false) → endState S b (chars x) = false := by
    intro b hb
    rcases List.eq_nil_or_concat x with rfl | ⟨u, c, rfl⟩
    · rcases hb with h | rfl
      · exact absurd rfl h
      · rfl
    · rw [List.concat_eq_append] at hxl ⊢
      rw [endState_chars_last]
      exact hxl c (by simp)
  have hok : ∀ b, (x ≠ [] ∨ b = false) → Ok S b (chars x ++ ((chars w ++ s) ++ chars y)) := by
    intro b hb
    rw [ok_append, hx' b hb, ok_append]
    exact ⟨ok_chars _ _ _ hx, ok_after_ws hS hw h2 (.inr rfl), ok_chars _ _ _ hy⟩
  refine ⟨chars x ++ ((chars w ++ s) ++ chars y), ?_, fun hne b => hok b (.inl hne), hok _ (.inr rfl), ?_⟩
  · simp [orig_append, orig_chars, h1]
  · intro pos hA
    simp only [items_append, items_chars, List.nil_append, List.append_nil] at hA
    refine ⟨hid (pos + (orig (chars x)).length + (orig (chars w)).length) s, ?_, (h4 _ hA).1⟩
    simp [hid_append, hid_chars]

theorem lift_group {S : Stage} (hS : S.Plain) (h1 : S.sig '(' = false) (h2 : S.sig ')' = false) (h3 : S.glue '(' = false)
    {A : Nat → Str → Prop} {P P' : Str → Op → Prop} (h : Lift S A '(' P P') : Lift S A '(' (Group P) (Group P') := by
  intro t o ht
  cases ht with
  | mk w t w' o hw hw' ht =>
    obtain ⟨segs, g1, g2, g3, g4⟩ := LiftT.wrap (x := ['(']) (y := w' ++ [')']) hS (h t o ht) (by simp [h1]) hw (by simp [h3]) (by
      intro c hc
      rcases List.mem_append.mp hc with hc | hc
      · exact (hS.ws c (hw' c hc)).1
      · simp at hc; subst hc; exact h2)
    refine ⟨segs, by simpa using g1, g3, fun _ => g2 (by simp) _, ?_⟩
    intro pos hA
    obtain ⟨t', ht', hP⟩ := g4 pos hA
    rw [ht']
    refine ⟨?_, fun _ => rfl⟩
    have := Group.mk (P := P') w t' w' o hw hw' hP
    simpa using this

theorem lift_nested {S : Stage} (hS : S.Plain) (h1 : S.sig '(' = false) (h2 : S.sig ')' = false) (h3 : S.glue '(' = false)
    {A : Nat → Str → Prop} {V V' : Str → Prim → Prop} {X X' : Str → Op → Prop}
    (hV : Lift S A '(' (Atom V) (Atom V')) (hX : Lift S A '(' X X') (n : Nat) :
    Lift S A '(' (Nested V X n) (Nested V' X' n) := by
  induction n with
  | zero => exact lift_or hS (hV.or_elim hX)
  | succ n ih =>
    rintro t o (h | h)
    · obtain ⟨segs, g1, g2, g3, g4⟩ := lift_or hS (hV.or_elim hX) t o h
      exact ⟨segs, g1, g2, g3, fun pos hA => ⟨.inl (g4 pos hA).1, (g4 pos hA).2⟩⟩
    · obtain ⟨segs, g1, g2, g3, g4⟩ := lift_or hS (hV.or_elim (lift_group hS h1 h2 h3 ih)) t o h
      exact ⟨segs, g1, g2, g3, fun pos hA => ⟨.inr (g4 pos hA).1, (g4 pos hA).2⟩⟩

/-! ## Properties of all texts of the grammar -/

/-- Properties of texts kept by the grammar. -/
structure Closed (C : Str → Prop) : Prop where
  append : ∀ x y, C x → C y → C (x ++ y)
  ws : ∀ w, Ws w → C w
  letters : ∀ s : Str, (∀ c ∈ s, 97 ≤ c.toNat ∧ c.toNat ≤ 122) → C s

theorem joined_closed {C : Str → Prop} (hC : Closed C) {kw : Str} (hk : ∀ c ∈ kw, 97 ≤ c.toNat ∧ c.toNat ≤ 122)
    {P : Str → Op → Prop} (hP : ∀ t o, P t o → C t) {t : Str} {os : List Op} (h : Joined kw P t os) : C t := by
  induction h with
  | one t o h => exact hP t o h
  | more t w w' t' o os h hw hne hw' hne' hj ih =>
    exact hC.append _ _ (hC.append _ _ (hC.append _ _ (hC.append _ _ (hP t o h) (hC.ws w hw)) (hC.letters kw hk)) (hC.ws w' hw')) ih

theorem orText_closed {C : Str → Prop} (hC : Closed C) {b : Char} {P : Str → Op → Prop} (hP : ∀ t o, P t o → C t)
    {t : Str} {o : Op} (h : OrText b P t o) : C t := by
  have hnot : ∀ t o, NotText b P t o → C t := by
    intro t o h
    cases h with
    | plain t o h => exact hP t o h
    | not w t o h hw hne =>
      exact hC.append _ _ (hC.append _ _ (hC.letters _ (by decide)) (hC.ws w hw)) (hP t o h)
  obtain ⟨os, hj, rfl⟩ := h
  refine joined_closed hC (by decide) ?_ hj
  rintro t o ⟨os, hj, rfl⟩
  exact joined_closed hC (by decide) hnot hj

theorem nested_closed {C : Str → Prop} (hC : Closed C) (hg : ∀ t, C t → C ('(' :: t ++ [')'])) {V : Str → Prim → Prop}
    {X : Str → Op → Prop} (hV : ∀ t o, Atom V t o → C t) (hX : ∀ t o, X t o → C t) (n : Nat) {t : Str} {o : Op}
    (h : Nested V X n t o) : C t := by
  induction n generalizing t o with
  | zero =>
    exact orText_closed hC (fun t o h => h.elim (hV t o) (hX t o)) h
  | succ n ih =>
    rcases h with h | h
    · exact orText_closed hC (fun t o h => h.elim (hV t o) (hX t o)) h
    · refine orText_closed hC (fun t o h => h.elim (hV t o) ?_) h
      intro h
      cases h with
      | mk w t w' o hw hw' ht =>
        have := hg _ (hC.append _ _ (hC.append _ _ (hC.ws w hw) (ih ht)) (hC.ws w' hw'))
        simpa using this

theorem orText_ends {b : Char} {P : Str → Op → Prop} (hP : ∀ t o, P t o → HeadOk t ∧ LastOk t)
    {t : Str} {o : Op} (h : OrText b P t o) : HeadOk t ∧ LastOk t := by
  have hj : ∀ (kw : Str) (Q : Str → Op → Prop), (∀ t o, Q t o → HeadOk t ∧ LastOk t) → ∀ t os, Joined kw Q t os →
      HeadOk t ∧ LastOk t := by
    intro kw Q hQ t os h
    induction h with
    | one t o h => exact hQ t o h
    | more t w w' t' o os h hw hne hw' hne' hj ih =>
      exact ⟨((((hQ t o h).1.append w).append _).append w').append t', ih.2.append _⟩
  obtain ⟨os, h, rfl⟩ := h
  refine hj _ _ ?_ t os h
  rintro t o ⟨os, h, rfl⟩
  refine hj _ _ ?_ t os h
  intro t o h
  cases h with
  | plain t o h => exact hP t o h
  | not w t o h hw hne => exact ⟨(kwNot.headOk.append _).append _, (hP t o h).2.append _⟩

theorem nested_ends {V : Str → Prim → Prop} {X : Str → Op → Prop} (hV : ∀ t o, Atom V t o → HeadOk t ∧ LastOk t)
    (hX : ∀ t o, X t o → HeadOk t ∧ LastOk t) (n : Nat) {t : Str} {o : Op} (h : Nested V X n t o) :
    HeadOk t ∧ LastOk t := by
  have hflat := fun t o => orText_ends (b := '(') (P := fun t o => Atom V t o ∨ X t o)
    (fun t o h => h.elim (hV t o) (hX t o)) (t := t) (o := o)
  cases n with
  | zero => exact hflat t o h
  | succ n =>
    rcases h with h | h
    · exact hflat t o h
    · refine orText_ends (fun t o h => h.elim (hV t o) ?_) h
      intro h
      cases h with
      | mk w t w' o hw hw' ht =>
        refine ⟨⟨'(', w ++ t ++ w' ++ [')'], by simp, paren_not_space⟩, ⟨'(' :: w ++ t ++ w', ')', rfl, ?_⟩⟩
        exact not_space_of_ascii _ (by decide) (by decide)

end
end Scim
