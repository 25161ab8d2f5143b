import Verif.Lemmas.MessageParts

/-! Lemmas about messages (C102). -/

namespace Scim.Messages

set_option maxHeartbeats 4000000 in
/-- the parts are those of the format strings in the table -/
theorem segs_eq (c : Call) : (aget c.parts.1 table).map (segments false []) = some c.segs := by
  cases c <;> (dsimp only [Call.parts, Call.segs]; decide +kernel)

theorem fill_segs (c : Call) : fill c.parts.2 c.segs = .ok c.text := by
  cases c <;> rfl

theorem make_eq (c : Call) : c.make = .ok { code := c.code, message := c.text, context := c.values.map fun p => (p.1.toList, p.2) } := by
  have h := segs_eq c
  unfold Call.make mk
  cases e : aget c.parts.1 table with
  | none => rw [e] at h; cases h
  | some t =>
    rw [e] at h
    dsimp only
    rw [Option.some.inj h, fill_segs]
    cases c <;> rfl

/-- how the messages of each code begin -/
def heads : List (Nat × Str) :=
  [(105, "unknown unary".toList), (105, "unknown binary".toList), (110, "complex attribute '".toList),
    (110, "complex attribute \"".toList), (111, "attribute '".toList), (111, "attribute \"".toList)] ++
  (table.filter fun p => decide (p.1 ∉ [105, 110, 111])).map fun p => (p.1, p.2.takeWhile (· != '{'))

/-- the codes whose messages may begin alike -/
def alike : List (Nat × Nat) := [(7, 8), (8, 7), (7, 9), (8, 9), (15, 104)]

theorem heads_differ : ∀ x ∈ heads, ∀ y ∈ heads, x.2 <+: y.2 → x.1 = y.1 ∨ (x.1, y.1) ∈ alike := by
  decide +kernel

theorem head?_cons {l : Str} {c : Char} (h : l.head? = some c) : ∃ t, l = c :: t := by
  cases l with
  | nil => cases h
  | cons d t => cases h; exact ⟨t, rfl⟩

theorem head2 {n : Nat} {p q r text : Str} {rest : List Str} (ht : List.flatten (p :: (q ++ r) :: rest) = text)
    (hm : (n, p ++ q) ∈ heads) : ∃ h t, (n, h) ∈ heads ∧ text = h ++ t :=
  ⟨p ++ q, r ++ rest.flatten, hm, by simp [← ht]⟩

set_option maxHeartbeats 4000000 in
theorem text_head (c : Call) (hp : c.Proper) : ∃ h t, (c.code, h) ∈ heads ∧ c.text = h ++ t := by
  cases c
  case unknownOperator t o e =>
    dsimp only [Call.code, Call.text]
    rcases hp with hp | hp
    · rw [hp]; exact head2 (q := "unary".toList) (r := []) rfl (by decide +kernel)
    · rw [hp]; exact head2 (q := "binary".toList) (r := []) rfl (by decide +kernel)
  case emptyComplexAttributeExpression a =>
    dsimp only [Call.code, Call.text]
    rcases hp with hp | hp
    · obtain ⟨t, ht⟩ := head?_cons hp
      rw [ht]; exact head2 (q := ['\'']) (r := t) rfl (by decide +kernel)
    · obtain ⟨t, ht⟩ := head?_cons hp
      rw [ht]; exact head2 (q := ['"']) (r := t) rfl (by decide +kernel)
  case badAttributeName a =>
    dsimp only [Call.code, Call.text]
    rcases hp with hp | hp
    · obtain ⟨t, ht⟩ := head?_cons hp
      rw [ht]; exact head2 (q := ['\'']) (r := t) rfl (by decide +kernel)
    · obtain ⟨t, ht⟩ := head?_cons hp
      rw [ht]; exact head2 (q := ['"']) (r := t) rfl (by decide +kernel)
  all_goals
    dsimp only [Call.code, Call.text, List.flatten]
    exact ⟨_, _, by decide +kernel, rfl⟩

/-- digits, commas and spaces -/
def Listing (s : Str) : Prop := ∀ c ∈ s, c.isDigit = true ∨ c = ',' ∨ c = ' '

theorem joinComma_listing (ns : List Nat) : Listing (joinComma (ns.map fun n => (toString n).toList)) := by
  have hd : ∀ n : Nat, ∀ c ∈ (toString n).toList, c.isDigit = true := by
    intro n c hc
    have e : (toString n).toList = Nat.toDigits 10 n := by simp [toString, Nat.repr]
    rw [e] at hc
    exact Nat.isDigit_of_mem_toDigits (by decide) (by decide) hc
  induction ns with
  | nil => intro c hc; cases hc
  | cons n r ih =>
    cases r with
    | nil => intro c hc; exact Or.inl (hd n c hc)
    | cons m r =>
      intro c hc
      simp only [List.map_cons, joinComma, List.mem_append] at hc ih
      rcases hc with (hc | hc) | hc
      · exact Or.inl (hd n c hc)
      · have : c ∈ [',', ' '] := hc
        simpa using Or.inr this
      · exact ih c hc

theorem getLast?_append_some {a b : Str} {c : Char} (h : b.getLast? = some c) : (a ++ b).getLast? = some c := by
  rw [List.getLast?_append, h]; rfl

theorem last7 (k : Arg) : (Call.reservedKeyword k).text.getLast? = some 'e' := by
  dsimp only [Call.text, List.flatten]
  exact getLast?_append_some (getLast?_append_some (by decide +kernel))

theorem last8 (k : Arg) : (Call.badUrl k).text.getLast? = some 'L' := by
  dsimp only [Call.text, List.flatten]
  exact getLast?_append_some (getLast?_append_some (by decide +kernel))

theorem last_listing {p l : Str} (hp : p.getLast? = some ' ') (hl : Listing l) :
    ∃ c, (List.flatten [p, l]).getLast? = some c ∧ (c.isDigit = true ∨ c = ',' ∨ c = ' ') := by
  rw [show List.flatten [p, l] = p ++ l by simp]
  cases e : l.getLast? with
  | none =>
    rw [List.getLast?_eq_none_iff.mp e, List.append_nil]
    exact ⟨' ', hp, Or.inr (Or.inr rfl)⟩
  | some c => exact ⟨c, getLast?_append_some e, hl c (List.mem_of_getLast? e)⟩

theorem last9 (ns : List Nat) (j : Str) :
    ∃ c, (Call.multiplePrimaryValues ns j).text.getLast? = some c ∧ (c.isDigit = true ∨ c = ',' ∨ c = ' ') := by
  dsimp only [Call.text]
  exact last_listing (by decide +kernel) (joinComma_listing ns)

set_option maxHeartbeats 4000000 in
theorem not_alike {c d : Call} (h : c.text = d.text) : (c.code, d.code) ∉ alike := by
  intro hm
  simp only [alike, List.mem_cons, Prod.mk.injEq, List.not_mem_nil, or_false] at hm
  have h7 : ∀ c : Call, c.code = 7 → c.text.getLast? = some 'e' := by
    intro c hc
    cases c <;> first | (dsimp only [Call.code] at hc; omega) | exact last7 _
  have h8 : ∀ c : Call, c.code = 8 → c.text.getLast? = some 'L' := by
    intro c hc
    cases c <;> first | (dsimp only [Call.code] at hc; omega) | exact last8 _
  have h9 : ∀ c : Call, c.code = 9 → ∃ x, c.text.getLast? = some x ∧ (x.isDigit = true ∨ x = ',' ∨ x = ' ') := by
    intro c hc
    cases c <;> first | (dsimp only [Call.code] at hc; omega) | exact last9 _ _
  rcases hm with ⟨h1, h2⟩ | ⟨h1, h2⟩ | ⟨h1, h2⟩ | ⟨h1, h2⟩ | ⟨h1, h2⟩
  · have := h7 c h1
    rw [h, h8 d h2] at this
    exact absurd this (by decide)
  · have := h8 c h1
    rw [h, h7 d h2] at this
    exact absurd this (by decide)
  · have e := h7 c h1
    obtain ⟨x, hx, hy⟩ := h9 d h2
    rw [h, hx] at e
    cases e
    revert hy; decide
  · have e := h8 c h1
    obtain ⟨x, hx, hy⟩ := h9 d h2
    rw [h, hx] at e
    cases e
    revert hy; decide
  · have e1 : c.text.length = 7 := by
      cases c <;> first | (dsimp only [Call.code] at h1; omega) | decide +kernel
    have e2 : 7 < d.text.length := by
      cases d with
      | missingOperandForOperator o e =>
        dsimp only [Call.text]
        rw [List.flatten_cons, List.length_append]
        have : "missing operand for operator '".toList.length = 30 := by decide +kernel
        omega
      | _ => dsimp only [Call.code] at h2; omega
    rw [h] at e1
    omega

theorem text_code {c d : Call} (hc : c.Proper) (hd : d.Proper) (h : c.text = d.text) : c.code = d.code := by
  obtain ⟨h1, t1, m1, e1⟩ := text_head c hc
  obtain ⟨h2, t2, m2, e2⟩ := text_head d hd
  have p1 : h1 <+: c.text := ⟨t1, e1.symm⟩
  have p2 : h2 <+: c.text := ⟨t2, by rw [h, e2]⟩
  rcases List.prefix_or_prefix_of_prefix p1 p2 with hp | hp
  · rcases heads_differ _ m1 _ m2 hp with e | e
    · exact e
    · exact absurd e (not_alike h)
  · rcases heads_differ _ m2 _ m1 hp with e | e
    · exact e.symm
    · exact absurd e (not_alike h.symm)

theorem shown {a : Arg} {l : List Str} (h : a.str ∈ l ∨ a.repr ∈ l) : a.str <:+: l.flatten ∨ a.repr <:+: l.flatten := by
  have key : ∀ x : Str, x ∈ l → x <:+: l.flatten := by
    intro x hx
    obtain ⟨s, t, rfl⟩ := List.append_of_mem hx
    exact ⟨s.flatten, t.flatten, by simp⟩
  exact h.imp (key _) (key _)

set_option maxHeartbeats 4000000 in
/-- a value of the context is shown in the message, as text or as representation -/
theorem values_shown (c : Call) : ∀ p ∈ c.values, p.2.str <:+: c.text ∨ p.2.repr <:+: c.text := by
  cases c <;> dsimp only [Call.values, Call.text] <;>
    repeat' (first
      | exact fun _ h => absurd h List.not_mem_nil
      | refine List.forall_mem_cons.mpr ⟨?_, ?_⟩
      | (refine shown (Or.inl ?_); dsimp only [entries]
         repeat (first | (with_reducible exact List.Mem.head _) | apply List.Mem.tail)
         done)
      | (refine shown (Or.inr ?_); dsimp only [entries]
         repeat (first | (with_reducible exact List.Mem.head _) | apply List.Mem.tail)
         done))

/-! ### Missing names -/

/-- The name a part stands for. -/
def Seg.name? : Seg → Option Str
  | .lit _ => none
  | .str n => some n
  | .repr n => some n

theorem segs_names (c : Call) (n : Str) : n ∈ c.segs.filterMap Seg.name? ↔ ∃ p ∈ c.values, p.1.toList = n := by
  have h : ∀ k, k ∈ c.segs.filterMap Seg.name? ↔ k ∈ c.values.map (·.1.toList) := by
    cases c
    all_goals (intro k; simp only [Call.segs, Call.values, Seg.name?, List.filterMap_cons, List.filterMap_nil, List.map_cons, List.map_nil, List.mem_cons, List.not_mem_nil, or_false])
    exact Or.comm
  rw [h]
  simp

theorem fill_total {context : List (Str × Arg)} : ∀ {segs : List Seg},
    (∀ n ∈ segs.filterMap Seg.name?, (aget n context).isSome = true) → ∃ m, fill context segs = .ok m
  | [], _ => ⟨_, rfl⟩
  | s :: r, h => by
    obtain ⟨m, hm⟩ := fill_total (context := context) (segs := r) (fun n hn => h n (by
      rw [List.filterMap_cons]; split <;> simp [hn]))
    unfold fill
    rw [hm]
    cases s with
    | lit t => exact ⟨_, rfl⟩
    | str n =>
      have := h n (by simp [Seg.name?])
      obtain ⟨a, ha⟩ := Option.isSome_iff_exists.mp this
      simp only [ha]
      exact ⟨_, rfl⟩
    | repr n =>
      have := h n (by simp [Seg.name?])
      obtain ⟨a, ha⟩ := Option.isSome_iff_exists.mp this
      simp only [ha]
      exact ⟨_, rfl⟩

theorem fill_missing {context : List (Str × Arg)} : ∀ {segs : List Seg} {n : Str},
    n ∈ segs.filterMap Seg.name? → aget n context = none → fill context segs = .error .keyError
  | [], n, h, _ => by cases h
  | s :: r, n, h, hn => by
    unfold fill
    rw [List.filterMap_cons] at h
    cases s with
    | lit t =>
      simp only [Seg.name?] at h
      rw [fill_missing h hn]
    | str k =>
      simp only [Seg.name?, List.mem_cons] at h
      rcases h with rfl | h
      · simp only [hn]
      · rw [fill_missing h hn]
        dsimp only
        cases aget k context <;> rfl
    | repr k =>
      simp only [Seg.name?, List.mem_cons] at h
      rcases h with rfl | h
      · simp only [hn]
      · rw [fill_missing h hn]
        dsimp only
        cases aget k context <;> rfl

theorem parts_code (c : Call) : c.parts.1 = c.code := by cases c <;> rfl

theorem mk_names (c : Call) (context : List (Str × Arg)) :
    ((∀ p ∈ c.values, (aget p.1.toList context).isSome = true) → ∃ e, mk c.code context = .ok e) ∧
    ((∃ p ∈ c.values, aget p.1.toList context = none) → mk c.code context = .error .keyError) := by
  have h := segs_eq c
  rw [parts_code] at h
  unfold mk
  cases e : aget c.code table with
  | none => rw [e] at h; cases h
  | some t =>
    rw [e] at h
    dsimp only
    rw [Option.some.inj h]
    constructor
    · intro hall
      obtain ⟨m, hm⟩ := fill_total (context := context) (segs := c.segs) (fun n hn => by
        obtain ⟨p, hp, rfl⟩ := (segs_names c n).mp hn
        exact hall p hp)
      rw [hm]
      exact ⟨_, rfl⟩
    · rintro ⟨p, hp, hn⟩
      rw [fill_missing ((segs_names c _).mpr ⟨p, hp, rfl⟩) hn]

end Scim.Messages
