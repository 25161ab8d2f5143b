import Verif.Spec.Types

/-!
# Properties of attribute types (C18–C22)
-/

namespace Scim

/-! ### base64 -/

theorem b64Val_char : ∀ n : Fin 64, b64Val (b64Char n) = some n.1 := by decide +kernel

theorem b64Char_ne_pad : ∀ n : Fin 64, b64Char n ≠ '=' := by decide +kernel

theorem b64Char_get : ∀ n : Fin 64, b64Alphabet[n.1]? = some (b64Char n) := by decide +kernel

theorem b64Val_char' {n : Nat} (h : n < 64) : b64Val (b64Char n) = some n := b64Val_char ⟨n, h⟩

theorem b64Char_ne_pad' {n : Nat} (h : n < 64) : b64Char n ≠ '=' := b64Char_ne_pad ⟨n, h⟩

theorem b64Decode_encode (bs : List Byte) : b64Decode (b64Encode bs) = some bs := by
  unfold b64Decode
  induction bs using b64Encode.induct with
  | case1 => rfl
  | case2 a =>
    have ha := a.2
    have h1 : (a : Nat) / 4 < 64 := by omega
    have h2 : (a : Nat) % 4 * 16 < 64 := by omega
    simp only [b64Encode, b64Loop, if_neg (b64Char_ne_pad' h1), if_neg (b64Char_ne_pad' h2),
      b64Val_char' h1, b64Val_char' h2]
    simp
    apply Fin.ext
    simp; omega
  | case3 a b =>
    have ha := a.2
    have hb := b.2
    have h1 : (a : Nat) / 4 < 64 := by omega
    have h2 : (a : Nat) % 4 * 16 + b / 16 < 64 := by omega
    have h3 : (b : Nat) % 16 * 4 < 64 := by omega
    simp only [b64Encode, b64Loop, if_neg (b64Char_ne_pad' h1), if_neg (b64Char_ne_pad' h2),
      if_neg (b64Char_ne_pad' h3), b64Val_char' h1, b64Val_char' h2, b64Val_char' h3]
    simp
    constructor <;> (apply Fin.ext; simp; omega)
  | case4 a b c r ih =>
    have ha := a.2
    have hb := b.2
    have hc := c.2
    have h1 : (a : Nat) / 4 < 64 := by omega
    have h2 : (a : Nat) % 4 * 16 + b / 16 < 64 := by omega
    have h3 : (b : Nat) % 16 * 4 + c / 64 < 64 := by omega
    have h4 : (c : Nat) % 64 < 64 := by omega
    simp only [b64Encode, b64Loop, if_neg (b64Char_ne_pad' h1), if_neg (b64Char_ne_pad' h2),
      if_neg (b64Char_ne_pad' h3), if_neg (b64Char_ne_pad' h4), b64Val_char' h1, b64Val_char' h2,
      b64Val_char' h3, b64Val_char' h4, ih]
    simp
    refine ⟨?_, ?_, ?_⟩ <;> (apply Fin.ext; simp; omega)

theorem get_lt64 {x : Nat} {a : Char} (h : b64Alphabet[x]? = some a) : x < 64 ∧ b64Char x = a := by
  have hl : b64Alphabet.length = 64 := by decide
  obtain ⟨hx, _⟩ := List.getElem?_eq_some_iff.1 h
  have hx' : x < 64 := by omega
  refine ⟨hx', ?_⟩
  have := b64Char_get ⟨x, hx'⟩
  simp only at this
  rw [h] at this
  exact (Option.some.inj this).symm

theorem mem_alphabet {a : Char} (h : a ∈ b64Alphabet) : ∃ x, x < 64 ∧ b64Char x = a := by
  obtain ⟨x, hx⟩ := List.getElem?_of_mem h
  exact ⟨x, get_lt64 hx⟩

theorem char_mem {n : Nat} (h : n < 64) : b64Char n ∈ b64Alphabet :=
  List.mem_of_getElem? (b64Char_get ⟨n, h⟩)

theorem char_get {n : Nat} (h : n < 64) : b64Alphabet[n]? = some (b64Char n) := b64Char_get ⟨n, h⟩

/-- **C18** the texts produced by base64 encoding are exactly the canonical base64 texts. -/
theorem C18_encode_iff_canonical (s : Str) : (∃ bs : List Byte, s = b64Encode bs) ↔ Canonical64 s := by
  constructor
  · rintro ⟨bs, rfl⟩
    induction bs using b64Encode.induct with
    | case1 => exact .nil
    | case2 a =>
      have ha := a.2
      exact .one (char_get (n := (a : Nat) / 4) (by omega)) (char_get (n := (a : Nat) % 4 * 16) (by omega))
        (by omega)
    | case3 a b =>
      have ha := a.2
      have hb := b.2
      exact .two (char_get (n := (a : Nat) / 4) (by omega))
        (char_get (n := (a : Nat) % 4 * 16 + b / 16) (by omega))
        (char_get (n := (b : Nat) % 16 * 4) (by omega)) (by omega)
    | case4 a b c r ih =>
      have ha := a.2
      have hb := b.2
      have hc := c.2
      exact .three (char_mem (by omega)) (char_mem (by omega)) (char_mem (by omega))
        (char_mem (by omega)) ih
  · intro h
    induction h with
    | nil => exact ⟨[], rfl⟩
    | one ha hb hz =>
      rename_i a b x y
      obtain ⟨hx, rfl⟩ := get_lt64 ha
      obtain ⟨hy, rfl⟩ := get_lt64 hb
      refine ⟨[⟨x * 4 + y / 16, by omega⟩], ?_⟩
      simp only [b64Encode]
      rw [show (x * 4 + y / 16) / 4 = x by omega, show (x * 4 + y / 16) % 4 * 16 = y by omega]
    | two ha hb hc hz =>
      rename_i a b c x y z
      obtain ⟨hx, rfl⟩ := get_lt64 ha
      obtain ⟨hy, rfl⟩ := get_lt64 hb
      obtain ⟨hz', rfl⟩ := get_lt64 hc
      refine ⟨[⟨x * 4 + y / 16, by omega⟩, ⟨y % 16 * 16 + z / 4, by omega⟩], ?_⟩
      simp only [b64Encode]
      rw [show (x * 4 + y / 16) / 4 = x by omega,
        show (x * 4 + y / 16) % 4 * 16 + (y % 16 * 16 + z / 4) / 16 = y by omega,
        show (y % 16 * 16 + z / 4) % 16 * 4 = z by omega]
    | three ha hb hc hd _ ih =>
      obtain ⟨x, hx, rfl⟩ := mem_alphabet ha
      obtain ⟨y, hy, rfl⟩ := mem_alphabet hb
      obtain ⟨z, hz, rfl⟩ := mem_alphabet hc
      obtain ⟨w, hw, rfl⟩ := mem_alphabet hd
      obtain ⟨bs, rfl⟩ := ih
      refine ⟨⟨x * 4 + y / 16, by omega⟩ :: ⟨y % 16 * 16 + z / 4, by omega⟩
        :: ⟨z % 4 * 64 + w, by omega⟩ :: bs, ?_⟩
      simp only [b64Encode]
      rw [show (x * 4 + y / 16) / 4 = x by omega,
        show (x * 4 + y / 16) % 4 * 16 + (y % 16 * 16 + z / 4) / 16 = y by omega,
        show (y % 16 * 16 + z / 4) % 16 * 4 + (z % 4 * 64 + w) / 64 = z by omega,
        show (z % 4 * 64 + w) % 64 = w by omega]

section
variable [PyEnv]

/-- **C18** parsing and dumping a binary accept exactly the canonical base64 texts, unchanged, and reject
every other ASCII text with a blocking issue. -/
theorem C18_binary_iff (s : Str) (h : ∀ c ∈ s, c.toNat < 128) :
    (AttrType.binary.parse (.str s) = .ok (.str s, {}) ↔ Canonical64 s) ∧
    (¬ Canonical64 s → ∃ i : Issues, AttrType.binary.parse (.str s) = .ok (.invalid, i) ∧ i.Blocks) ∧
    AttrType.binary.dump (.str s) = AttrType.binary.parse (.str s) := by
  have ha : isAscii s = true := by simpa [isAscii] using h
  have hb : Issues.Blocks (blocking 3) := by unfold Issues.Blocks; decide
  simp only [AttrType.parse, AttrType.dump, binaryConv, ha, Bool.not_true, Bool.false_eq_true, if_false]
  rw [← C18_encode_iff_canonical]
  refine ⟨⟨fun h => ?_, fun ⟨bs, e⟩ => ?_⟩, fun h => ?_, trivial⟩
  · split at h
    · cases h
    · rename_i bs _
      split at h
      · cases h
      · rename_i hn
        exact ⟨bs, by simpa using (Classical.not_not.1 hn).symm⟩
  · subst e
    simp [b64Decode_encode]
  · split
    · exact ⟨_, rfl, hb⟩
    · rename_i bs _
      split
      · exact ⟨_, rfl, hb⟩
      · rename_i hn
        exact absurd ⟨bs, (Classical.not_not.1 hn).symm⟩ h

end

example : Canonical64 "QUJD".toList ∧ Canonical64 "QQ==".toList ∧ ¬ Canonical64 "QR==".toList := by
  refine ⟨(C18_encode_iff_canonical _).1 ⟨[65, 66, 67], by decide⟩,
    (C18_encode_iff_canonical _).1 ⟨[65], by decide⟩, ?_⟩
  rw [← C18_encode_iff_canonical]
  rintro ⟨bs, h⟩
  have := b64Decode_encode bs
  rw [← h] at this
  have h2 : b64Decode "QR==".toList = some [65] := by decide +kernel
  rw [h2] at this
  cases this
  revert h; decide

/-! ### The dichotomy -/

section
variable [PyEnv]

omit [PyEnv] in
theorem blocks_blocking (c : Nat) : Issues.Blocks (blocking c) := by
  simp [Issues.Blocks, blocking, Issues.add, Issues.extendAt, Issues.updateAt, Issues.hasIssues,
    Issues.canProceed, Issues.hasIssuesAt, Issues.canProceedAt, aset, aget]

omit [PyEnv] in
theorem blocks_url : Issues.Blocks (Issues.empty.merge (blocking 8)) := by
  unfold Issues.Blocks; decide

/-- **C19** parsing: `Invalid` with a blocking issue, or a value of the type and no issue at all. -/
theorem C19_parse_dichotomy (t : AttrType) (ht : t ≠ .unknown) (v r : Val) (i : Issues)
    (h : t.parse v = .ok (r, i)) :
    (r = .invalid ∧ i.Blocks) ∨ (i = {} ∧ t.Holds r ∧ r ≠ .invalid) := by
  have hb : ∀ {r i}, badType = (r, i) → r = .invalid ∧ i.Blocks := by
    intro r i e; cases e; exact ⟨rfl, blocks_blocking 2⟩
  cases t with
  | unknown => exact absurd rfl ht
  | boolean =>
    simp only [AttrType.parse, booleanConv] at h
    split at h
    · cases h; exact .inr ⟨rfl, ⟨_, rfl⟩, by simp⟩
    · exact .inl (hb (Except.ok.inj h))
  | decimal =>
    simp only [AttrType.parse, decimalConv] at h
    split at h
    · cases h; exact .inr ⟨rfl, ⟨_, rfl⟩, by simp⟩
    · split at h
      · split at h
        · cases h; exact .inr ⟨rfl, ⟨_, rfl⟩, by simp⟩
        · cases h
      · exact .inl (hb (Except.ok.inj h))
    · exact .inl (hb (Except.ok.inj h))
  | integer =>
    simp only [AttrType.parse, integerConv] at h
    split at h
    · split at h
      · cases h
      · split at h
        · cases h; exact .inr ⟨rfl, .inl ⟨_, rfl⟩, by simp⟩
        · exact .inl (hb (Except.ok.inj h))
    · cases h; exact .inr ⟨rfl, .inl ⟨_, rfl⟩, by simp⟩
    · cases h; exact .inr ⟨rfl, .inr ⟨_, rfl⟩, by simp⟩
    · exact .inl (hb (Except.ok.inj h))
  | binary =>
    simp only [AttrType.parse, binaryConv] at h
    split at h
    · split at h
      · cases h
      · split at h
        · cases h; exact .inl ⟨rfl, blocks_blocking 3⟩
        · split at h
          · cases h; exact .inl ⟨rfl, blocks_blocking 3⟩
          · cases h; exact .inr ⟨rfl, ⟨_, rfl⟩, by simp⟩
    · exact .inl (hb (Except.ok.inj h))
  | extRef =>
    simp only [AttrType.parse, extRefConv] at h
    split at h
    · split at h
      · cases h; exact .inr ⟨rfl, ⟨_, rfl⟩, by simp⟩
      · cases h; exact .inl ⟨rfl, blocks_url⟩
    · exact .inl (hb (Except.ok.inj h))
  | dateTime =>
    simp only [AttrType.parse] at h
    split at h
    · split at h
      · cases h; exact .inr ⟨rfl, ⟨_, rfl⟩, by simp⟩
      · cases h; exact .inl ⟨rfl, blocks_blocking 1⟩
    · exact .inl (hb (Except.ok.inj h))
  | complex =>
    simp only [AttrType.parse] at h
    split at h
    · rename_i hc
      cases h
      cases v <;> simp [Val.isCont] at hc
      exact .inr ⟨rfl, ⟨_, _, rfl⟩, by simp⟩
    · exact .inl (hb (Except.ok.inj h))
  | string | uriRef | scimRef =>
    simp only [AttrType.parse, stringConv] at h
    split at h
    · cases h; exact .inr ⟨rfl, ⟨_, rfl⟩, by simp⟩
    · exact .inl (hb (Except.ok.inj h))

/-- **C19** dumping: `Invalid` with a blocking issue, or a value of the wire type and no issue at all. -/
theorem C19_dump_dichotomy (t : AttrType) (ht : t ≠ .unknown) (v r : Val) (i : Issues)
    (h : t.dump v = .ok (r, i)) :
    (r = .invalid ∧ i.Blocks) ∨ (i = {} ∧ t.Wire r ∧ r ≠ .invalid) := by
  by_cases hd : t = .dateTime
  · subst hd
    simp only [AttrType.dump] at h
    split at h
    · cases h; exact .inr ⟨rfl, ⟨_, rfl⟩, by simp⟩
    · cases h; exact .inl ⟨rfl, blocks_blocking 2⟩
  · have h' : t.parse v = .ok (r, i) := by
      cases t <;> first | exact absurd rfl hd | exact h
    have := C19_parse_dichotomy t ht v r i h'
    have hw : t.Holds r → t.Wire r := by
      cases t <;> first | exact absurd rfl hd | exact id
    rcases this with h | ⟨h1, h2, h3⟩
    · exact .inl h
    · exact .inr ⟨h1, hw h2, h3⟩

/-- **C19** the untyped attributes accept everything unchanged. -/
theorem C19_unknown (v : Val) :
    AttrType.unknown.parse v = .ok (v, {}) ∧ AttrType.unknown.dump v = .ok (v, {}) := ⟨rfl, rfl⟩

/-! ### Dump and parse -/

/-- **C20** parsing what was dumped gives the value back (for dates when `fromisoformat` undoes
`isoformat` on that date). -/
theorem C20_dump_parse (t : AttrType) (v w : Val) (hv : t.Holds v)
    (hiso : t = .dateTime → ∀ d, v = .dt d → fromIso (isoFormat d) = some d)
    (h : t.dump v = .ok (w, {})) : t.parse w = .ok (v, {}) := by
  cases t with
  | dateTime =>
    obtain ⟨d, rfl⟩ := hv
    simp only [AttrType.dump, Except.ok.injEq, Prod.mk.injEq] at h
    obtain ⟨rfl, _⟩ := h
    simp [AttrType.parse, hiso rfl d rfl]
  | unknown =>
    simp only [AttrType.dump, AttrType.parse, Except.ok.injEq, Prod.mk.injEq] at h
    obtain ⟨rfl, _⟩ := h
    rfl
  | boolean =>
    obtain ⟨b, rfl⟩ := hv
    simp only [AttrType.dump, AttrType.parse, booleanConv, Except.ok.injEq, Prod.mk.injEq] at h
    obtain ⟨rfl, _⟩ := h
    rfl
  | decimal =>
    obtain ⟨b, rfl⟩ := hv
    simp only [AttrType.dump, AttrType.parse, decimalConv, Except.ok.injEq, Prod.mk.injEq] at h
    obtain ⟨rfl, _⟩ := h
    rfl
  | integer =>
    rcases hv with ⟨i, rfl⟩ | ⟨b, rfl⟩
    all_goals
      simp only [AttrType.dump, AttrType.parse, integerConv, Except.ok.injEq, Prod.mk.injEq] at h
      obtain ⟨rfl, _⟩ := h
      rfl
  | complex =>
    obtain ⟨d, l, rfl⟩ := hv
    simp [AttrType.dump, AttrType.parse, Val.isCont] at h
    subst h
    rfl
  | binary | extRef =>
    obtain ⟨s, rfl⟩ := hv
    have h0 := h
    simp only [AttrType.dump] at h0
    rcases C19_parse_dichotomy _ (by simp) _ _ _ h0 with ⟨_, hb⟩ | _
    · exact absurd hb.1 (by decide)
    · simp only [AttrType.parse, binaryConv, extRefConv] at h0 ⊢
      repeat' split at h0
      all_goals first | (cases h0; done) | (cases h0; simp_all)
  | string | uriRef | scimRef =>
    obtain ⟨s, rfl⟩ := hv
    simp only [AttrType.dump, AttrType.parse, stringConv, Except.ok.injEq, Prod.mk.injEq] at h
    obtain ⟨rfl, _⟩ := h
    rfl

/-- **C20** dumping what was parsed gives the wire value back, for every type but dates (a date has several
spellings). -/
theorem C20_parse_dump (t : AttrType) (ht : t ≠ .dateTime) (v w : Val) (hw : t.Wire w)
    (h : t.parse w = .ok (v, {})) : t.dump v = .ok (w, {}) := by
  have hd : ∀ x, t.dump x = t.parse x := by
    intro x; cases t <;> first | exact absurd rfl ht | rfl
  have hw' : t.Holds w := by
    cases t <;> first | exact absurd rfl ht | exact hw
  rw [hd]
  apply C20_dump_parse t w v hw'
  · exact fun e => absurd e ht
  · rw [hd]; exact h

end

example : letI := asciiEnv
    AttrType.Holds .dateTime (.dt ⟨5, none⟩) ∧ fromIso (isoFormat ⟨5, none⟩) = some ⟨5, none⟩ ∧
      AttrType.dateTime.dump (.dt ⟨5, none⟩) = .ok (.str "5".toList, {}) :=
  ⟨⟨_, rfl⟩, by decide +kernel, by decide +kernel⟩

/-! ### Integers and decimals -/

/-- Distance of natural numbers. -/
def natDist (a b : Nat) : Nat := (a - b) + (b - a)

/-- Rounding an integer to a double: the result is representable, and no representable integer is
nearer. -/
theorem roundNat53_nearest (n : Nat) :
    (∃ k e, k ≤ 2 ^ 53 ∧ roundNat53 n = k * 2 ^ e) ∧
    ∀ k e, k < 2 ^ 53 → natDist n (roundNat53 n) ≤ natDist n (k * 2 ^ e) := by
  by_cases hn : n < 2 ^ 53
  · refine ⟨⟨n, 0, by omega, by simp [roundNat53, hn]⟩, ?_⟩
    intro k e _
    simp [roundNat53, hn, natDist]
  · have hpos : n ≠ 0 := by intro h; subst h; exact hn (by decide)
    have hl1 : 2 ^ n.log2 ≤ n := Nat.log2_self_le hpos
    have hl2 : n < 2 ^ (n.log2 + 1) := Nat.lt_log2_self
    have hL : 53 ≤ n.log2 := (Nat.le_log2 hpos).2 (by omega)
    obtain ⟨sh, hsh⟩ : ∃ sh, n.log2 = sh + 53 := ⟨n.log2 - 53, by omega⟩
    have e1 : n.log2 - 52 = sh + 1 := by omega
    unfold roundNat53
    simp only [hn, if_false, e1, Nat.add_sub_cancel]
    rw [hsh] at hl1 hl2
    have hP : (2 : Nat) ^ (sh + 1) = 2 * 2 ^ sh := by rw [Nat.pow_succ]; omega
    have hH : 0 < 2 ^ sh := Nat.two_pow_pos _
    have hq : n / 2 ^ (sh + 1) < 2 ^ 53 := by
      rw [Nat.div_lt_iff_lt_mul (Nat.two_pow_pos _), ← Nat.pow_add]
      rw [show 53 + (sh + 1) = sh + 53 + 1 by omega]; exact hl2
    have hq2 : 2 ^ 52 * 2 ^ (sh + 1) ≤ n := by
      rw [← Nat.pow_add, show 52 + (sh + 1) = sh + 53 by omega]; exact hl1
    have hdm := Nat.div_add_mod n (2 ^ (sh + 1))
    have hr : n % 2 ^ (sh + 1) < 2 ^ (sh + 1) := Nat.mod_lt _ (Nat.two_pow_pos _)
    generalize hqq : n / 2 ^ (sh + 1) = q at *
    generalize hrr : n % 2 ^ (sh + 1) = r at *
    generalize hPP : 2 ^ (sh + 1) = P at *
    generalize hHH : 2 ^ sh = H at *
    refine ⟨⟨_, sh + 1, ?_, by rw [hPP]⟩, ?_⟩
    · split
      · omega
      · split
        · split <;> omega
        · omega
    · intro k e hk
      -- every representable number is at least as far as the two neighbours
      have key : r ≤ natDist n (k * 2 ^ e) ∨ P - r ≤ natDist n (k * 2 ^ e) := by
        by_cases he : e < sh + 1
        · have : k * 2 ^ e ≤ 2 ^ 53 * 2 ^ sh :=
            Nat.mul_le_mul (by omega) (Nat.pow_le_pow_right (by decide) (by omega))
          left
          unfold natDist
          have h52 : 2 ^ 53 * 2 ^ sh = 2 ^ 52 * P := by rw [hHH, hP]; omega
          have : 2 ^ 52 ≤ q := by
            rw [← hqq]
            rw [Nat.le_div_iff_mul_le (by omega)]
            exact hq2
          have : 2 ^ 52 * P ≤ P * q := by rw [Nat.mul_comm]; exact Nat.mul_le_mul_left _ this
          omega
        · obtain ⟨d, rfl⟩ : ∃ d, e = sh + 1 + d := ⟨e - (sh + 1), by omega⟩
          rw [Nat.pow_add, hPP]
          have : k * (P * 2 ^ d) = P * (k * 2 ^ d) := by
            rw [Nat.mul_left_comm]
          rw [this]
          generalize k * 2 ^ d = j
          by_cases hj : j ≤ q
          · left
            have : P * j ≤ P * q := Nat.mul_le_mul_left _ hj
            unfold natDist; omega
          · right
            have : P * (q + 1) ≤ P * j := Nat.mul_le_mul_left _ (by omega)
            rw [Nat.mul_add] at this
            unfold natDist; omega
      have hcq : q * P = P * q := Nat.mul_comm _ _
      have hcq1 : (q + 1) * P = P * q + P := by rw [Nat.add_mul, Nat.mul_comm]; omega
      have hd : natDist n (q * P) = r := by rw [hcq]; unfold natDist; omega
      have hd1 : natDist n ((q + 1) * P) = P - r := by rw [hcq1]; unfold natDist; omega
      split
      · rw [hd1]; rcases key with h | h <;> omega
      · split
        · split
          · rw [hd]; rcases key with h | h <;> omega
          · rw [hd1]; rcases key with h | h <;> omega
        · rw [hd]; rcases key with h | h <;> omega

section
variable [PyEnv]

/-- **C21** integers: exactly the ints, the bools and the floats equal to an integer are accepted, and the
latter become that integer. -/
theorem C21_integer_accepts (v r : Val) :
    AttrType.integer.parse v = .ok (r, {}) ↔
      (∃ i, v = .int i ∧ r = .int i) ∨ (∃ b, v = .bool b ∧ r = .bool b) ∨
      (∃ n : Int, v = .prim (.flt (.fin (n : Rat))) ∧ r = .int n) := by
  have hbt : ∀ r : Val, (Except.ok badType : PyM (Val × Issues)) = .ok (r, {}) → False := by
    intro r h; cases h
  constructor
  · intro h
    simp only [AttrType.parse, integerConv] at h
    split at h
    · rename_i f
      cases f with
      | fin q =>
        simp only [intOfFloat] at h
        by_cases hq : (PyFloat.fin q).isIntegral = true
        · rw [if_pos hq] at h
          unfold PyFloat.isIntegral at hq
          have hden : q.den = 1 := by simpa using hq
          rw [hden] at h
          simp only [Int.tdiv_one, Int.cast_ofNat_Int, Except.ok.injEq, Prod.mk.injEq, and_true] at h
          right; right
          refine ⟨q.num, ?_, h.symm⟩
          congr
          exact Rat.ext (by simp) (by simp [hden])
        · rw [if_neg hq] at h
          exact absurd h (hbt _)
      | inf n => simp [intOfFloat] at h
      | nan => simp [intOfFloat] at h
    · left; simp at h; exact ⟨_, rfl, h.symm⟩
    · right; left; simp at h; exact ⟨_, rfl, h.symm⟩
    · exact absurd h (hbt _)
  · rintro (⟨i, rfl, rfl⟩ | ⟨b, rfl, rfl⟩ | ⟨n, rfl, rfl⟩)
    · rfl
    · rfl
    · simp [AttrType.parse, integerConv, intOfFloat, PyFloat.isIntegral]

/-- **C21** decimals: exactly the floats, and the ints and bools whose nearest float is finite, are
accepted. -/
theorem C21_decimal_accepts (v r : Val) :
    AttrType.decimal.parse v = .ok (r, {}) ↔
      (∃ f, v = .prim (.flt f) ∧ r = .prim (.flt f)) ∨
      (∃ i f, v = .int i ∧ floatOfInt i = .ok f ∧ r = .prim (.flt f)) ∨
      (∃ b : Bool, v = .bool b ∧ r = .prim (.flt (.fin (if b then 1 else 0)))) := by
  have hbt : ∀ r : Val, (Except.ok badType : PyM (Val × Issues)) = .ok (r, {}) → False := by
    intro r h; cases h
  have hne : blocking 2 ≠ {} := by decide
  have hb : ∀ b : Bool, floatOfInt (Prim.asInt (.bool b)) = .ok (.fin (if b then 1 else 0)) := by
    intro b; cases b <;> decide +kernel
  cases v with
  | prim p =>
    cases p with
    | flt f => simp [AttrType.parse, decimalConv, eq_comm]
    | int i =>
      simp only [AttrType.parse, decimalConv, Val.isPyInt, if_true, Prim.asInt]
      cases hf : floatOfInt i with
      | ok f => simp [eq_comm, hf]
      | error e => simp [hf]
    | bool b =>
      simp only [AttrType.parse, decimalConv, Val.isPyInt, if_true, hb]
      simp [eq_comm]
    | _ => simp [AttrType.parse, decimalConv, Val.isPyInt, badType, hne]
  | _ => simp [AttrType.parse, decimalConv, badType, hne]

/-- **C21** everything else is rejected with a single type issue. -/
theorem C21_rejects (t : AttrType) (ht : t = .integer ∨ t = .decimal) (v r : Val) (i : Issues)
    (h : t.parse v = .ok (r, i)) (hn : t.parse v ≠ .ok (r, {})) :
    r = .invalid ∧ i = blocking 2 := by
  rcases ht with rfl | rfl
  · simp only [AttrType.parse, integerConv] at h hn
    repeat' split at h
    all_goals first
      | (cases h; done)
      | (cases h; exact ⟨rfl, rfl⟩)
      | (cases h; simp_all)
  · simp only [AttrType.parse, decimalConv] at h hn
    repeat' split at h
    all_goals first
      | (cases h; done)
      | (cases h; exact ⟨rfl, rfl⟩)
      | (cases h; simp_all)

omit [PyEnv] in
/-- **C21** the float of an int is the nearest one: representable, and no representable integer is nearer. -/
theorem C21_nearest (i : Int) (f : PyFloat) (h : floatOfInt i = .ok f) :
    ∃ m : Nat, f = .fin (if i < 0 then -(m : Rat) else (m : Rat)) ∧
      (∃ k e, k ≤ 2 ^ 53 ∧ m = k * 2 ^ e) ∧
      ∀ k e, k < 2 ^ 53 → natDist i.natAbs m ≤ natDist i.natAbs (k * 2 ^ e) := by
  simp only [floatOfInt] at h
  split at h
  · cases h
    exact ⟨_, rfl, roundNat53_nearest _⟩
  · cases h

omit [PyEnv] in
/-- **C21** in particular it is exact up to 2^53. -/
theorem C21_exact (i : Int) (h : i.natAbs < 2 ^ 53) : floatOfInt i = .ok (.fin (i : Rat)) := by
  have h2 : (2 : Nat) ^ 53 < 2 ^ 1024 := Nat.pow_lt_pow_right (by decide) (by decide)
  have : i.natAbs < 2 ^ 1024 := Nat.lt_trans h h2
  simp only [floatOfInt, roundNat53, h, if_true, this]
  congr 2
  split
  · rename_i hi
    rw [← Rat.intCast_natCast, ← Rat.intCast_neg]; congr 1; omega
  · rw [← Rat.intCast_natCast]; congr 1; omega

/-! ### Exceptions -/

omit [PyEnv] in
theorem roundNat53_lt_iff (n : Nat) : roundNat53 n < 2 ^ 1024 ↔ n < floatLimit := by
  have hX : (2 : Nat) ^ 1024 = 2 ^ 53 * 2 ^ 971 := by rw [← Nat.pow_add]
  have h971 : (2 : Nat) ^ 971 = 2 * 2 ^ 970 := by rw [Nat.pow_succ, Nat.mul_comm]
  have hH : (0 : Nat) < 2 ^ 970 := Nat.two_pow_pos _
  unfold floatLimit
  by_cases hn : n < 2 ^ 53
  · simp only [roundNat53, hn, if_true]
    rw [hX, h971]
    generalize (2 : Nat) ^ 970 = H at *
    omega
  · have hpos : n ≠ 0 := by intro h; subst h; exact hn (by decide)
    have hl1 : 2 ^ n.log2 ≤ n := Nat.log2_self_le hpos
    have hl2 : n < 2 ^ (n.log2 + 1) := Nat.lt_log2_self
    have hL : 53 ≤ n.log2 := (Nat.le_log2 hpos).2 (by omega)
    obtain ⟨sh, hsh⟩ : ∃ sh, n.log2 = sh + 53 := ⟨n.log2 - 53, by omega⟩
    have e1 : n.log2 - 52 = sh + 1 := by omega
    unfold roundNat53
    simp only [hn, if_false, e1, Nat.add_sub_cancel]
    rw [hsh] at hl1 hl2
    have hP : (2 : Nat) ^ (sh + 1) = 2 * 2 ^ sh := by rw [Nat.pow_succ]; omega
    have hHp : 0 < 2 ^ sh := Nat.two_pow_pos _
    have hq : n / 2 ^ (sh + 1) < 2 ^ 53 := by
      rw [Nat.div_lt_iff_lt_mul (Nat.two_pow_pos _), ← Nat.pow_add]
      rw [show 53 + (sh + 1) = sh + 53 + 1 by omega]; exact hl2
    have hq2 : 2 ^ 52 ≤ n / 2 ^ (sh + 1) := by
      rw [Nat.le_div_iff_mul_le (Nat.two_pow_pos _), ← Nat.pow_add,
        show 52 + (sh + 1) = sh + 53 by omega]; exact hl1
    have hdm := Nat.div_add_mod n (2 ^ (sh + 1))
    have hr : n % 2 ^ (sh + 1) < 2 ^ (sh + 1) := Nat.mod_lt _ (Nat.two_pow_pos _)
    rcases Nat.lt_trichotomy sh 970 with hlt | heq | hgt
    · -- below the last binade
      have hb : (2 : Nat) ^ (sh + 1) ≤ 2 ^ 970 := Nat.pow_le_pow_right (by decide) (by omega)
      rw [hX, h971]
      generalize (2 : Nat) ^ 970 = H at *
      generalize n / 2 ^ (sh + 1) = q at *
      generalize n % 2 ^ (sh + 1) = r at *
      generalize (2 : Nat) ^ (sh + 1) = P at *
      generalize (2 : Nat) ^ sh = h at *
      have hub : ∀ q', q' ≤ q + 1 → q' * P < 2 ^ 53 * (2 * H) := by
        intro q' hq'
        have h1 : q' * P ≤ 2 ^ 53 * H := Nat.mul_le_mul (by omega) hb
        omega
      have h2 : P * q ≤ H * (2 ^ 53 - 1) := Nat.mul_le_mul hb (by omega)
      constructor
      · intro _; omega
      · intro _
        split
        · exact hub _ (Nat.le_refl _)
        · split
          · split
            · exact hub _ (by omega)
            · exact hub _ (Nat.le_refl _)
          · exact hub _ (by omega)
    · subst heq
      rw [hX]
      generalize n / 2 ^ (970 + 1) = q at *
      generalize n % 2 ^ (970 + 1) = r at *
      rw [h971] at *
      generalize (2 : Nat) ^ 970 = H at *
      by_cases hlast : q = 2 ^ 53 - 1
      · subst hlast
        split
        · omega
        · split
          · split <;> omega
          · omega
      · have h1 : 2 * H * q ≤ 2 * H * (2 ^ 53 - 2) := Nat.mul_le_mul_left _ (by omega)
        have h2 : ∀ q', q' ≤ q + 1 → q' * (2 * H) < 2 ^ 53 * (2 * H) := by
          intro q' hq'
          exact Nat.mul_lt_mul_of_pos_right (by omega) (by omega)
        constructor
        · intro _; omega
        · intro _
          split
          · exact h2 _ (Nat.le_refl _)
          · split
            · split
              · exact h2 _ (by omega)
              · exact h2 _ (Nat.le_refl _)
            · exact h2 _ (by omega)
    · have hb : (2 : Nat) ^ 972 ≤ 2 ^ (sh + 1) := Nat.pow_le_pow_right (by decide) (by omega)
      have h972 : (2 : Nat) ^ 972 = 2 * 2 ^ 971 := by rw [Nat.pow_succ, Nat.mul_comm]
      rw [hX]
      rw [h972, h971] at hb
      rw [h971]
      generalize (2 : Nat) ^ 970 = H at *
      generalize n / 2 ^ (sh + 1) = q at *
      generalize n % 2 ^ (sh + 1) = r at *
      generalize (2 : Nat) ^ (sh + 1) = P at *
      generalize (2 : Nat) ^ sh = h at *
      have hlb : ∀ q', q ≤ q' → ¬ q' * P < 2 ^ 53 * (2 * H) := by
        intro q' hq'
        have h1 : 2 ^ 52 * (2 * (2 * H)) ≤ q' * P := Nat.mul_le_mul (by omega) hb
        omega
      have h1 : 2 ^ 52 * (2 * (2 * H)) ≤ q * P := Nat.mul_le_mul (by omega) hb
      have h2 : q * P = P * q := Nat.mul_comm _ _
      constructor
      · intro h'
        exfalso
        revert h'
        split
        · exact hlb _ (by omega)
        · split
          · split
            · exact hlb _ (Nat.le_refl _)
            · exact hlb _ (by omega)
          · exact hlb _ (Nat.le_refl _)
      · intro h'; omega

omit [PyEnv] in
/-- An int is too large for a float exactly from 2^1024 - 2^970 on. -/
theorem floatOfInt_error_iff (i : Int) (e : PyErr) :
    floatOfInt i = .error e ↔ e = .overflowError ∧ floatLimit ≤ i.natAbs := by
  have key := roundNat53_lt_iff
  simp only [floatOfInt]
  split
  · rename_i h
    rw [key] at h
    simp; omega
  · rename_i h
    rw [key] at h
    simp only [Except.error.injEq]
    constructor
    · intro h'; exact ⟨h'.symm, by omega⟩
    · intro h'; exact h'.1.symm

/-- **C22** the exceptions of `parse`, exactly. -/
theorem C22_parse_raises_iff (t : AttrType) (v : Val) (e : PyErr) :
    t.parse v = .error e ↔
      (t = .integer ∧ ∃ neg, v = .prim (.flt (.inf neg)) ∧ e = .overflowError) ∨
      (t = .integer ∧ v = .prim (.flt .nan) ∧ e = .valueError) ∨
      (t = .decimal ∧ ∃ i : Int, v = .int i ∧ floatLimit ≤ i.natAbs ∧ e = .overflowError) ∨
      (t = .binary ∧ ∃ s, v = .str s ∧ (∃ c ∈ s, 128 ≤ c.toNat) ∧ e = .unicodeEncodeError) := by
  cases t with
  | integer =>
    simp only [AttrType.parse, integerConv]
    cases v with
    | prim p =>
      cases p with
      | flt f =>
        cases f with
        | fin q => simp [intOfFloat]; split <;> simp
        | inf n => simp [intOfFloat, eq_comm]
        | nan => simp [intOfFloat, eq_comm]
      | _ => simp
    | _ => simp
  | decimal =>
    simp only [AttrType.parse, decimalConv]
    cases v with
    | prim p =>
      cases p with
      | int i =>
        simp only [Val.isPyInt, if_true, Prim.asInt]
        have := floatOfInt_error_iff i e
        cases hf : floatOfInt i with
        | ok f =>
          simp only [hf, reduceCtorEq, false_iff] at this
          simp
          intro h e; exact this ⟨e, h⟩
        | error e' =>
          rw [hf] at this
          simp only [Except.error.injEq] at this ⊢
          rw [this]
          simp [and_comm]
      | bool b =>
        have hb : ∀ b : Bool, floatOfInt (Prim.asInt (.bool b)) = .ok (.fin (if b then 1 else 0)) := by
          intro b; cases b <;> decide +kernel
        simp [Val.isPyInt, hb]
      | _ => simp [Val.isPyInt]
    | _ => simp
  | binary =>
    simp only [AttrType.parse, binaryConv]
    cases v with
    | prim p =>
      cases p with
      | str s =>
        by_cases ha : isAscii s = true
        · simp only [ha, Bool.not_true, Bool.false_eq_true, if_false]
          have hna : ¬ ∃ c ∈ s, 128 ≤ c.toNat := by
            rintro ⟨c, hc, h⟩
            have := List.all_eq_true.1 ha c hc
            simp at this; omega
          constructor
          · intro h
            repeat' split at h
            all_goals cases h
          · rintro (h | h | h | ⟨_, s', h1, h2, _⟩)
            · exact absurd h.1 (by decide)
            · exact absurd h.1 (by decide)
            · exact absurd h.1 (by decide)
            · cases h1; exact absurd h2 hna
        · have hna : ∃ c ∈ s, 128 ≤ c.toNat := by
            simpa [isAscii] using ha
          simp [ha, eq_comm]
          intro _
          simpa using hna
      | _ => simp
    | _ => simp
  | extRef =>
    simp only [AttrType.parse, extRefConv]
    constructor
    · intro h
      repeat' split at h
      all_goals cases h
    · simp
  | dateTime =>
    simp only [AttrType.parse]
    constructor
    · intro h
      repeat' split at h
      all_goals cases h
    · simp
  | complex => simp only [AttrType.parse]; split <;> simp
  | unknown => simp [AttrType.parse]
  | boolean =>
    simp only [AttrType.parse, booleanConv]
    split <;> simp
  | string | uriRef | scimRef =>
    simp only [AttrType.parse, stringConv]
    split <;> simp

/-- **C22** `dump` raises exactly where `parse` does (dates never). -/
theorem C22_dump_raises_iff (t : AttrType) (v : Val) (e : PyErr) :
    t.dump v = .error e ↔ t.parse v = .error e := by
  cases t with
  | dateTime =>
    simp only [AttrType.dump, AttrType.parse]
    constructor
    · intro h
      repeat' split at h
      all_goals cases h
    · intro h
      repeat' split at h
      all_goals cases h
  | _ => exact Iff.rfl

end

example : letI := asciiEnv
    AttrType.integer.parse (.prim (.flt (.fin 7))) = .ok (.int 7, {}) ∧
    AttrType.integer.parse (.prim (.flt (.fin (7/2)))) = .ok badType ∧
    AttrType.integer.parse (.prim (.flt (.inf true))) = .error .overflowError ∧
    AttrType.decimal.parse (.int (2 ^ 53 + 1)) = .ok (.prim (.flt (.fin (2 ^ 53))), {}) ∧
    AttrType.decimal.parse (.int (2 ^ 1024)) = .error .overflowError ∧
    AttrType.binary.parse (.str "é".toList) = .error .unicodeEncodeError := by
  decide +kernel

end Scim
