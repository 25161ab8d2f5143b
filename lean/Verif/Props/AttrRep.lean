import Verif.Lemmas.AttrRep

/-! # Properties of attribute names (C01, C02) -/

namespace Scim
section
variable [PyEnv]

/-- **C01** `AttrRep.parse(s)` returns `r` exactly when `r` is a proper attribute name (schema a URN or
absent, attribute a word or `$ref`, sub-attribute a word or absent) and `s` is how it prints. -/
theorem C01_parse_iff (s : Str) (r : AttrRep) :
    AttrRep.parse s = some r ↔ r.Proper ∧ s = r.toStr :=
  parse_eq_some_iff s r

/-- **C01** printing undoes parsing. -/
theorem C01_print_parse (s : Str) (r : AttrRep) (h : AttrRep.parse s = some r) : r.toStr = s :=
  ((parse_eq_some_iff s r).1 h).2.symm

/-- **C01** parsing undoes printing. -/
theorem C01_parse_print (r : AttrRep) (h : r.Proper) : AttrRep.parse r.toStr = some r :=
  (parse_eq_some_iff _ _).2 ⟨h, rfl⟩

/-- **C01** `AttrRep.parse` accepts exactly the strings the regular expression `_ATTR_REP` matches, and the
schema is the first group without its final `:`, the rest is the second group. -/
theorem C01_parse_iff_regex (s : Str) :
    (∃ r, AttrRep.parse s = some r) ↔
      ∃ g₁ g₂, Re.Matches Re.uriPrefix g₁ ∧ Re.Matches Re.localName g₂ ∧ s = g₁ ++ g₂ := by
  constructor
  · rintro ⟨r, h⟩
    obtain ⟨⟨ha, hb, hsch, _⟩, rfl⟩ := (parse_eq_some_iff s r).1 h
    have hl : Re.Matches Re.localName (localStr r.attr r.sub) :=
      Re.matches_localName.2 ⟨_, _, ha, hb, rfl⟩
    rw [toStr_eq]
    rcases hsch with hsch | ⟨segs, hne, hseg, hsch⟩
    · exact ⟨[], _, Re.matches_uriPrefix.2 ⟨[], by simp, rfl⟩, hl, by simp [hsch]⟩
    · refine ⟨_, _, Re.matches_uriPrefix.2 ⟨segs, hseg, rfl⟩, hl, ?_⟩
      have hnn : joinWith ':' segs ≠ [] := joinWith_ne_nil segs hne (fun p hp => (hseg p hp).1)
      rw [hsch, if_neg (by simpa using hnn), Re.flatMap_sep_eq _ hne]
      simp
  · rintro ⟨g₁, g₂, h1, h2, rfl⟩
    obtain ⟨segs, hseg, rfl⟩ := Re.matches_uriPrefix.1 h1
    obtain ⟨a, b, ha, hb, rfl⟩ := Re.matches_localName.1 h2
    by_cases hne : segs = []
    · subst hne
      refine ⟨{ attr := a, sub := b }, (parse_eq_some_iff _ _).2 ⟨⟨ha, hb, .inl rfl, rfl⟩, ?_⟩⟩
      rw [toStr_eq]; rfl
    · refine ⟨{ schema := joinWith ':' segs, attr := a, sub := b },
        (parse_eq_some_iff _ _).2 ⟨⟨ha, hb, .inr ⟨segs, hne, hseg, rfl⟩, rfl⟩, ?_⟩⟩
      have hnn : joinWith ':' segs ≠ [] := joinWith_ne_nil segs hne (fun p hp => (hseg p hp).1)
      rw [toStr_eq, if_neg (by simpa using hnn), Re.flatMap_sep_eq _ hne]
      simp

/-- **C01** the groups of the match are determined by the string: every decomposition gives the parts
`parse` returns. -/
theorem C01_parse_groups (g₁ g₂ : Str) (h1 : Re.Matches Re.uriPrefix g₁)
    (h2 : Re.Matches Re.localName g₂) :
    ∃ r, AttrRep.parse (g₁ ++ g₂) = some r ∧ r.schema = g₁.dropLast ∧
      g₂ = (if r.sub = [] then r.attr else r.attr ++ '.' :: r.sub) := by
  obtain ⟨segs, hseg, rfl⟩ := Re.matches_uriPrefix.1 h1
  obtain ⟨a, b, ha, hb, rfl⟩ := Re.matches_localName.1 h2
  by_cases hne : segs = []
  · subst hne
    refine ⟨{ attr := a, sub := b }, (parse_eq_some_iff _ _).2 ⟨⟨ha, hb, .inl rfl, rfl⟩, ?_⟩, rfl,
      by simp [localStr]⟩
    rw [toStr_eq]; rfl
  · refine ⟨{ schema := joinWith ':' segs, attr := a, sub := b },
      (parse_eq_some_iff _ _).2 ⟨⟨ha, hb, .inr ⟨segs, hne, hseg, rfl⟩, rfl⟩, ?_⟩, ?_,
      by simp [localStr]⟩
    · have hnn : joinWith ':' segs ≠ [] := joinWith_ne_nil segs hne (fun p hp => (hseg p hp).1)
      rw [toStr_eq, if_neg (by simpa using hnn), Re.flatMap_sep_eq _ hne]
      simp
    · rw [Re.flatMap_sep_eq _ hne]; simp

end

/-- The extension attribute used in examples. -/
def exRep : AttrRep := { schema := "urn:x-y:2.0".toList, attr := "name".toList, sub := "given".toList }

theorem exRep_proper : letI := asciiEnv; exRep.Proper := by
  letI := asciiEnv
  have h : AttrRep.parse "urn:x-y:2.0:name.given".toList = some exRep := by decide
  exact ((parse_eq_some_iff _ _).1 h).1

example : letI := asciiEnv
    AttrRep.parse "urn:x-y:2.0:name.given".toList = some exRep ∧
    AttrRep.parse "members.$ref".toList = none ∧ AttrRep.parse "a.b.c".toList = none ∧
    AttrRep.parse "".toList = none ∧ AttrRep.parse ":a".toList = none := by
  decide

example : letI := asciiEnv; Re.Matches Re.uriPrefix "urn:".toList ∧ Re.Matches Re.localName "a".toList := by
  letI := asciiEnv
  constructor
  · refine Re.matches_uriPrefix.2 ⟨["urn".toList], ?_, rfl⟩
    decide
  · exact Re.matches_localName.2 ⟨"a".toList, [], .inl (by unfold WordRun; decide), .inl rfl, rfl⟩

section
variable [PyEnv]

/-- **C02** `a == b`. -/
theorem C02_eq_iff (a b : AttrRep) :
    a.eqv b = true ↔
      lower a.attr = lower b.attr ∧ lower a.sub = lower b.sub ∧
        (a.schema = [] ∨ b.schema = [] ∨ lower a.schema = lower b.schema) := by
  unfold AttrRep.eqv
  by_cases h1 : a.schema = [] <;> by_cases h2 : b.schema = [] <;>
    by_cases h3 : lower a.schema = lower b.schema <;>
    by_cases h4 : lower a.attr = lower b.attr <;> by_cases h5 : lower a.sub = lower b.sub <;>
    simp [*]

/-- **C02** reflexive. -/
theorem C02_refl (a : AttrRep) : a.eqv a = true := by simp [C02_eq_iff]

/-- **C02** symmetric. -/
theorem C02_symm (a b : AttrRep) : a.eqv b = b.eqv a := by
  rw [Bool.eq_iff_iff, C02_eq_iff, C02_eq_iff]
  constructor <;> rintro ⟨h1, h2, h3⟩ <;> refine ⟨h1.symm, h2.symm, ?_⟩ <;>
    rcases h3 with h | h | h <;> simp [h]

/-- **C02** transitive when the middle name carries a schema, in particular among names that all do. -/
theorem C02_trans (a b c : AttrRep) (hb : b.schema ≠ [])
    (h1 : a.eqv b = true) (h2 : b.eqv c = true) : a.eqv c = true := by
  rw [C02_eq_iff] at *
  obtain ⟨p1, p2, p3⟩ := h1
  obtain ⟨q1, q2, q3⟩ := h2
  refine ⟨p1.trans q1, p2.trans q2, ?_⟩
  rcases p3 with h | h | h
  · exact .inl h
  · exact absurd h hb
  · rcases q3 with h' | h' | h'
    · exact absurd h' hb
    · exact .inr (.inl h')
    · exact .inr (.inr (h.trans h'))

/-- **C02** letter case never matters. -/
theorem C02_ignores_case (a b : AttrRep) (h1 : lower a.schema = lower b.schema)
    (h2 : lower a.attr = lower b.attr) (h3 : lower a.sub = lower b.sub) : a.eqv b = true :=
  (C02_eq_iff a b).2 ⟨h2, h3, .inr (.inr h1)⟩

/-- **C02** `top_level_equals` compares schema and attribute (together) and ignores the sub-attribute. -/
theorem C02_topLevel_iff (a b : AttrRep) :
    a.topLevelEquals b = true ↔
      (a.schema ≠ [] ∧ b.schema ≠ [] ∧
        lower (a.schema ++ ':' :: a.attr) = lower (b.schema ++ ':' :: b.attr)) ∨
      ((a.schema = [] ∨ b.schema = []) ∧ lower a.attr = lower b.attr) := by
  unfold AttrRep.topLevelEquals AttrRep.attrWithSchema
  by_cases h1 : a.schema = [] <;> by_cases h2 : b.schema = [] <;> simp [h1, h2]

end

/-- **C02** equality is not transitive in general: a name without schema equals names of two different
schemas. -/
theorem C02_not_transitive : letI := asciiEnv
    ∃ a b c : AttrRep, a.Proper ∧ b.Proper ∧ c.Proper ∧
      a.eqv b = true ∧ b.eqv c = true ∧ a.eqv c = false := by
  letI := asciiEnv
  have hp : ∀ s r, AttrRep.parse s = some r → r.Proper := fun s r h => ((parse_eq_some_iff s r).1 h).1
  exact ⟨{ schema := "u".toList, attr := "n".toList }, { attr := "N".toList },
    { schema := "v".toList, attr := "n".toList },
    hp "u:n".toList _ (by decide), hp "N".toList _ (by decide), hp "v:n".toList _ (by decide),
    by decide, by decide, by decide⟩

example : letI := asciiEnv
    ({ schema := "U".toList, attr := "n".toList } : AttrRep).eqv
      { schema := "u".toList, attr := "N".toList } = true := by decide

end Scim
