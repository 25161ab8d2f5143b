import Verif.Spec.AttrRep
import Verif.Lemmas.Str

/-! Helper lemmas about attribute names. -/

namespace Scim
variable [PyEnv]

theorem not_word_of_ascii (c : Char) (h1 : c.toNat < 128) (h2 : asciiWord c = false) :
    isWord c = false := by
  rw [PyEnv.isWord_ascii c h1]; exact h2

theorem colon_not_word : isWord ':' = false := not_word_of_ascii _ (by decide) (by decide)
theorem dot_not_word : isWord '.' = false := not_word_of_ascii _ (by decide) (by decide)
theorem dash_not_word : isWord '-' = false := not_word_of_ascii _ (by decide) (by decide)
theorem dollar_not_word : isWord '$' = false := not_word_of_ascii _ (by decide) (by decide)
theorem space_not_isWord : isWord ' ' = false := not_word_of_ascii _ (by decide) (by decide)

theorem isWordRun_iff (s : Str) : isWordRun s = true ↔ WordRun s := by
  simp [isWordRun, WordRun]

theorem isAttrName_iff (s : Str) : isAttrName s = true ↔ WordRun s ∨ s = "$ref".toList := by
  simp [isAttrName, isWordRun_iff]

theorem isUriSegment_iff (s : Str) :
    isUriSegment s = true ↔ s ≠ [] ∧ ∀ c ∈ s, isWord c = true ∨ c = '.' ∨ c = '-' := by
  simp [isUriSegment, isUriChar, or_assoc]

theorem WordRun.not_mem {s : Str} (h : WordRun s) {c : Char} (hc : isWord c = false) : c ∉ s := by
  intro hm; rw [h.2 c hm] at hc; cases hc

theorem ref_no_colon : ':' ∉ "$ref".toList := by decide
theorem ref_no_dot : '.' ∉ "$ref".toList := by decide

theorem attrName_no_colon {s : Str} (h : WordRun s ∨ s = "$ref".toList) : ':' ∉ s := by
  rcases h with h | rfl
  · exact h.not_mem colon_not_word
  · exact ref_no_colon

theorem attrName_no_dot {s : Str} (h : WordRun s ∨ s = "$ref".toList) : '.' ∉ s := by
  rcases h with h | rfl
  · exact h.not_mem dot_not_word
  · exact ref_no_dot

theorem attrName_ne_nil {s : Str} (h : WordRun s ∨ s = "$ref".toList) : s ≠ [] := by
  rcases h with h | rfl
  · exact h.1
  · decide

/-- The part of a printed name after the schema. -/
def localStr (a b : Str) : Str := if b.isEmpty then a else a ++ '.' :: b

theorem parseLocal_iff (s a b : Str) :
    AttrRep.parseLocal s = some (a, b) ↔
      (WordRun a ∨ a = "$ref".toList) ∧ (b = [] ∨ WordRun b) ∧ s = localStr a b := by
  constructor
  · intro h
    unfold AttrRep.parseLocal at h
    have hj := joinWith_splitChar '.' s
    split at h
    · rename_i x hx
      rw [hx] at hj
      split at h
      · rename_i hn
        simp only [Option.some.injEq, Prod.mk.injEq] at h
        obtain ⟨rfl, rfl⟩ := h
        exact ⟨(isAttrName_iff _).1 hn, .inl rfl, by simp [localStr, ← hj]⟩
      · cases h
    · rename_i x y hx
      rw [hx] at hj
      split at h
      · rename_i hn
        simp only [Option.some.injEq, Prod.mk.injEq] at h
        obtain ⟨rfl, rfl⟩ := h
        simp only [Bool.and_eq_true] at hn
        have hw := (isWordRun_iff _).1 hn.2
        refine ⟨(isAttrName_iff _).1 hn.1, .inr hw, ?_⟩
        rw [localStr, if_neg (by simpa using hw.1), ← hj]; rfl
      · cases h
    · cases h
  · rintro ⟨ha, hb, rfl⟩
    unfold AttrRep.parseLocal localStr
    rcases hb with rfl | hb
    · simp only [List.isEmpty_nil, ↓reduceIte]
      rw [splitChar_of_not_mem (attrName_no_dot ha)]
      simp [(isAttrName_iff _).2 ha]
    · rw [if_neg (by simpa using hb.1), splitChar_append_sep _ _ (attrName_no_dot ha),
        splitChar_of_not_mem (hb.not_mem dot_not_word)]
      simp [(isAttrName_iff _).2 ha, (isWordRun_iff _).2 hb]

theorem localStr_no_colon {a b : Str} (ha : WordRun a ∨ a = "$ref".toList)
    (hb : b = [] ∨ WordRun b) : ':' ∉ localStr a b := by
  unfold localStr
  split
  · exact attrName_no_colon ha
  · rename_i hne
    rcases hb with rfl | hb
    · simp at hne
    · simp only [List.mem_append, List.mem_cons, not_or]
      exact ⟨attrName_no_colon ha, by decide, hb.not_mem colon_not_word⟩

theorem toStr_eq (r : AttrRep) :
    r.toStr = if r.schema.isEmpty then localStr r.attr r.sub
      else r.schema ++ ':' :: localStr r.attr r.sub := by
  unfold AttrRep.toStr localStr
  simp only
  split <;> split <;> simp_all

theorem parse_eq_some_iff (s : Str) (r : AttrRep) :
    AttrRep.parse s = some r ↔ r.Proper ∧ s = r.toStr := by
  constructor
  · intro h
    unfold AttrRep.parse at h
    simp only at h
    split at h
    · rename_i hpre
      split at h
      · rename_i a b hl
        simp only [Option.some.injEq] at h
        subst h
        obtain ⟨ha, hb, hlast⟩ := (parseLocal_iff _ _ _).1 hl
        have hne := splitChar_ne_nil ':' s
        have hsplit : splitChar ':' s = (splitChar ':' s).dropLast ++ [localStr a b] := by
          rw [← hlast]
          rw [List.getLastD_eq_getLast?, List.getLast?_eq_some_getLast hne, Option.getD_some]
          exact (List.dropLast_concat_getLast hne).symm
        generalize (splitChar ':' s).dropLast = pre at *
        have hs : s = joinWith ':' (pre ++ [localStr a b]) := by
          rw [← hsplit, joinWith_splitChar]
        have hseg : ∀ x ∈ pre, x ≠ [] ∧ ∀ c ∈ x, isWord c = true ∨ c = '.' ∨ c = '-' := by
          intro x hx
          exact (isUriSegment_iff x).1 (List.all_eq_true.1 hpre x hx)
        by_cases hp : pre = []
        · subst hp
          refine ⟨⟨ha, hb, .inl rfl, rfl⟩, ?_⟩
          rw [toStr_eq]; simpa using hs
        · refine ⟨⟨ha, hb, .inr ⟨pre, hp, hseg, rfl⟩, rfl⟩, ?_⟩
          have hnn : joinWith ':' pre ≠ [] := joinWith_ne_nil pre hp (fun p hp => (hseg p hp).1)
          rw [toStr_eq, if_neg (by simpa using hnn), hs, joinWith_append_single _ _ hp]
      · cases h
    · cases h
  · rintro ⟨⟨ha, hb, hsch, hext⟩, rfl⟩
    obtain ⟨schema, a, b, ext⟩ := r
    simp only at ha hb hsch hext
    subst hext
    have hnc := localStr_no_colon ha hb
    have hpl : AttrRep.parseLocal (localStr a b) = some (a, b) :=
      (parseLocal_iff _ _ _).2 ⟨ha, hb, rfl⟩
    unfold AttrRep.parse
    rw [toStr_eq]
    rcases hsch with hsch | ⟨segs, hne, hseg, hsch⟩
    · subst hsch
      simp only [List.isEmpty_nil, ↓reduceIte]
      rw [splitChar_of_not_mem hnc]
      simp [hpl]
    · subst hsch
      have hnn : joinWith ':' segs ≠ [] := joinWith_ne_nil segs hne (fun p hp => (hseg p hp).1)
      have hemp : (joinWith ':' segs).isEmpty = false := by simpa using hnn
      simp only [hemp, Bool.false_eq_true, ↓reduceIte]
      rw [← joinWith_append_single _ _ hne, splitChar_joinWith]
      · simp only [List.dropLast_append_cons, List.dropLast_singleton, List.append_nil]
        have hall : segs.all isUriSegment = true := by
          rw [List.all_eq_true]; intro x hx; exact (isUriSegment_iff x).2 (hseg x hx)
        simp [hall, hpl]
      · simp
      · intro p hp
        simp only [List.mem_append, List.mem_singleton] at hp
        rcases hp with hp | rfl
        · intro hc
          rcases (hseg p hp).2 ':' hc with h | h | h
          · rw [colon_not_word] at h; cases h
          · exact absurd h (by decide)
          · exact absurd h (by decide)
        · exact hnc

/-! ### The regular expressions -/

namespace Re

theorem matches_star_chr {p : Char → Bool} {s : Str} :
    Matches (.star (.chr p)) s ↔ ∀ c ∈ s, p c = true := by
  constructor
  · intro h
    generalize hr : Re.star (.chr p) = r at h
    induction h with
    | starNil => simp
    | starCons ha _ _ ih2 =>
      cases hr
      cases ha with
      | chr hc =>
        intro c hm
        simp only [List.cons_append, List.nil_append, List.mem_cons] at hm
        rcases hm with rfl | hm
        · exact hc
        · exact ih2 rfl c hm
    | _ => cases hr
  · intro h
    induction s with
    | nil => exact .starNil
    | cons c s ih =>
      exact .starCons (s := [c]) (.chr (h c (by simp))) (ih (fun d hd => h d (by simp [hd])))

theorem matches_plus_chr {p : Char → Bool} {s : Str} :
    Matches (plus (.chr p)) s ↔ s ≠ [] ∧ ∀ c ∈ s, p c = true := by
  constructor
  · intro h
    cases h with
    | seq ha hb =>
      cases ha with
      | chr hc =>
        rw [matches_star_chr] at hb
        refine ⟨by simp, ?_⟩
        intro c hm
        simp only [List.cons_append, List.nil_append, List.mem_cons] at hm
        rcases hm with rfl | hm
        · exact hc
        · exact hb c hm
  · rintro ⟨hne, h⟩
    cases s with
    | nil => exact absurd rfl hne
    | cons c s =>
      exact .seq (s := [c]) (.chr (h c (by simp)))
        (matches_star_chr.2 (fun d hd => h d (by simp [hd])))

theorem matches_lit {c : Char} {s : Str} : Matches (lit c) s ↔ s = [c] := by
  constructor
  · intro h
    cases h with
    | chr hc => simp at hc; subst hc; rfl
  · rintro rfl; exact .chr (by simp)

theorem matches_str {t s : Str} : Matches (str t) s ↔ s = t := by
  induction t generalizing s with
  | nil =>
    constructor
    · intro h; cases h; rfl
    · rintro rfl; exact .eps
  | cons c t ih =>
    constructor
    · intro h
      cases h with
      | seq ha hb => rw [matches_lit.1 ha, ih.1 hb]; rfl
    · rintro rfl
      exact .seq (s := [c]) (matches_lit.2 rfl) (ih.2 rfl)

theorem matches_attrName {s : Str} :
    Matches attrName s ↔ WordRun s ∨ s = "$ref".toList := by
  constructor
  · intro h
    cases h with
    | altL h => exact .inl (matches_plus_chr.1 h)
    | altR h => exact .inr (matches_str.1 h)
  · rintro (h | h)
    · exact .altL (matches_plus_chr.2 h)
    · exact .altR (matches_str.2 h)

theorem matches_localName {s : Str} :
    Matches localName s ↔ ∃ a b, (WordRun a ∨ a = "$ref".toList) ∧ (b = [] ∨ WordRun b) ∧
      s = localStr a b := by
  constructor
  · intro h
    cases h with
    | seq ha hb =>
      have ha' := matches_attrName.1 ha
      cases hb with
      | altL hb =>
        cases hb with
        | seq hd hw =>
          rw [matches_lit.1 hd]
          have hw' := matches_plus_chr.1 hw
          exact ⟨_, _, ha', .inr hw', by rw [localStr, if_neg (by simpa using hw'.1)]; rfl⟩
      | altR hb =>
        cases hb
        exact ⟨_, [], ha', .inl rfl, by simp [localStr]⟩
  · rintro ⟨a, b, ha, hb, rfl⟩
    rcases hb with rfl | hb
    · have := Matches.seq (matches_attrName.2 ha)
        (.altR .eps : Matches (opt (.seq (lit '.') (plus w))) [])
      rw [List.append_nil] at this
      exact this
    · rw [localStr, if_neg (by simpa using hb.1)]
      exact .seq (matches_attrName.2 ha)
        (.altL (.seq (s := ['.']) (matches_lit.2 rfl) (matches_plus_chr.2 hb)))

theorem matches_uriPrefix {s : Str} :
    Matches uriPrefix s ↔ ∃ segs : List Str,
      (∀ x ∈ segs, x ≠ [] ∧ ∀ c ∈ x, isWord c = true ∨ c = '.' ∨ c = '-') ∧
      s = segs.flatMap (· ++ [':']) := by
  constructor
  · intro h
    unfold uriPrefix at h
    generalize hr : Re.star _ = r at h
    induction h with
    | starNil => exact ⟨[], by simp, rfl⟩
    | starCons ha _ _ ih2 =>
      obtain ⟨segs, hs, rfl⟩ := ih2 hr
      cases hr
      cases ha with
      | seq h1 h2 =>
        rename_i x _ _
        obtain ⟨h1a, h1b⟩ := matches_plus_chr.1 h1
        rw [matches_lit.1 h2]
        refine ⟨x :: segs, ?_, by simp⟩
        intro z hz
        rcases List.mem_cons.1 hz with rfl | hz
        · exact ⟨h1a, fun c hc => by simpa [or_assoc] using h1b c hc⟩
        · exact hs z hz
    | _ => cases hr
  · rintro ⟨segs, hs, rfl⟩
    induction segs with
    | nil => exact .starNil
    | cons x segs ih =>
      rw [List.flatMap_cons]
      refine .starCons (.seq (matches_plus_chr.2 ⟨(hs x (by simp)).1, ?_⟩) (matches_lit.2 rfl))
        (ih (fun y hy => hs y (by simp [hy])))
      intro c hc
      simpa [or_assoc] using (hs x (by simp)).2 c hc

theorem flatMap_sep_eq (segs : List Str) (h : segs ≠ []) :
    segs.flatMap (· ++ [':']) = joinWith ':' segs ++ [':'] := by
  induction segs with
  | nil => exact absurd rfl h
  | cons x segs ih =>
    cases segs with
    | nil => simp
    | cons y r =>
      rw [List.flatMap_cons, ih (by simp), joinWith_cons_cons]
      simp

end Re
end Scim
