import Verif.Spec.Path
import Verif.Lemmas.FilterParse
import Verif.Lemmas.FilterOutcome
import Verif.Lemmas.Presence

/-! Lemmas on paths. -/

namespace Scim

/-! ## Hiding quoted parts of any text -/

/-- The text with its quoted parts replaced. -/
def veil : Str → (pos skip : Nat) → Str
  | [], _, _ => []
  | _ :: cs, pos, skip + 1 => veil cs (pos + 1) skip
  | c :: cs, pos, 0 =>
    if (c = '\'' ∨ c = '"') ∧ c ∈ cs then
      placeholder pos ++ veil cs (pos + 1) ((cs.takeWhile (· ≠ c)).length + 1)
    else c :: veil cs (pos + 1) 0

theorem veil_skip (u v : Str) (pos : Nat) : veil (u ++ v) pos u.length = veil v (pos + u.length) 0 := by
  induction u generalizing pos with
  | nil => rfl
  | cons c u ih =>
    rw [List.cons_append, List.length_cons, veil, ih]
    congr 1
    omega

theorem unquoted_skip (u v : Str) : unquotedFrom (u ++ v) u.length = unquotedFrom v 0 := by
  induction u with
  | nil => rfl
  | cons c u ih => exact ih

/-- A character that occurs splits the text at its first occurrence. -/
theorem split_first {c : Char} {s : Str} (h : c ∈ s) :
    ∃ r, s = s.takeWhile (· ≠ c) ++ c :: r ∧ c ∉ s.takeWhile (· ≠ c) := by
  induction s with
  | nil => cases h
  | cons d s ih =>
    by_cases hd : d = c
    · subst hd
      exact ⟨s, by simp, by simp⟩
    · obtain ⟨r, h1, h2⟩ := ih (by simpa [Ne.symm hd] using h)
      rw [List.takeWhile_cons, if_pos (by simpa using hd)]
      exact ⟨r, by rw [List.cons_append, ← h1], by
        rw [List.mem_cons]; rintro (h | h)
        · exact hd h.symm
        · exact h2 h⟩

/-- Texts by their first quoted part. -/
theorem quote_induction {P : Str → Prop} (h0 : P [])
    (h1 : ∀ c cs, ¬ ((c = '\'' ∨ c = '"') ∧ c ∈ cs) → P cs → P (c :: cs))
    (h2 : ∀ c b r, (c = '\'' ∨ c = '"') → c ∉ b → P r → P (c :: b ++ c :: r)) (s : Str) : P s := by
  have key : ∀ n (s : Str), s.length ≤ n → P s := by
    intro n
    induction n with
    | zero => intro s hs; cases s with
      | nil => exact h0
      | cons c s => simp at hs
    | succ n ih =>
      intro s hs
      cases s with
      | nil => exact h0
      | cons c cs =>
        by_cases hq : (c = '\'' ∨ c = '"') ∧ c ∈ cs
        · obtain ⟨r, e, hb⟩ := split_first hq.2
          generalize cs.takeWhile (· ≠ c) = b at e hb
          subst e
          refine h2 c b r hq.1 hb (ih r ?_)
          simp at hs
          omega
        · exact h1 c cs hq (ih cs (by simpa using hs))
  exact key s.length s (Nat.le_refl _)

theorem takeWhile_quote {c : Char} {b r : Str} (h : c ∉ b) : (b ++ c :: r).takeWhile (· ≠ c) = b := by
  rw [List.takeWhile_append_of_pos (by intro d hd; simp; rintro rfl; exact h hd)]
  simp

theorem scanStrings_quote_eq (c : Char) (b r : Str) (hc : c = '\'' ∨ c = '"') (hb : c ∉ b) (pos : Nat) :
    scanStrings (c :: b ++ c :: r) pos 0 = (pos, c :: b ++ [c]) :: scanStrings r (pos + b.length + 2) 0 := by
  rw [List.cons_append, scanStrings, if_pos ⟨hc, by simp⟩, takeWhile_quote hb]
  dsimp only
  have e : b ++ c :: r = (b ++ [c]) ++ r := by simp
  have e2 : b.length + 1 = (b ++ [c]).length := by simp
  rw [e, e2, scanStrings_skip]
  have e3 : pos + 1 + (b ++ [c]).length = pos + b.length + 2 := by simp; omega
  rw [e3]

theorem veil_quote_eq (c : Char) (b r : Str) (hc : c = '\'' ∨ c = '"') (hb : c ∉ b) (pos : Nat) :
    veil (c :: b ++ c :: r) pos 0 = placeholder pos ++ veil r (pos + b.length + 2) 0 := by
  rw [List.cons_append, veil, if_pos ⟨hc, by simp⟩, takeWhile_quote hb]
  have e : b ++ c :: r = (b ++ [c]) ++ r := by simp
  have e2 : b.length + 1 = (b ++ [c]).length := by simp
  rw [e, e2, veil_skip]
  have e3 : pos + 1 + (b ++ [c]).length = pos + b.length + 2 := by simp; omega
  rw [e3]

theorem unquoted_quote_eq (c : Char) (b r : Str) (hc : c = '\'' ∨ c = '"') (hb : c ∉ b) :
    unquoted (c :: b ++ c :: r) = unquoted r := by
  unfold unquoted
  rw [List.cons_append, unquotedFrom, if_pos ⟨hc, by simp⟩, takeWhile_quote hb]
  have e : b ++ c :: r = (b ++ [c]) ++ r := by simp
  have e2 : b.length + 1 = (b ++ [c]).length := by simp
  rw [e, e2, unquoted_skip]

theorem quote_not_mark {q : Char} (h : q = '\'' ∨ q = '"') (n : Nat) : q ∉ placeholder n := by
  intro hm
  have := mark_of_mem hm
  rcases h with rfl | rfl <;> revert this <;> decide

theorem hideLoop_veil (s : Str) : ∀ (pos : Nat) (pre : Str), (∀ q, (q = '\'' ∨ q = '"') → q ∈ pre → q ∉ s) →
    hideLoop (scanStrings s pos 0) (pre ++ s) = pre ++ veil s pos 0 := by
  induction s using quote_induction with
  | h0 => intro pos pre _; rfl
  | h1 c cs hq ih =>
    intro pos pre hpre
    rw [scanStrings, if_neg hq, veil, if_neg hq]
    have := ih (pos + 1) (pre ++ [c]) (by
      intro q hq' hm hm'
      rcases List.mem_append.mp hm with h | h
      · exact hpre q hq' h (by simp [hm'])
      · simp at h; subst h; exact hq ⟨hq', hm'⟩)
    simpa using this
  | h2 c b r hc hb ih =>
    intro pos pre hpre
    rw [scanStrings_quote_eq c b r hc hb, veil_quote_eq c b r hc hb, hideLoop]
    have e : pre ++ (c :: b ++ c :: r) = pre ++ (([] ++ c :: (b ++ [c])) ++ r) := by simp
    have hcp : c ∉ pre := fun h => hpre c hc h (by simp)
    have e2 : c :: b ++ [c] = [] ++ c :: (b ++ [c]) := by simp
    rw [e, e2, replaceFirst_at [] (b ++ [c]) _ pre r c hcp (by simp)]
    have := ih (pos + b.length + 2) (pre ++ placeholder pos) (by
      intro q hq' hm hm'
      rcases List.mem_append.mp hm with h | h
      · exact hpre q hq' h (by simp [hm'])
      · exact quote_not_mark hq' _ h)
    simpa using this

/-! ## Square brackets -/

/-- A square bracket. -/
def isSq (c : Char) : Bool := c = '[' || c = ']'

theorem veil_brackets (s : Str) : ∀ pos, (veil s pos 0).filter isSq = (unquoted s).filter isSq := by
  induction s using quote_induction with
  | h0 => intro pos; rfl
  | h1 c cs hq ih =>
    intro pos
    have e : unquoted (c :: cs) = c :: unquoted cs := by
      unfold unquoted; rw [unquotedFrom, if_neg hq]
    rw [veil, if_neg hq, e, List.filter_cons, List.filter_cons, ih]
  | h2 c b r hc hb ih =>
    intro pos
    rw [veil_quote_eq c b r hc hb, unquoted_quote_eq c b r hc hb, List.filter_append, ih]
    have : (placeholder pos).filter isSq = [] := by
      rw [List.filter_eq_nil_iff]
      intro d hd
      have := mark_of_mem hd
      simp only [isSq, Bool.or_eq_true, decide_eq_true_eq]
      rintro (rfl | rfl) <;> revert this <;> decide
    rw [this, List.nil_append]

theorem noBracket_filter (s : Str) : NoBracket s ↔ s.filter isSq = [] := by
  rw [List.filter_eq_nil_iff]
  simp only [isSq, Bool.or_eq_true, decide_eq_true_eq, NoBracket]
  constructor
  · rintro ⟨h1, h2⟩ c hc (rfl | rfl)
    · exact h1 hc
    · exact h2 hc
  · intro h
    exact ⟨fun hm => h _ hm (.inl rfl), fun hm => h _ hm (.inr rfl)⟩

theorem onePair_filter (s : Str) : OnePair s ↔ s.filter isSq = ['[', ']'] := by
  constructor
  · rintro ⟨a, b, c, rfl, ha, hb, hc⟩
    rw [noBracket_filter] at ha hb hc
    rw [List.filter_append, List.filter_append, ha, List.filter_cons, if_pos (by rfl), hb, List.filter_cons,
      if_pos (by rfl), hc]
    rfl
  · intro h
    rw [List.filter_eq_cons_iff] at h
    obtain ⟨a, l, rfl, ha, -, hl⟩ := h
    rw [List.filter_eq_cons_iff] at hl
    obtain ⟨b, c, rfl, hb, -, hc⟩ := hl
    refine ⟨a, b, c, by simp, ?_, ?_, ?_⟩
    · rw [noBracket_filter, List.filter_eq_nil_iff]; exact ha
    · rw [noBracket_filter, List.filter_eq_nil_iff]; exact hb
    · rw [noBracket_filter]; exact hc

theorem split_mem {c : Char} {s : Str} (h : c ∈ s) : ∃ a b, s = a ++ c :: b ∧ c ∉ a :=
  let ⟨r, h1, h2⟩ := split_first h
  ⟨_, r, h1, h2⟩

theorem idxOf_app {c : Char} {a b : Str} (h : c ∉ a) : (a ++ b).idxOf c = b.idxOf c + a.length := by
  rw [List.idxOf_append, if_neg h]

theorem badBrackets_iff (s : Str) : badBrackets s = false ↔ NoBracket s ∨ OnePair s := by
  simp only [badBrackets, Bool.or_eq_false_iff, decide_eq_false_iff_not, Bool.and_eq_false_iff, Nat.not_lt, gt_iff_lt]
  constructor
  · rintro ⟨⟨⟨⟨h1, h2⟩, h3⟩, h4⟩, h5⟩
    by_cases hm : '[' ∈ s
    · have hm' : ']' ∈ s := by
        rcases h3 with h3 | h3
        · exact absurd hm h3
        · exact Classical.byContradiction h3
      have h5' : s.idxOf '[' ≤ s.idxOf ']' := by
        rcases h5 with (h | h) | h
        · exact absurd hm h
        · exact absurd hm' h
        · exact h
      obtain ⟨a, l, rfl, ha⟩ := split_mem hm
      rw [idxOf_app ha, List.idxOf_cons_self, Nat.zero_add] at h5'
      have ha' : ']' ∉ a := by
        intro hx
        rw [List.idxOf_append, if_pos hx] at h5'
        have := List.idxOf_lt_length_of_mem hx
        omega
      have hl : ']' ∈ l := by
        simpa [ha'] using hm'
      obtain ⟨b, c, rfl, hb⟩ := split_mem hl
      rw [List.count_append, List.count_eq_zero.mpr ha, List.count_cons_self, List.count_append, List.count_cons] at h1
      rw [List.count_append, List.count_eq_zero.mpr ha', List.count_cons, List.count_append, List.count_cons_self] at h2
      refine .inr ⟨a, b, c, by simp, ⟨ha, ha'⟩, ⟨?_, hb⟩, ?_, ?_⟩
      · rw [← List.count_eq_zero]; omega
      · rw [← List.count_eq_zero]; simp at h1; omega
      · rw [← List.count_eq_zero]; omega
    · have hm' : ']' ∉ s := by
        rcases h4 with h4 | h4
        · exact h4
        · exact absurd h4 (by simpa using hm)
      exact .inl ⟨hm, hm'⟩
  · rintro (⟨h1, h2⟩ | ⟨a, b, c, rfl, ha, hb, hc⟩)
    · simp [h1, h2, List.count_eq_zero.mpr h1, List.count_eq_zero.mpr h2]
    · have e1 : List.count '[' (a ++ '[' :: b ++ ']' :: c) = 1 := by
        simp [List.count_append, List.count_cons, List.count_eq_zero.mpr ha.1, List.count_eq_zero.mpr hb.1,
          List.count_eq_zero.mpr hc.1]
      have e2 : List.count ']' (a ++ '[' :: b ++ ']' :: c) = 1 := by
        simp [List.count_append, List.count_cons, List.count_eq_zero.mpr ha.2, List.count_eq_zero.mpr hb.2,
          List.count_eq_zero.mpr hc.2]
      have e3 : List.idxOf '[' (a ++ '[' :: b ++ ']' :: c) = a.length := by
        rw [List.append_assoc, idxOf_app ha.1]; simp
      have e4 : a.length ≤ List.idxOf ']' (a ++ '[' :: b ++ ']' :: c) := by
        rw [List.append_assoc, idxOf_app ha.2]; omega
      rw [e1, e2, e3]
      exact ⟨⟨⟨⟨Nat.le_refl _, Nat.le_refl _⟩, .inr (by simp)⟩, .inr (by simp)⟩, .inr e4⟩

/-- The check looks at what is outside the quotes only. -/
theorem badBrackets_unquoted (s : Str) :
    badBrackets (hideLoop (scanStrings s 0 0) s) = false ↔ NoBracket (unquoted s) ∨ OnePair (unquoted s) := by
  have := hideLoop_veil s 0 [] (by simp)
  simp only [List.nil_append] at this
  rw [this, badBrackets_iff, noBracket_filter, onePair_filter, veil_brackets, ← noBracket_filter, ← onePair_filter]

section
variable [PyEnv]

/-! ## Outcomes -/

theorem St.addE {K is} (h : St K is) {e : VErr} (hc : K e.code) : Blocked K (is.add e false) := by
  refine ⟨h.wf.add _ _ _, (Issues.stop_add_isSome _ _ _ _ _).mpr (.inr ⟨rfl, rfl⟩), ?_⟩
  intro l e' he
  rw [Issues.errorsAt_add] at he
  rcases List.mem_append.mp he with he | he
  · exact h.only l e' he
  · split at he
    · rename_i hl
      simp at he
      subst he
      exact ⟨hl.symm, hc⟩
    · simp at he

/-- A path and no issues, or no path and blocking issues. -/
def PathOut (K : Nat → Prop) (r : Option PatchPath × Issues) : Prop :=
  (∃ p, r = (some p, {}) ∧ p.Ok) ∨ (r.1 = none ∧ Blocked K r.2)

theorem make_ok {r : AttrRep} {f : Option Op} {s : Option AttrRep} {p : PatchPath} (h : PatchPath.make r f s = .ok p) :
    p = { rep := r, filter := f, subRep := s } ∧ p.Ok := by
  unfold PatchPath.make at h
  split at h
  · cases h
  split at h
  · cases h
  split at h
  · cases h
  rename_i h1 h2 h3
  injection h with h
  subst h
  refine ⟨rfl, ?_, ?_, ?_⟩
  · intro o ho
    dsimp only at ho
    subst ho
    simp only [PatchPath.filterOk, Bool.not_eq_true', Bool.not_eq_false] at h3
    cases o <;> simp_all [eqv_sameAs]
  · intro s' hs'
    dsimp only at hs'
    subst hs'
    simp [PatchPath.subOk] at h2
    exact ⟨h2.1, (topLevelEquals_iff _ _).mp h2.2⟩
  · intro hr
    dsimp only at hr ⊢
    simp [hr] at h1
    exact h1

theorem make_error {r : AttrRep} {f : Option Op} {s : Option AttrRep} {e : PyErr} (h : PatchPath.make r f s = .error e) :
    e = .valueError := by
  unfold PatchPath.make at h
  split at h
  · cases h; rfl
  split at h
  · cases h; rfl
  split at h
  · cases h; rfl
  cases h

theorem make_rep_error {a b c : Str} {e : PyErr} (h : AttrRep.make a b c = .error e) : e = .valueError := by
  unfold AttrRep.make at h
  split at h
  · cases h; rfl
  split at h
  · cases h; rfl
  cases h

/-- What the part after the filter can give. -/
def TailRes (K : Nat → Prop) : PyM (Option AttrRep × Issues) → Prop
  | .ok q => St K q.2
  | .error e => e = .valueError

theorem pathTail_res {K} (h111 : K 111) (h33 : K 33) (strings : List (Nat × Str)) (r : AttrRep) (exp : Str) :
    TailRes K (pathTail strings {} r exp) := by
  unfold pathTail
  split
  · exact St.empty
  · unfold pathSub
    split
    · exact .inr (St.empty.addE h111)
    · split
      · split
        · exact .inr (St.empty.addE h33)
        · exact St.empty
      · split
        · rename_i h; exact make_rep_error h
        · exact St.empty

/-- What a path can give. -/
def PathRes (K : Nat → Prop) : PyM (Option PatchPath × Issues) → Prop
  | .ok r => PathOut K r
  | .error e => e = .attributeError ∨ e = .valueError ∨ e = .overflowError

omit [PyEnv] in
theorem has_empty : ({} : Issues).hasIssues = false := rfl

theorem parsePath_res {K} (hK : FilterCodes K) (path : Str)
    (h300 : badBrackets (hideLoop (scanStrings path 0 0) path) = true → K 300) :
    PathRes K (PatchPath.parse path) := by
  unfold PatchPath.parse
  dsimp only
  split
  · exact .inr ⟨rfl, St.empty.add (h300 (by assumption))⟩
  split
  · unfold parseCplxPath
    have hf := filterParse_res (E := fun e => e = .overflowError) hK (encodeStrings (scanStrings path 0 0)
      ((hideLoop (scanStrings path 0 0) path).take ((hideLoop (scanStrings path 0 0) path).idxOf ']' + 1)))
      (fun c e _ _ hp hv => (parseComparisonValue_error hp hv).1)
    cases hp : Filter.parse (encodeStrings (scanStrings path 0 0)
      ((hideLoop (scanStrings path 0 0) path).take ((hideLoop (scanStrings path 0 0) path).idxOf ']' + 1))) with
    | error e => rw [hp] at hf; exact .inr (.inr hf)
    | ok q =>
      rw [hp] at hf
      obtain ⟨o, is⟩ := q
      rcases hf with ⟨h1, h2⟩ | ⟨h1, h2⟩
      · dsimp only at h1 h2
        subst h2
        obtain ⟨o, rfl⟩ := Option.isSome_iff_exists.mp h1
        dsimp only
        rw [has_empty, if_neg (by simp)]
        cases hr : o.rep? with
        | none => exact .inl rfl
        | some r =>
          dsimp only
          have ht := pathTail_res (K := K) hK.c111 hK.c33 (scanStrings path 0 0) r
            ((hideLoop (scanStrings path 0 0) path).drop ((hideLoop (scanStrings path 0 0) path).idxOf ']' + 1))
          cases hq : pathTail (scanStrings path 0 0) {} r
            ((hideLoop (scanStrings path 0 0) path).drop ((hideLoop (scanStrings path 0 0) path).idxOf ']' + 1)) with
          | error e => rw [hq] at ht; exact .inr (.inl ht)
          | ok q =>
            rw [hq] at ht
            obtain ⟨s, is⟩ := q
            dsimp only at ht ⊢
            rcases ht with rfl | ht
            · rw [has_empty, if_neg (by simp)]
              cases hm : PatchPath.make r (some o) s with
              | error e => exact .inr (.inl (make_error hm))
              | ok p => exact .inl ⟨p, rfl, (make_ok hm).2⟩
            · rw [if_pos ht.has]
              exact .inr ⟨rfl, ht⟩
      · dsimp only at h1 h2
        dsimp only
        rw [if_pos h2.has]
        exact .inr ⟨rfl, h2⟩
  · split
    · exact .inr ⟨rfl, St.empty.addE hK.c111⟩
    · split
      · rename_i h; exact .inr (.inl (make_error h))
      · rename_i h; exact .inl ⟨_, rfl, (make_ok h).2⟩

/-! ## Restoring strings -/

omit [PyEnv] in
theorem replaceAll_pre (c : Char) (n m pre s : Str) (h : c ∉ pre) :
    replaceAll (c :: n) m (pre ++ s) = pre ++ replaceAll (c :: n) m s := by
  induction pre with
  | nil => rfl
  | cons d pre ih =>
    have hd : c ≠ d := fun e => h (by simp [e])
    have hp : (c :: n).isPrefixOf (d :: (pre ++ s)) = false := by
      simp [List.isPrefixOf, hd]
    unfold replaceAll at ih ⊢
    rw [List.cons_append, replaceAllAux, hp, if_neg (by simp), ih (fun hm => h (by simp [hm]))]
    rfl

omit [PyEnv] in
theorem replaceAllAux_drop (n m u v : Str) : replaceAllAux n m u.length (u ++ v) = replaceAllAux n m 0 v := by
  induction u with
  | nil => rfl
  | cons c u ih => exact ih

omit [PyEnv] in
theorem replaceAll_here (c : Char) (n m s : Str) :
    replaceAll (c :: n) m ((c :: n) ++ s) = m ++ replaceAll (c :: n) m s := by
  unfold replaceAll
  rw [List.cons_append, replaceAllAux, if_pos (by rw [List.isPrefixOf_iff_prefix]; exact ⟨s, by simp⟩)]
  have e : (c :: n).length - 1 = n.length := by simp
  rw [e, replaceAllAux_drop]

theorem findPlaceholders_drop (u v : Str) : findPlaceholders (u ++ v) u.length = findPlaceholders v 0 := by
  induction u with
  | nil => rfl
  | cons c u ih => exact ih

omit [PyEnv] in
theorem placeholder_shape (n : Nat) : ∃ mid, placeholder n = '|' :: '&' :: mid ++ ['|'] ∧ '|' ∉ mid := by
  refine ⟨"PLACE_HOLDER_".toList ++ Nat.toDigits 10 n ++ ['&'], by
    unfold placeholder
    rw [show phOpen = '|' :: '&' :: "PLACE_HOLDER_".toList from rfl, show phClose = ['&', '|'] from rfl]
    generalize "PLACE_HOLDER_".toList = x
    simp, ?_⟩
  intro h
  simp only [List.mem_append] at h
  rcases h with (h | h) | h
  · revert h; decide
  · have := digit_chars h
    revert this; decide
  · revert h; decide

/-- No bars and ampersands outside the hidden parts, no bars inside. -/
def Tame : List Seg → Prop
  | [] => True
  | .ch c :: r => c ≠ '|' ∧ c ≠ '&' ∧ Tame r
  | .item t :: r => '|' ∉ t ∧ Tame r

theorem findPlaceholders_hid (segs : List Seg) (h : Tame segs) (pos : Nat) :
    findPlaceholders (hid pos segs) 0 = (items pos segs).map (fun p => (placeholder p.1, p.1)) := by
  induction segs generalizing pos with
  | nil => rfl
  | cons a x ih =>
    cases a with
    | ch c =>
      rw [hid, findPlaceholders, placeholderAt_none (by simpa using h.1)]
      exact ih h.2.2 _
    | item t =>
      have hp := placeholderAt_self pos (hid (pos + t.length) x)
      obtain ⟨c, cs, hc⟩ := List.exists_cons_of_ne_nil (placeholder_ne pos)
      rw [hid, items, List.map_cons, ← ih h.2]
      rw [hc, List.cons_append] at hp ⊢
      rw [findPlaceholders, hp]
      dsimp only
      have e : (c :: cs).length - 1 = cs.length := by simp
      rw [e, findPlaceholders_drop]
      congr 2
      rw [← List.cons_append, List.take_left]

omit [PyEnv] in
theorem hid_head (segs : List Seg) (h : Tame segs) (pos : Nat) : (hid pos segs).head? ≠ some '&' := by
  cases segs with
  | nil => simp [hid]
  | cons a x =>
    cases a with
    | ch c => simpa [hid] using h.2.1
    | item t =>
      obtain ⟨mid, hm, -⟩ := placeholder_shape pos
      simp [hid, hm]

theorem placeholder_prefix {k n : Nat} {s : Str} (h : placeholder k <+: placeholder n ++ s) : k = n := by
  obtain ⟨x, hx⟩ := h
  have h1 := placeholderAt_self k x
  have h2 := placeholderAt_self n s
  rw [hx, h2] at h1
  simp at h1
  exact h1.2.symm

theorem replaceAll_other (k : Nat) (m : Str) (segs : List Seg) (h : Tame segs) (pos : Nat)
    (hne : ∀ q ∈ items pos segs, q.1 ≠ k) : replaceAll (placeholder k) m (hid pos segs) = hid pos segs := by
  obtain ⟨midk, hk, -⟩ := placeholder_shape k
  induction segs generalizing pos with
  | nil => rfl
  | cons a x ih =>
    cases a with
    | ch c =>
      have := replaceAll_pre '|' ('&' :: midk ++ ['|']) m [c] (hid (pos + 1) x) (by simpa using h.1.symm)
      rw [hid]
      rw [hk] at ih ⊢
      have ih' := ih h.2.2 (pos + 1) hne
      simp only [List.cons_append, List.nil_append] at this ih' ⊢
      rw [this, ih']
    | item t =>
      obtain ⟨mid, hm, hmid⟩ := placeholder_shape pos
      have hnp : ¬ placeholder k <+: placeholder pos ++ hid (pos + t.length) x := by
        intro hp
        exact hne (pos, t) (by simp [items]) (placeholder_prefix hp).symm
      have ih' := ih h.2 (pos + t.length) (fun q hq => hne q (by simp [items, hq]))
      rw [hid]
      have hstep : ∀ d s, ¬ placeholder k <+: d :: s → replaceAll (placeholder k) m (d :: s) =
          d :: replaceAll (placeholder k) m s := by
        intro d s hd
        unfold replaceAll
        rw [replaceAllAux, if_neg (by rw [List.isPrefixOf_iff_prefix]; exact hd)]
      have e : placeholder pos ++ hid (pos + t.length) x = '|' :: (('&' :: mid) ++ ('|' :: hid (pos + t.length) x)) := by
        rw [hm]; simp
      rw [e] at hnp ⊢
      rw [hstep _ _ hnp]
      have hpre : replaceAll (placeholder k) m (('&' :: mid) ++ ('|' :: hid (pos + t.length) x)) =
          ('&' :: mid) ++ replaceAll (placeholder k) m ('|' :: hid (pos + t.length) x) := by
        rw [hk]
        exact replaceAll_pre '|' _ m ('&' :: mid) _ (by simp [hmid])
      rw [hpre, hstep, ih']
      intro hp
      rw [hk] at hp
      obtain ⟨y, hy⟩ := hp
      simp only [List.cons_append, List.cons.injEq, true_and] at hy
      exact hid_head x h.2 (pos + t.length) (by rw [← hy]; rfl)

theorem restore_fold (strings : List (Nat × Str)) (b : Bool) (segs : List Seg) (hok : Ok S1 b segs) (h : Tame segs) (pos : Nat)
    (pre : Str) (hpre : '|' ∉ pre) (hs : ∀ q ∈ items pos segs, aget q.1 strings = some q.2) :
    ((items pos segs).map (fun p => (placeholder p.1, p.1))).foldl (fun acc (p : Str × Nat) => match aget p.2 strings with
      | some s => replaceAll p.1 s acc
      | none => acc) (pre ++ hid pos segs) = pre ++ orig segs := by
  induction segs generalizing b pos pre with
  | nil => rfl
  | cons a x ih =>
    cases a with
    | ch c =>
      have := ih _ hok.2 h.2.2 (pos + 1) (pre ++ [c]) (by simpa [hpre] using h.1.symm) hs
      simpa [hid, items, orig] using this
    | item t =>
      have hok' := hok.2.2
      obtain ⟨v, q, s, hq, hsq, rfl, -⟩ := hok.2.1
      generalize ht : q :: s ++ [q] = t at *
      have hlen : 0 < t.length := by rw [← ht]; simp
      have hg := (items_ge S1_good _ _ hok' (pos + t.length)).1
      rw [items, List.map_cons, List.foldl_cons, hs (pos, t) (by simp [items])]
      dsimp only
      obtain ⟨mid, hm, -⟩ := placeholder_shape pos
      have e : replaceAll (placeholder pos) t (pre ++ hid pos (.item t :: x)) = (pre ++ t) ++ hid (pos + t.length) x := by
        rw [hid]
        have h1 : replaceAll (placeholder pos) t (pre ++ (placeholder pos ++ hid (pos + t.length) x)) =
            pre ++ replaceAll (placeholder pos) t (placeholder pos ++ hid (pos + t.length) x) := by
          rw [hm]; exact replaceAll_pre '|' _ t pre _ hpre
        have h2 : replaceAll (placeholder pos) t (placeholder pos ++ hid (pos + t.length) x) =
            t ++ replaceAll (placeholder pos) t (hid (pos + t.length) x) := by
          rw [hm]; exact replaceAll_here '|' _ t _
        rw [h1, h2, replaceAll_other pos t x h.2 _ (fun q hq => by have := hg q hq; omega)]
        simp
      rw [e, ih _ hok' h.2 (pos + t.length) (pre ++ t) (by simp [hpre, h.1]) (fun q hq => hs q (by simp [items, hq]))]
      simp [orig]

theorem restore (strings : List (Nat × Str)) (b : Bool) (segs : List Seg) (hok : Ok S1 b segs) (h : Tame segs) (pos : Nat)
    (hs : ∀ q ∈ items pos segs, aget q.1 strings = some q.2) : encodeStrings strings (hid pos segs) = orig segs := by
  unfold encodeStrings
  rw [findPlaceholders_hid segs h pos]
  exact restore_fold strings b segs hok h pos [] (by simp) hs

omit [PyEnv] in
theorem tameSegs_of {b : Bool} {segs : List Seg} (hok : Ok S1 b segs) (h1 : '|' ∉ orig segs) (h2 : '&' ∉ unquoted (orig segs)) :
    Tame segs := by
  induction segs generalizing b with
  | nil => trivial
  | cons a x ih =>
    cases a with
    | ch c =>
      have hc := hok.1
      simp only [S1, Bool.or_eq_false_iff, decide_eq_false_iff_not] at hc
      have hq : ¬ ((c = '\'' ∨ c = '"') ∧ c ∈ orig x) := by
        rintro ⟨h | h, -⟩
        · exact hc.2 h
        · exact hc.1 h
      have e : unquoted (orig (.ch c :: x)) = c :: unquoted (orig x) := by
        unfold unquoted; rw [orig, unquotedFrom, if_neg hq]
      rw [e] at h2
      simp [orig] at h1 h2
      exact ⟨Ne.symm h1.1, Ne.symm h2.1, ih hok.2 h1.2 h2.2⟩
    | item t =>
      obtain ⟨-, ⟨v, q, s, hq, hs, rfl, -⟩, hok⟩ := hok
      have e : orig (.item (q :: s ++ [q]) :: x) = q :: s ++ q :: orig x := by simp [orig]
      rw [e, unquoted_quote_eq q s _ hq.symm hs] at h2
      rw [e, List.mem_append] at h1
      exact ⟨fun hm => h1 (by
          rcases List.mem_append.mp hm with h | h
          · exact .inl h
          · exact .inr (List.mem_cons.mpr (.inl (by simpa using h)))),
        ih hok (fun hm => h1 (.inr (List.mem_cons_of_mem _ hm))) h2⟩

/-! ## Paths with a filter -/

theorem cplx_filterText {t : Str} {o : Op} (h : CplxText Value t o) : FilterTextX t o :=
  ⟨0, [o], .one _ _ ⟨[o], .one _ _ (.plain _ _ (.inr h)), rfl⟩, rfl⟩

omit [PyEnv] in
theorem idx_last {name sub : Str} (rest : Str) (h1 : ']' ∉ name) (h2 : ']' ∉ sub) :
    (name ++ '[' :: sub ++ [']'] ++ rest).idxOf ']' + 1 = (name ++ '[' :: sub ++ [']']).length := by
  have e : name ++ '[' :: sub ++ [']'] ++ rest = (name ++ '[' :: sub) ++ (']' :: rest) := by simp
  rw [e, idxOf_app (by simp [h1, h2])]
  simp; omega

/-- A path with a filter and a rest without quotes. -/
theorem parse_filterPath {t tail : Str} {r : AttrRep} {o : Op} (h : CplxText Value t (.cplx r o)) (h1 : '|' ∉ t)
    (h2 : '&' ∉ unquoted t) (hq : ∀ c ∈ tail, Quiet c) (hb : '|' ∉ tail) :
    PatchPath.parse (t ++ tail) = match pathTail [] {} r tail with
      | .error e => .error e
      | .ok (sub, issues) =>
        if issues.hasIssues then .ok (none, issues)
        else match PatchPath.make r (some (.cplx r o)) sub with
          | .error e => .error e
          | .ok p => .ok (some p, issues) := by
  generalize hst : scanStrings (t ++ tail) 0 0 = strings
  obtain ⟨segs, g1, g2, g3, g4⟩ := lift_cplx_S1 (strings := strings) t _ h
  have hok : Ok S1 false (segs ++ chars tail) := by
    rw [ok_append]
    exact ⟨g2, ok_chars _ _ _ (fun c hc => S1_quiets c (hq c hc))⟩
  have ho : orig (segs ++ chars tail) = t ++ tail := by rw [orig_append, g1, orig_chars]
  have hsc := scanStrings_segs _ _ hok 0
  have hhl := hideLoop_segs S1_good _ _ hok 0 [] (by simp)
  obtain ⟨-, hnd, -⟩ := items_ge S1_good _ _ hok 0
  rw [List.nil_append, List.nil_append, ← hsc, ho, hst] at hhl
  rw [← hsc, ho, hst] at hnd
  have hA : ∀ q ∈ items 0 segs, aget q.1 strings = some q.2 := by
    intro q hq
    refine aget_of_mem hnd ?_
    rw [← hst, ← ho, hsc, items_append]
    simp [hq]
  obtain ⟨hc, -⟩ := g4 0 hA
  obtain ⟨name, sub, hs, hn, hsub⟩ := cplx_shape hc
  have hrest := restore strings false segs g2 (tameSegs_of g2 (by rw [g1]; exact h1) (by rw [g1]; exact h2)) 0 hA
  rw [hid_append, hid_chars, hs] at hhl
  rw [hs, g1] at hrest
  have hn1 : ']' ∉ name := fun hm => by
    have := quiet_iff.mp (repChar_quiet (hn _ hm)); exact this.2.2.2.2.2 rfl
  have hn2 : '[' ∉ name := fun hm => by
    have := quiet_iff.mp (repChar_quiet (hn _ hm)); exact this.2.2.2.2.1 rfl
  have hs1 : ']' ∉ sub := fun hm => (hsub _ hm).2.2 rfl
  have hs2 : '[' ∉ sub := fun hm => (hsub _ hm).2.1 rfl
  have ht1 : ']' ∉ tail := fun hm => by have := quiet_iff.mp (hq _ hm); exact this.2.2.2.2.2 rfl
  have ht2 : '[' ∉ tail := fun hm => by have := quiet_iff.mp (hq _ hm); exact this.2.2.2.2.1 rfl
  have hbad : badBrackets (name ++ '[' :: sub ++ [']'] ++ tail) = false :=
    (badBrackets_iff _).mpr (.inr ⟨name, sub, tail, by simp, ⟨hn2, hn1⟩, ⟨hs2, hs1⟩, ⟨ht2, ht1⟩⟩)
  unfold PatchPath.parse
  rw [hst]
  dsimp only
  rw [hhl, hbad, if_neg (by simp), if_pos (by simp)]
  unfold parseCplxPath
  rw [idx_last tail hn1 hs1, List.take_left, List.drop_left, hrest]
  have hf := filterParse_ok (cplx_filterText h) Ws.nil Ws.nil
  rw [List.nil_append, List.append_nil] at hf
  rw [hf]
  dsimp only
  rw [has_empty, if_neg (by simp)]
  have hpt : pathTail strings {} r tail = pathTail [] {} r tail := by
    have hb' : '|' ∉ (if startsWith ['.'] tail then tail.drop 1 else tail) := by
      split
      · exact fun hm => hb (List.mem_of_mem_drop hm)
      · exact hb
    unfold pathTail
    rw [encodeStrings_none hb', encodeStrings_none hb']
  simp only [Op.rep?]
  rw [hpt]
  rfl

end
end Scim
