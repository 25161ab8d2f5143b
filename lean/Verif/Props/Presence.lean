import Verif.Lemmas.Presence
import Verif.Lemmas.Assets
import Verif.Lemmas.AttrRep

/-! # C36–C42: presence checks -/

namespace Scim
variable [PyEnv]

theorem mem_codesAt (is : Issues) (l : Loc) (n : Nat) : n ∈ is.codesAt l ↔ ∃ e ∈ is.errorsAt l, e.code = n := by
  simp [Issues.codesAt]

/-- **C36** unless attributes were requested by name, "missing" is reported at a location exactly when a declared
attribute found there is required, not to be ignored, and is null, empty or absent.  (In particular for the
default checker, in requests and in responses.) -/
theorem C36_missing_iff (c : Checker) (hc : c.incl ≠ some true) (data : Val) (attrs : Attributes) (d : Direction)
    (is : Issues) (h : c.call data attrs d = .ok is) (l : Loc) :
    15 ∈ is.codesAt l ↔
      ∃ a ∈ attrs.all, ∃ v, Observed attrs data a l v ∧ v.Empty ∧ a.info.required = true ∧ ¬ Listed a.rep c.ignore := by
  rw [mem_codesAt]
  constructor
  · rintro ⟨e, he, hcode⟩
    rw [call_errors _ _ _ _ _ h] at he
    obtain ⟨a, ha, v, ho, he⟩ := he
    rw [checkPresence_errors] at he
    rcases he.2 with ⟨rfl, h1, h2, h3, _⟩ | ⟨rfl, _⟩
    · exact ⟨a, ha, v, ho, h1, h2, h3⟩
    · simp at hcode
  · rintro ⟨a, ha, v, ho, h1, h2, h3⟩
    refine ⟨⟨15, []⟩, ?_, rfl⟩
    rw [call_errors _ _ _ _ _ h]
    refine ⟨a, ha, v, ho, ?_⟩
    rw [checkPresence_errors]
    exact ⟨rfl, .inl ⟨rfl, h1, h2, h3, fun h => absurd h hc⟩⟩

/-- **C36** for an attribute not below a multi-valued one: read its value by name; the attribute is reported if
it is required, not to be ignored, and empty. -/
theorem C36_simple (c : Checker) (hc : c.incl ≠ some true) (data : Val) (attrs : Attributes) (d : Direction)
    (is : Issues) (h : c.call data attrs d = .ok is) (a : Attr) (ha : a ∈ attrs.all)
    (hp : a.rep.sub = [] ∨ ∃ t, attrs.get { schema := a.rep.schema, attr := a.rep.attr } = some t ∧ t.info.multi = false)
    (v : Val) (hv : data.getItem a.rep = .ok v) (hem : v.Empty) (hr : a.info.required = true)
    (hi : ¬ Listed a.rep c.ignore) : 15 ∈ is.codesAt a.rep.loc := by
  have hvi : v.isInvalid = false := by
    rcases hem with rfl | rfl | rfl | rfl <;> rfl
  rw [C36_missing_iff c hc data attrs d is h]
  refine ⟨a, ha, v, ?_, hem, hr, hi⟩
  unfold AttrRep.loc
  by_cases hs : a.rep.sub = []
  · rw [if_pos (by simp [hs])]; exact .top hs hv hvi
  · rw [if_neg (by simp [hs])]
    rcases hp with hp | ⟨t, ht, hm⟩
    · exact absurd hp hs
    · exact .sub hs ht hm hv hvi

/-- **C36** with requested attributes, only those (and, in responses, attributes always returned) can be missing. -/
theorem C36_missing_requested (c : Checker) (hc : c.incl = some true) (data : Val) (attrs : Attributes) (d : Direction)
    (is : Issues) (h : c.call data attrs d = .ok is) (l : Loc) :
    15 ∈ is.codesAt l ↔
      ∃ a ∈ attrs.all, ∃ v, Observed attrs data a l v ∧ v.Empty ∧ a.info.required = true ∧ ¬ Listed a.rep c.ignore ∧
        (Listed a.rep c.reps ∨ (d = .response ∧ a.info.returned = .always)) := by
  rw [mem_codesAt]
  constructor
  · rintro ⟨e, he, hcode⟩
    rw [call_errors _ _ _ _ _ h] at he
    obtain ⟨a, ha, v, ho, he⟩ := he
    rw [checkPresence_errors] at he
    rcases he.2 with ⟨rfl, h1, h2, h3, h4⟩ | ⟨rfl, _⟩
    · exact ⟨a, ha, v, ho, h1, h2, h3, h4 hc⟩
    · simp at hcode
  · rintro ⟨a, ha, v, ho, h1, h2, h3, h4⟩
    refine ⟨⟨15, []⟩, ?_, rfl⟩
    rw [call_errors _ _ _ _ _ h]
    refine ⟨a, ha, v, ho, ?_⟩
    rw [checkPresence_errors]
    exact ⟨rfl, .inl ⟨rfl, h1, h2, h3, fun _ => h4⟩⟩

/-- **C37** whatever the checker, a non-empty value of an attribute that is never returned is reported. -/
theorem C37_never_returned (c : Checker) (data : Val) (attrs : Attributes) (is : Issues)
    (h : c.call data attrs .response = .ok is) (a : Attr) (ha : a ∈ attrs.all) (l : Loc) (v : Val)
    (hv : Observed attrs data a l v) (hne : ¬ v.Empty) (hn : a.info.returned = .never) : 19 ∈ is.codesAt l := by
  rw [mem_codesAt]
  refine ⟨⟨19, []⟩, ?_, rfl⟩
  rw [call_errors _ _ _ _ _ h]
  refine ⟨a, ha, v, hv, ?_⟩
  rw [checkPresence_errors]
  exact ⟨rfl, .inr ⟨rfl, hne, rfl, by rw [hn]; simp, .inl hn⟩⟩

/-- What may come back when `reps` were requested. -/
def AcceptedIncl (reps : List AttrRep) (a : Attr) : Prop :=
  a.info.returned = .always ∨ (a.info.returned ≠ .never ∧ (Listed a.rep reps ∨ RelativeListed a.rep reps))

/-- What may come back when `reps` were excluded. -/
def AcceptedExcl (reps : List AttrRep) (a : Attr) : Prop :=
  a.info.returned = .always ∨ (a.info.returned ≠ .never ∧ ¬ Listed a.rep reps)

theorem code19_iff (c : Checker) (data : Val) (attrs : Attributes) (is : Issues)
    (h : c.call data attrs .response = .ok is) (l : Loc) :
    19 ∈ is.codesAt l ↔ ∃ a ∈ attrs.all, ∃ v, Observed attrs data a l v ∧ ¬ v.Empty ∧ a.info.returned ≠ .always ∧
      (a.info.returned = .never ∨ (c.incl = some false ∧ Listed a.rep c.reps) ∨
            (c.incl = some true ∧ ¬ Listed a.rep c.reps ∧ ¬ RelativeListed a.rep c.reps)) := by
  rw [mem_codesAt]
  constructor
  · rintro ⟨e, he, hcode⟩
    rw [call_errors _ _ _ _ _ h] at he
    obtain ⟨a, ha, v, ho, he⟩ := he
    rw [checkPresence_errors] at he
    rcases he.2 with ⟨rfl, _⟩ | ⟨rfl, h1, _, h2, h3⟩
    · simp at hcode
    · exact ⟨a, ha, v, ho, h1, h2, h3⟩
  · rintro ⟨a, ha, v, ho, h1, h2, h3⟩
    refine ⟨⟨19, []⟩, ?_, rfl⟩
    rw [call_errors _ _ _ _ _ h]
    refine ⟨a, ha, v, ho, ?_⟩
    rw [checkPresence_errors]
    exact ⟨rfl, .inr ⟨rfl, h1, rfl, h2, h3⟩⟩

/-- **C38** with a list of requested attributes, "restricted or not requested" is reported at a location exactly
when a non-empty value found there is not acceptable. -/
theorem C38_include (c : Checker) (hc : c.incl = some true) (data : Val) (attrs : Attributes) (is : Issues)
    (h : c.call data attrs .response = .ok is) (l : Loc) :
    19 ∈ is.codesAt l ↔
      ∃ a ∈ attrs.all, ∃ v, Observed attrs data a l v ∧ ¬ v.Empty ∧ ¬ AcceptedIncl c.reps a := by
  rw [code19_iff c data attrs is h]
  refine exists_congr fun a => and_congr_right fun _ => exists_congr fun v => and_congr_right fun _ =>
    and_congr_right fun _ => ?_
  unfold AcceptedIncl
  constructor
  · rintro ⟨h1, h2 | h2 | h2⟩ (h3 | h3)
    · exact h1 h3
    · exact h3.1 h2
    · exact h1 h3
    · rw [hc] at h2; simp at h2
    · exact h1 h3
    · rcases h3.2 with h | h
      · exact h2.2.1 h
      · exact h2.2.2 h
  · intro hn
    refine ⟨fun h => hn (.inl h), ?_⟩
    by_cases hv : a.info.returned = .never
    · exact .inl hv
    · exact .inr (.inr ⟨hc, fun h => hn (.inr ⟨hv, .inl h⟩), fun h => hn (.inr ⟨hv, .inr h⟩)⟩)

/-- **C39** with a list of excluded attributes. -/
theorem C39_exclude (c : Checker) (hc : c.incl = some false) (data : Val) (attrs : Attributes) (is : Issues)
    (h : c.call data attrs .response = .ok is) (l : Loc) :
    19 ∈ is.codesAt l ↔
      ∃ a ∈ attrs.all, ∃ v, Observed attrs data a l v ∧ ¬ v.Empty ∧ ¬ AcceptedExcl c.reps a := by
  rw [code19_iff c data attrs is h]
  refine exists_congr fun a => and_congr_right fun _ => exists_congr fun v => and_congr_right fun _ =>
    and_congr_right fun _ => ?_
  unfold AcceptedExcl
  constructor
  · rintro ⟨h1, h2 | h2 | h2⟩ (h3 | h3)
    · exact h1 h3
    · exact h3.1 h2
    · exact h1 h3
    · exact h3.2 h2.2
    · exact h1 h3
    · rw [hc] at h2; simp at h2
  · intro hn
    refine ⟨fun h => hn (.inl h), ?_⟩
    by_cases hv : a.info.returned = .never
    · exact .inl hv
    · exact .inr (.inl ⟨hc, Classical.byContradiction fun h => hn (.inr ⟨hv, h⟩)⟩)

/-- **C37/C39** without a list, only what must never be returned is reported. -/
theorem C37_default (c : Checker) (hc : c.incl = none) (data : Val) (attrs : Attributes) (is : Issues)
    (h : c.call data attrs .response = .ok is) (l : Loc) :
    19 ∈ is.codesAt l ↔ ∃ a ∈ attrs.all, ∃ v, Observed attrs data a l v ∧ ¬ v.Empty ∧ a.info.returned = .never := by
  rw [code19_iff c data attrs is h]
  refine exists_congr fun a => and_congr_right fun _ => exists_congr fun v => and_congr_right fun _ =>
    and_congr_right fun _ => ?_
  constructor
  · rintro ⟨-, h | h | h⟩
    · exact h
    · rw [hc] at h; simp at h
    · rw [hc] at h; simp at h
  · intro h; exact ⟨by rw [h]; simp, .inl h⟩

/-- **C40** in requests nothing but "missing" is reported. -/
theorem C40_requests (c : Checker) (data : Val) (attrs : Attributes) (is : Issues)
    (h : c.call data attrs .request = .ok is) (l : Loc) : ∀ n ∈ is.codesAt l, n = 15 := by
  intro n hn
  rw [mem_codesAt] at hn
  obtain ⟨e, he, rfl⟩ := hn
  rw [call_errors _ _ _ _ _ h] at he
  obtain ⟨a, ha, v, ho, he⟩ := he
  rw [checkPresence_errors] at he
  rcases he.2 with ⟨rfl, _⟩ | ⟨_, _, h, _⟩
  · rfl
  · cases h

/-- **C40** and in responses nothing but "missing" and "restricted or not requested". -/
theorem C40_responses (c : Checker) (data : Val) (attrs : Attributes) (d : Direction) (is : Issues)
    (h : c.call data attrs d = .ok is) (l : Loc) : ∀ n ∈ is.codesAt l, n = 15 ∨ n = 19 := by
  intro n hn
  rw [mem_codesAt] at hn
  obtain ⟨e, he, rfl⟩ := hn
  rw [call_errors _ _ _ _ _ h] at he
  obtain ⟨a, ha, v, ho, he⟩ := he
  rw [checkPresence_errors] at he
  rcases he.2 with ⟨rfl, _⟩ | ⟨rfl, _⟩
  · exact .inl rfl
  · exact .inr rfl

/-- **C42** every issue stands at the location of a declared attribute: by name, by name and sub-name, or by
name, position and sub-name — the latter for an existing item of a multi-valued attribute only. -/
theorem C42_locations (c : Checker) (data : Val) (attrs : Attributes) (d : Direction) (is : Issues)
    (h : c.call data attrs d = .ok is) (l : Loc) (hl : is.codesAt l ≠ []) :
    ∃ a ∈ attrs.all,
      (a.rep.sub = [] ∧ l = [.name a.rep.attr]) ∨
      (a.rep.sub ≠ [] ∧ l = [.name a.rep.attr, .name a.rep.sub]) ∨
      (a.rep.sub ≠ [] ∧ ∃ i t xs, l = [.name a.rep.attr, .idx i, .name a.rep.sub] ∧
        attrs.get { schema := a.rep.schema, attr := a.rep.attr } = some t ∧ t.info.multi = true ∧
        data.getItem { schema := a.rep.schema, attr := a.rep.attr } = .ok (.list xs) ∧ i < xs.length) := by
  obtain ⟨n, hn⟩ := List.exists_mem_of_ne_nil _ hl
  rw [mem_codesAt] at hn
  obtain ⟨e, he, rfl⟩ := hn
  rw [call_errors _ _ _ _ _ h] at he
  obtain ⟨a, ha, v, ho, _⟩ := he
  refine ⟨a, ha, ?_⟩
  cases ho with
  | top h0 => exact .inl ⟨h0, rfl⟩
  | sub h0 => exact .inr (.inl ⟨h0, rfl⟩)
  | null h0 => exact .inr (.inl ⟨h0, rfl⟩)
  | item h0 h1 h2 h3 h4 =>
    obtain ⟨hi, -⟩ := List.getElem?_eq_some_iff.mp h4
    exact .inr (.inr ⟨h0, _, _, _, rfl, h1, h2, h3, hi⟩)

/-! ## C41 -/

theorem parse_attr_of_parse {s : Str} {r : AttrRep} (h : AttrRep.parse s = some r) :
    ∃ r', AttrRep.parse r.attr = some r' := by
  have hp := ((parse_eq_some_iff s r).mp h).1
  refine ⟨{ attr := r.attr }, (parse_eq_some_iff _ _).mpr ⟨⟨hp.attr, .inl rfl, .inl rfl, rfl⟩, ?_⟩⟩
  simp [AttrRep.toStr]

/-- The state of the loop: only bad names carry issues and block. -/
theorem parseNames_spec (ss : List Str) (reps : List AttrRep) (all : Bool) (is : Issues)
    (hstop : ∀ l, (aget l is.stop).isSome → ∃ s, l = [.name s] ∧ AttrRep.parse s = none) :
    (parseNames ss reps all is).1 = reps ++ ss.filterMap AttrRep.parse ∧
    (parseNames ss reps all is).2.1 = (all && ss.all (fun s => (AttrRep.parse s).isSome)) ∧
    ∀ l, (parseNames ss reps all is).2.2.codesAt l =
      is.codesAt l ++ ((ss.filter (fun s => (AttrRep.parse s).isNone && decide (l = [.name s]))).map (fun _ => 111)) := by
  induction ss generalizing reps all is with
  | nil => simp [parseNames]
  | cons s ss ih =>
    rw [parseNames]
    cases hp : AttrRep.parse s with
    | some r =>
      have hcan : is.canProceed [r.loc] = true := by
        simp only [Issues.canProceed, List.all_cons, List.all_nil, Bool.and_true]
        rw [← Bool.not_eq_false]
        intro hf
        rw [Issues.canProceedAt_false_iff] at hf
        obtain ⟨l', hpre, hl'⟩ := hf
        obtain ⟨x, rfl, hx⟩ := hstop _ hl'
        have : x = r.attr := by
          unfold AttrRep.loc at hpre
          split at hpre
          · obtain ⟨t, ht⟩ := hpre; simp at ht; exact ht.1
          · obtain ⟨t, ht⟩ := hpre; simp at ht; exact ht.1
        subst this
        obtain ⟨r', hr'⟩ := parse_attr_of_parse hp
        rw [hx] at hr'; cases hr'
      simp only [hcan, if_true]
      obtain ⟨h1, h2, h3⟩ := ih (reps ++ [r]) all is hstop
      refine ⟨?_, ?_, ?_⟩
      · rw [h1]; simp [hp]
      · rw [h2]; simp [hp]
      · intro l; rw [h3]; simp [hp]
    | none =>
      simp only
      obtain ⟨h1, h2, h3⟩ := ih reps false (is.add ⟨111, s⟩ false [.name s]) (by
        intro l hl
        rw [Issues.stop_add_isSome] at hl
        rcases hl with hl | ⟨_, rfl⟩
        · exact hstop l hl
        · exact ⟨s, rfl, hp⟩)
      refine ⟨?_, ?_, ?_⟩
      · rw [h1]; simp [hp]
      · rw [h2]; simp [hp]
      · intro l
        rw [h3]
        simp only [Issues.codesAt, Issues.errorsAt_add, List.map_append, List.append_assoc]
        congr 1
        by_cases hl : l = [.name s]
        · subst hl; simp [hp]
        · simp [hp, hl, Ne.symm hl]

/-- **C41** the result is a checker exactly when every name is an attribute name; it then holds the parsed names
in order, and there are no issues. -/
theorem C41_checker_iff (names : List Str) (incl : Option Bool) :
    (∃ c, (Checker.parse names incl).1 = some c) ↔ ∀ s ∈ names, ∃ r, AttrRep.parse s = some r := by
  obtain ⟨-, h2, -⟩ := parseNames_spec names [] true {} (by simp)
  unfold Checker.parse
  rcases hpn : parseNames names [] true {} with ⟨reps, all, issues⟩
  rw [hpn] at h2
  simp only [Bool.true_and] at h2
  subst h2
  by_cases ha : (names.all fun s => (AttrRep.parse s).isSome) = true
  · simp only [ha, if_true]
    simp only [List.all_eq_true, Option.isSome_iff_exists] at ha
    simpa using ha
  · simp only [ha]
    simp only [List.all_eq_true, Option.isSome_iff_exists] at ha
    simpa using ha

/-- **C41** the checker holds the listed names and the flag. -/
theorem C41_checker (names : List Str) (incl : Option Bool) (c : Checker) (h : (Checker.parse names incl).1 = some c) :
    names.map AttrRep.parse = c.reps.map some ∧ c.incl = incl ∧ c.ignore = [] := by
  have hall := (C41_checker_iff names incl).mp ⟨c, h⟩
  obtain ⟨h1, -, -⟩ := parseNames_spec names [] true {} (by simp)
  unfold Checker.parse at h
  rcases hpn : parseNames names [] true {} with ⟨reps, all, issues⟩
  rw [hpn] at h h1
  simp only at h h1
  split at h
  · cases h
    refine ⟨?_, rfl, rfl⟩
    rw [h1, List.nil_append]
    clear h1 hpn
    induction names with
    | nil => rfl
    | cons s ss ih =>
      obtain ⟨r, hr⟩ := hall s (by simp)
      simp only [List.map_cons, hr, List.filterMap_cons_some hr]
      rw [ih (fun s hs => hall s (by simp [hs]))]
  · simp at h

/-- **C41** one issue 111 for each occurrence of a bad name, at that name, and no other issue. -/
theorem C41_issues (names : List Str) (incl : Option Bool) (l : Loc) :
    (Checker.parse names incl).2.codesAt l =
      (names.filter (fun s => (AttrRep.parse s).isNone && decide (l = [.name s]))).map (fun _ => 111) := by
  obtain ⟨-, -, h3⟩ := parseNames_spec names [] true {} (by simp)
  unfold Checker.parse
  rcases hpn : parseNames names [] true {} with ⟨reps, all, issues⟩
  rw [hpn] at h3
  simpa [Issues.codesAt] using h3 l

/-- **C41** so a bad name is always reported. -/
theorem C41_bad_reported (names : List Str) (incl : Option Bool) (s : Str) (hs : s ∈ names)
    (hb : AttrRep.parse s = none) :
    111 ∈ (Checker.parse names incl).2.codesAt [.name s] ∧ (Checker.parse names incl).1 = none := by
  constructor
  · rw [C41_issues, List.mem_map]
    exact ⟨s, by simp [hs, hb], rfl⟩
  · cases h : (Checker.parse names incl).1 with
    | none => rfl
    | some c =>
      obtain ⟨r, hr⟩ := (C41_checker_iff names incl).mp ⟨c, h⟩ s hs
      rw [hb] at hr; cases hr

end Scim

namespace Scim.Examples.Presence
local instance presenceEnv : PyEnv := asciiEnv

/-- a group with a display name, members without value and an unknown attribute -/
def exGroup : Val := Val.toCont (.dict
  [("displayName".toList, .str []),
   ("members".toList, .list [.dict [("display".toList, .str "x".toList)], .dict [("value".toList, .str "y".toList)]])])

def codesOf (r : PyM Issues) (l : Loc) : Option (List Nat) := r.toOption.map (·.codesAt l)

/-- **C36** the empty display name is reported -/
example : codesOf (Checker.call {} exGroup GroupA.schema.attrs .request) [.name "displayName".toList] = some [15] := by
  decide +kernel
/-- **C36** `id` too, unless ignored -/
example : codesOf (Checker.call {} exGroup GroupA.schema.attrs .request) [.name "id".toList] = some [15] := by
  decide +kernel
example : codesOf (Checker.call { ignore := [{ attr := "ID".toList }] } exGroup GroupA.schema.attrs .request)
    [.name "id".toList] = some [] := by
  decide +kernel
/-- **C42** items of multi-valued attributes -/
example : codesOf (Checker.call { reps := [{ attr := "id".toList }], incl := some true } exGroup GroupA.schema.attrs .response)
    [.name "members".toList, .idx 1, .name "value".toList] = some [19] := by
  decide +kernel
/-- **C38** requesting the parent is enough -/
example : codesOf (Checker.call { reps := [{ attr := "Members".toList }], incl := some true } exGroup GroupA.schema.attrs .response)
    [.name "members".toList, .idx 1, .name "value".toList] = some [] := by
  decide +kernel
/-- **C39** -/
example : codesOf (Checker.call { reps := [{ attr := "members".toList, sub := "value".toList }], incl := some false } exGroup
    GroupA.schema.attrs .response) [.name "members".toList, .idx 1, .name "value".toList] = some [19] := by
  decide +kernel
/-- **C37** passwords -/
example : codesOf (Checker.call { reps := [{ attr := "password".toList }], incl := some true }
    (Val.toCont (.dict [("password".toList, .str "secret".toList)])) UserA.core.attrs .response)
    [.name "password".toList] = some [19] := by
  decide +kernel
/-- **C41** -/
example : (Checker.parse ["a".toList, "b c".toList, "d.e".toList, "b c".toList]).2.codesAt [.name "b c".toList] = [111, 111] := by
  decide +kernel
example : (Checker.parse ["a".toList, "d.e".toList] (some true)).1 =
    some { reps := [{ attr := "a".toList }, { attr := "d".toList, sub := "e".toList }], incl := some true } := by
  decide +kernel

end Scim.Examples.Presence
