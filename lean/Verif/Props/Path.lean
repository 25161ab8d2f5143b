import Verif.Lemmas.Path
import Verif.Spec.Schemas
import Verif.Lemmas.Presence

/-!
# Patch paths (C61-C63, C81)
-/

namespace Scim
variable [PyEnv]
open Issues

/-! ## C61: plain paths -/

omit [PyEnv] in
theorem scanStrings_plain {s : Str} (h1 : '\'' ∉ s) (h2 : '"' ∉ s) (pos : Nat) : scanStrings s pos 0 = [] := by
  induction s generalizing pos with
  | nil => rfl
  | cons c s ih =>
    simp only [List.mem_cons, not_or] at h1 h2
    rw [scanStrings, if_neg (by rintro ⟨h | h, -⟩ <;> simp_all)]
    exact ih h1.2 h2.2 _

theorem encodeStrings_nil (s : Str) : encodeStrings [] s = s := by
  unfold encodeStrings
  generalize findPlaceholders s 0 = l
  induction l with
  | nil => rfl
  | cons a l ih => exact ih

/-- **C61** without brackets and quotes a path is an attribute name: it parses exactly when the name does. -/
theorem C61_plain (s : Str) (hb : NoBracket s) (h1 : '\'' ∉ s) (h2 : '"' ∉ s) :
    (∀ r, AttrRep.parse s = some r →
      PatchPath.parse s = .ok (some { rep := r, filter := none, subRep := none }, {})) ∧
    (AttrRep.parse s = none → ∃ is, PatchPath.parse s = .ok (none, is) ∧ is.codesAt [] = [111] ∧
      is.canProceed = false ∧ ∀ l, l ≠ [] → is.errorsAt l = []) := by
  have hs := scanStrings_plain h1 h2 0
  have hl : hideLoop [] s = s := rfl
  have hbad : badBrackets s = false := (badBrackets_iff s).mpr (.inl hb)
  constructor
  · intro r hr
    unfold PatchPath.parse
    simp only [hs, hl, hbad, encodeStrings_nil]
    rw [if_neg (by simp), if_neg (fun h => hb.1 h.1), hr]
    simp [PatchPath.make, PatchPath.subOk, PatchPath.filterOk]
  · intro hr
    unfold PatchPath.parse
    simp only [hs, hl, hbad, encodeStrings_nil]
    rw [if_neg (by simp), if_neg (fun h => hb.1 h.1), hr]
    refine ⟨_, rfl, rfl, (St.empty (K := fun _ => True)).addE trivial |>.not_proceed, ?_⟩
    intro l hl
    have := (St.empty (K := fun _ => True)).addE (e := { code := 111, ctx := s }) trivial
    cases he : Issues.errorsAt (Issues.empty.add { code := 111, ctx := s } false) l with
    | nil => rfl
    | cons e es => exact absurd (this.only l e (by
        show e ∈ Issues.errorsAt (Issues.empty.add { code := 111, ctx := s } false) l
        rw [he]; simp)).1 hl

/-! ## C62: consistency -/

theorem parse_pathRes (s : Str) : PathRes (fun _ => True) (PatchPath.parse s) :=
  parsePath_res
    { c104 := trivial, c105 := trivial, c106 := trivial, c111 := trivial, c112 := trivial, c113 := trivial
      c100 := trivial, c102 := trivial, c107 := trivial, c109 := trivial, c110 := trivial, c33 := trivial }
    s (fun _ => trivial)

/-- **C62** a path that `parse` returns satisfies the invariants, and comes with no issues. -/
theorem C62_consistent (s : Str) (p : PatchPath) (is : Issues) (h : PatchPath.parse s = .ok (some p, is)) :
    p.Ok ∧ is = {} := by
  have := parse_pathRes s
  rw [h] at this
  rcases this with ⟨q, hq, hok⟩ | ⟨h1, -⟩
  · injection hq with h1 h2
    injection h1 with h1
    subst h1 h2
    exact ⟨hok, rfl⟩
  · cases h1

/-- **C62** no path is returned exactly when there are blocking issues. -/
theorem C62_invalid_iff_issues (s : Str) (r : Option PatchPath × Issues) (h : PatchPath.parse s = .ok r) :
    (r.1 = none ↔ r.2.hasIssues = true) ∧ (r.1 = none ↔ r.2.canProceed = false) := by
  have := parse_pathRes s
  rw [h] at this
  rcases this with ⟨q, rfl, -⟩ | ⟨h1, h2⟩
  · simp [has_empty, proceed_empty]
  · simp [h1, h2.has, h2.not_proceed]

/-- **C62** the exceptions that can escape. -/
theorem C62_exceptions (s : Str) (e : PyErr) (h : PatchPath.parse s = .error e) :
    e = .attributeError ∨ e = .valueError ∨ e = .overflowError := by
  have := parse_pathRes s
  rw [h] at this
  exact this

/-! ## C63: brackets -/

/-- **C63** a path whose brackets outside the quotes are malformed is rejected with issue 300. -/
theorem C63_malformed (s : Str) (h : ¬ (NoBracket (unquoted s) ∨ OnePair (unquoted s))) :
    ∃ is, PatchPath.parse s = .ok (none, is) ∧ is.codesAt [] = [300] ∧ is.canProceed = false := by
  rw [← badBrackets_unquoted] at h
  unfold PatchPath.parse
  dsimp only
  rw [if_pos (by simpa using h)]
  exact ⟨_, rfl, rfl, by decide⟩

/-- **C63** issue 300 is reported for nothing else. -/
theorem C63_only (s : Str) (r : Option PatchPath × Issues) (h : PatchPath.parse s = .ok r) (h300 : 300 ∈ r.2.codesAt []) :
    ¬ (NoBracket (unquoted s) ∨ OnePair (unquoted s)) := by
  rw [← badBrackets_unquoted]
  intro hb
  have := parsePath_res (K := fun c => c ≠ 300)
    { c104 := by decide, c105 := by decide, c106 := by decide, c111 := by decide, c112 := by decide, c113 := by decide
      c100 := by decide, c102 := by decide, c107 := by decide, c109 := by decide, c110 := by decide, c33 := by decide } s (by rw [hb]; simp)
  rw [h] at this
  simp only [Issues.codesAt, List.mem_map] at h300
  obtain ⟨e, he, h300⟩ := h300
  rcases this with ⟨q, rfl, -⟩ | ⟨-, h2⟩
  · simp at he
  · exact (h2.only _ e he).2 h300

/-! ## C81: paths with a filter -/

theorem sameAs_self (r : AttrRep) : r.SameAs r := by simp [AttrRep.SameAs]

/-- **C81** a complex-attribute filter is a path to that attribute. -/
theorem C81_filter_path (t : Str) (r : AttrRep) (o : Op) (h : CplxText Value t (.cplx r o)) (h1 : '|' ∉ t)
    (h2 : '&' ∉ unquoted t) :
    PatchPath.parse t = .ok (some { rep := r, filter := some (.cplx r o), subRep := none }, {}) := by
  have := parse_filterPath (tail := []) h h1 h2 (by simp) (by simp)
  rw [List.append_nil] at this
  rw [this]
  have hr : r.sub = [] := by cases h; assumption
  simp [pathTail, has_empty, PatchPath.make, hr, PatchPath.subOk, PatchPath.filterOk, (eqv_sameAs r r).mpr (sameAs_self r)]

/-- **C81** followed by a dot and a name it is a path to that sub-attribute of the selected values. -/
theorem C81_filter_path_sub (t s : Str) (r : AttrRep) (o : Op) (h : CplxText Value t (.cplx r o)) (h1 : '|' ∉ t)
    (h2 : '&' ∉ unquoted t) (hs : WordRun s) :
    PatchPath.parse (t ++ '.' :: s) = .ok (some ⟨r, some (.cplx r o), some { schema := r.schema, attr := r.attr, sub := s }⟩, {}) := by
  have hp : AttrRep.parse s = some { attr := s } := by
    rw [parse_eq_some_iff]
    exact ⟨⟨.inl hs, .inl rfl, .inl rfl, rfl⟩, rfl⟩
  have := parse_filterPath (tail := '.' :: s) h h1 h2 (by
    intro c hc
    rcases List.mem_cons.mp hc with rfl | hc
    · decide
    · exact quiet_name hp c hc) (by
    intro hm
    rcases List.mem_cons.mp hm with hm | hm
    · exact absurd hm (by decide)
    · exact hs.not_mem (not_word_of_ascii _ (by decide) (by decide)) hm)
  rw [this]
  obtain ⟨hr, hP⟩ : r.sub = [] ∧ r.Proper := by
    cases h with
    | mk name w t w' r n o hp hr => exact ⟨hr, ((parse_eq_some_iff _ _).1 hp).1⟩
  have ha : AttrRep.make r.schema r.attr s = .ok { schema := r.schema, attr := r.attr, sub := s } := by
    unfold AttrRep.make
    rw [if_neg (by simpa using (isAttrName_iff _).mpr hP.attr), if_neg (by simp)]
  have he : pathTail [] {} r ('.' :: s) = .ok (some { schema := r.schema, attr := r.attr, sub := s }, {}) := by
    unfold pathTail
    rw [if_neg (by simp), if_pos (by simp [startsWith])]
    unfold pathSub
    rw [encodeStrings_nil]
    simp only [List.drop_succ_cons, List.drop_zero, hp]
    rw [if_neg (by simp), ha]
  have ht : AttrRep.topLevelEquals { schema := r.schema, attr := r.attr, sub := s } r = true := by
    simp [AttrRep.topLevelEquals, AttrRep.attrWithSchema]
  rw [he]
  simp [has_empty, PatchPath.make, hr, PatchPath.subOk, PatchPath.filterOk, (eqv_sameAs r r).mpr (sameAs_self r), ht, hs.1]

end Scim

/-! ## Examples -/

namespace Scim.Examples.Path
local instance pathEnv : PyEnv := asciiEnv

/-- **C61** -/
example : NoBracket "urn:ietf:x:User:name.givenName".toList ∧ AttrRep.parse "urn:ietf:x:User:name.givenName".toList =
    some { schema := "urn:ietf:x:User".toList, attr := "name".toList, sub := "givenName".toList } := by
  constructor
  · exact ⟨by decide, by decide⟩
  · decide +kernel
example : NoBracket "name given".toList ∧ AttrRep.parse "name given".toList = none :=
  ⟨⟨by decide, by decide⟩, by decide +kernel⟩

/-- The attribute names of a parsed path, and the names in its filter. -/
def shown (s : String) : Option (Option (String × Bool × Option String) × List Nat) :=
  (PatchPath.parse s.toList).toOption.map fun r =>
    (r.1.map fun p => (String.ofList p.rep.toStr, p.filter.isSome, p.subRep.map (fun x => String.ofList x.toStr)),
      r.2.codesAt [])

/-- **C62** -/
example : shown "emails[type eq \"a]b\" or (value pr)].value" = some (some ("emails", true, some "emails.value"), []) := by
  decide +kernel
/-- **C62** the sub-attribute may be given in full. -/
example : shown "emails[type pr].emails.value" = some (some ("emails", true, some "emails.value"), []) := by decide +kernel
example : shown "emails[type pr].phones.value" = some (none, [33]) := by decide +kernel
/-- **C62** the dot can be missing. -/
example : shown "emails[type pr]value" = some (some ("emails", true, some "emails.value"), []) := by decide +kernel
/-- **C62** a logical operator in front of the brackets raises. -/
theorem C62_raises : PatchPath.parse "not emails[type pr]".toList = .error .attributeError := by decide +kernel
/-- **C63** -/
example : ¬ (NoBracket (unquoted "a]b['[']".toList) ∨ OnePair (unquoted "a]b['[']".toList)) := by
  rw [noBracket_filter, onePair_filter]
  decide +kernel
example : OnePair (unquoted "a[b eq '][']".toList) := by
  rw [onePair_filter]; decide +kernel

/-- The filter of the example. -/
def exText : Str := "emails[type eq \"a&]b\"]".toList

/-- **C81** -/
theorem exText_cplx : CplxText Value exText
    (.cplx { attr := "emails".toList } (.cmp .eq { attr := "type".toList } (.str "a&]b".toList))) := by
  have nk : NoKeyword "type".toList := by
    have h : ∀ {kw s : Str} (c : Char), c ∈ kw → c ∉ s → NoWord kw s := by
      intro kw s c h1 h2 a b h
      exact absurd (by rw [h]; simp [h1]) h2
    exact ⟨h 'o' (by decide) (by decide), h 'd' (by decide) (by decide), h 'o' (by decide) (by decide)⟩
  have hsp : Ws [' '] := by
    intro c hc
    rcases List.mem_singleton.mp hc with rfl
    decide +kernel
  have ha := Atom.cmp (V := Value) "type".toList [' '] "eq".toList [' '] "\"a&]b\"".toList { attr := "type".toList } .eq
    (.str "a&]b".toList) (by decide +kernel) nk hsp (by simp) (by unfold CaseOf; decide) hsp (by simp)
    (.inl ⟨'"', "a&]b".toList, .inl rfl, by decide, rfl, rfl⟩) trivial
  exact CplxText.mk "emails".toList [] _ [] { attr := "emails".toList } 0 _ (by decide +kernel) rfl (by decide) (by decide)
    Ws.nil Ws.nil ⟨[_], .one _ _ ⟨[_], .one _ _ (.plain _ _ (.inl ha)), rfl⟩, rfl⟩
example : '|' ∉ exText ∧ '&' ∉ unquoted exText ∧ WordRun "value".toList := by
  refine ⟨by decide, by decide, by decide, ?_⟩
  decide +kernel

/-- **C81** a string that spells the placeholder of a later string is not preserved, so that the restriction on bars
cannot be dropped. -/
theorem C81_placeholder :
    (match PatchPath.parse "a[b eq '|&PLACE_HOLDER_38&|' and c eq 'd']".toList with
      | .ok (some { filter := some (.cplx _ (.and [.cmp _ _ (.str x), _])), .. }, _) => some (String.ofList x)
      | _ => none) = some "'d'" := by decide +kernel

end Scim.Examples.Path
