import Verif.Lemmas.SearchDoc
import Verif.Props.QueryState
import Verif.Props.Valid

/-! # Query strings for lists: what is read without issues -/

namespace Scim.V
open Issues Valid
variable [PyEnv]

theorem filtering_clean {q : Dict} : (∃ f is, parseFiltering q = .ok (f, is) ∧ is.hasIssues = false) ↔
    ∀ x, aget filterWord q = some x → x = .null ∨ ∃ t, x = .str t ∧ IsFilter t := by
  unfold parseFiltering
  cases aget filterWord q with
  | none => exact ⟨fun _ x e => (by cases e), fun _ => ⟨_, _, rfl, rfl⟩⟩
  | some x =>
    simp only [Option.getD_some, Option.some.injEq, forall_eq']
    split
    · rename_i t
      constructor
      · rintro ⟨f, is, h, hn⟩
        refine .inr ⟨t, rfl, ?_⟩
        split at h
        · cases h
        · rename_i o j hp
          cases h
          rcases parse_out t hp with ⟨-, h2⟩ | ⟨h1, -⟩
          · simp only at h2; subst h2; exact ⟨o, hp⟩
          · cases h1
        · rename_i j hp
          cases h
          have := (C52_invalid_iff_issues t _ hp).mp rfl
          rw [hn] at this; cases this
      · rintro (e | ⟨t', e, o, ho⟩)
        · cases e
        · cases e
          exact ⟨_, _, by rw [ho], rfl⟩
    · exact ⟨fun _ => .inl rfl, fun _ => ⟨_, _, rfl, rfl⟩⟩
    · rename_i h1 h2
      constructor
      · rintro ⟨f, is, h, hn⟩
        cases h
        rw [hasIssues_add] at hn; cases hn
      · rintro (rfl | ⟨t, rfl, -⟩)
        · exact absurd rfl h2
        · exact absurd rfl (h1 t)

theorem sorting_clean {q : Dict} : (parseSorting q).2.hasIssues = false ↔
    ∀ x, aget sortByWord q = some x → x = .null ∨ ∃ t, x = .str t ∧ IsName t := by
  unfold parseSorting
  cases aget sortByWord q with
  | none => exact ⟨fun _ x e => (by cases e), fun _ => rfl⟩
  | some x =>
    simp only [Option.getD_some, Option.some.injEq, forall_eq']
    split
    · rename_i t
      generalize Val.isText _ _ = asc
      unfold SorterCfg.parse
      cases h : AttrRep.parse t with
      | none =>
        refine ⟨fun hn => (by rw [hasIssues_add] at hn; cases hn), ?_⟩
        rintro (e | ⟨t', e, hn⟩)
        · cases e
        · cases e
          obtain ⟨r, hr⟩ := SearchA.isName_iff.mp hn
          rw [h] at hr; cases hr
      | some r => exact ⟨fun _ => .inr ⟨t, rfl, SearchA.isName_iff.mpr ⟨r, h⟩⟩, fun _ => rfl⟩
    · exact ⟨fun _ => .inl rfl, fun _ => rfl⟩
    · rename_i h1 h2
      refine ⟨fun hn => (by rw [hasIssues_add] at hn; cases hn), ?_⟩
      rintro (rfl | ⟨t, rfl, -⟩)
      · exact absurd rfl h2
      · exact absurd rfl (h1 t)

theorem numRead_clean {o : Option Val} : (numRead o).2 = .ok false ↔ ∀ x, o = some x → x = .null ∨ ∃ i, x.pyInt = .ok i := by
  cases o with
  | none => exact ⟨fun _ x e => (by cases e), fun _ => rfl⟩
  | some x =>
    unfold numRead
    simp only [Option.getD_some]
    split
    · exact ⟨fun _ x e => (by cases e; exact .inl rfl), fun _ => rfl⟩
    · rename_i h1
      constructor
      · intro h x' e
        cases e
        right
        split at h
        · rename_i i hi; exact ⟨i, hi⟩
        · split at h <;> cases h
      · intro h
        rcases h x rfl with rfl | ⟨i, hi⟩
        · exact absurd rfl h1
        · rw [hi]

theorem names_clean {q : Dict} (hq : QueryShape (.dict q)) :
    (∃ c is, reqOf (look q attributesWord) (look q excludeWord) = .ok (c, is) ∧ is.hasIssues = false) ↔ QueryFine (.dict q) := by
  obtain ⟨⟨r, is⟩, h⟩ := parseQuery_total (queryOk_of hq)
  rw [← C112_query hq h]
  unfold parseQuery at h
  simp only [reqOf_eq] at h
  split at h
  · cases h
  rename_i c i hc
  cases h
  rw [hasIssues_merge_false]
  refine ⟨?_, fun h => ⟨c, i, hc, h.2⟩⟩
  rintro ⟨c', i', h', hn⟩
  rw [hc] at h'
  cases h'
  exact ⟨rfl, hn⟩

omit [PyEnv] in
theorem numIssues_false {name : Str} {is : Issues} {b : Bool} :
    (numIssues name is b).hasIssues = false ↔ b = false ∧ is.hasIssues = false := by
  unfold numIssues
  cases b with
  | false => simp
  | true => simp [hasIssues_add]

theorem gList_clean {g : Look} : (∃ is, (gList g).2 = .ok is ∧ is.hasIssues = false) ↔
    (∃ f is, filtOf (g filterWord) = .ok (f, is) ∧ is.hasIssues = false) ∧
    (sortOf (g sortByWord) (g sortOrderWord)).2.hasIssues = false ∧
    (∃ c is, reqOf (g attributesWord) (g excludeWord) = .ok (c, is) ∧ is.hasIssues = false) ∧
    (numRead (g countWord)).2 = .ok false ∧ (numRead (g startWord)).2 = .ok false := by
  unfold gList
  cases filtOf (g filterWord) with
  | error e => exact ⟨fun ⟨_, h, _⟩ => (by cases h), fun ⟨⟨_, _, h, _⟩, _⟩ => by cases h⟩
  | ok p =>
    obtain ⟨f, i1⟩ := p
    dsimp only
    cases reqOf (g attributesWord) (g excludeWord) with
    | error e => exact ⟨fun ⟨_, h, _⟩ => (by cases h), fun ⟨_, _, ⟨_, _, h, _⟩, _⟩ => by cases h⟩
    | ok p3 =>
      obtain ⟨c, i3⟩ := p3
      dsimp only
      cases (numRead (g countWord)).2 with
      | error e => exact ⟨fun ⟨_, h, _⟩ => (by cases h), fun ⟨_, _, _, h, _⟩ => by cases h⟩
      | ok b =>
        dsimp only
        cases (numRead (g startWord)).2 with
        | error e => exact ⟨fun ⟨_, h, _⟩ => (by cases h), fun ⟨_, _, _, _, h⟩ => by cases h⟩
        | ok b' =>
          dsimp only
          constructor
          · rintro ⟨is, h, hn⟩
            cases h
            simp only [numIssues_false, hasIssues_merge_false] at hn
            obtain ⟨rfl, rfl, ⟨⟨-, h1⟩, h2⟩, h3⟩ := hn
            exact ⟨⟨_, _, rfl, h1⟩, h2, ⟨_, _, rfl, h3⟩, rfl, rfl⟩
          · rintro ⟨⟨_, _, h1, n1⟩, h2, ⟨_, _, h3, n3⟩, h4, h5⟩
            cases h1; cases h3; cases h4; cases h5
            refine ⟨_, rfl, ?_⟩
            simp only [numIssues_false, hasIssues_merge_false]
            exact ⟨trivial, trivial, ⟨⟨rfl, n1⟩, h2⟩, n3⟩

theorem touchList_clean {q : Dict} (hq : QueryShape (.dict q)) :
    (∃ is, (touchList q).2 = .ok is ∧ is.hasIssues = false) ↔ ListQuery q := by
  rw [(touchList_look q).2, gList_clean, ← filtOf_eq, ← sortOf_eq, filtering_clean, sorting_clean, names_clean hq, numRead_clean, numRead_clean]
  constructor
  · rintro ⟨h1, h2, h3, h4, h5⟩
    refine ⟨h1, h2, h3, ?_⟩
    intro n hn
    simp only [List.mem_cons, List.not_mem_nil, or_false] at hn
    rcases hn with rfl | rfl
    · exact h4
    · exact h5
  · intro h
    exact ⟨h.filter, h.sortBy, h.names, h.numbers "count" (by simp), h.numbers "startIndex" (by simp)⟩

end Scim.V
