import Verif.Lemmas.Search

/-! # Search requests (C95, C70) -/

namespace Scim
variable [PyEnv]
open Issues V

/-- **C95** what an accepted search request is handed on as. -/
theorem C95_accepted (body v : Val) (is : Issues) (h : SearchA.parse body = .ok (v, is)) (hn : is.hasIssues = false) :
    SearchRead body.toCont v ∧ v.Reach ∧ (body.isCont || body.isDict) = true := SearchA.accepted h hn

/-- **C95** names to be included and names to be left out cannot be given together; this is reported for both lists, and
for nothing else when the request is fine otherwise. -/
theorem C95_together (body v v0 : Val) (is : Issues) (h : SearchA.parse body = .ok (v, is))
    (h0 : SearchA.schema.parse body = .ok (v0, {})) (xi xe : Val)
    (hi : body.toCont.Says "attributes" xi) (hi' : xi.truthy = true)
    (he : body.toCont.Says "excludeAttributes" xe) (he' : xe.truthy = true) (l : Loc) :
    is.codesAt l =
      if l = [.name "attributes".toList] ∨ l = [.name "excludeAttributes".toList] then [30] else [] := by
  obtain ⟨hobj, hr⟩ := process_noIssues h0 rfl
  obtain ⟨xi', yi, incl, bi, vi, si⟩ := SearchA.said_names hobj h0 rfl (d := SearchA.attributesA)
    (n := SearchA.attributesWord) (by simp) rfl rfl rfl rfl rfl rfl
  obtain ⟨xe', ye, excl, be, ve, se⟩ := SearchA.said_names hobj h0 rfl (d := SearchA.excludeA)
    (n := SearchA.excludeWord) (by simp) rfl rfl rfl rfl rfl rfl
  have e1 : xi' = xi := Except.ok.inj (bi.symm.trans hi)
  have e2 : xe' = xe := Except.ok.inj (be.symm.trans he)
  subst e1 e2
  have key : ∀ {x y : Val} {reps : List AttrRep}, NamesSaid x y reps → x.truthy = true → reps.isEmpty = false := by
    rintro x y reps (⟨h1, -, -⟩ | ⟨names, rfl, h2, -⟩) ht
    · rcases h1 with rfl | rfl <;> cases ht
    · cases reps with
      | cons r rs => rfl
      | nil =>
        cases names with
        | nil => cases ht
        | cons n ns => cases h2
  unfold SearchA.parse at h
  rw [h0] at h
  simp only [canProceed_empty, Bool.not_true, Bool.false_eq_true, if_false, if_true] at h
  split at h
  · cases h
  rename_i v1 is1 hc
  obtain ⟨-, -, -, -, -, his⟩ := SearchA.checker_put hr
    (SearchA.noKey_word hobj h0 (by decide +kernel) (by decide +kernel))
    (SearchA.noKey_word hobj h0 (by decide +kernel) (by decide +kernel))
    (SearchA.noKey_word hobj h0 (by decide +kernel) (by decide +kernel)) vi si ve se hc
  rw [key si hi', key se he', Bool.or_self] at his
  simp only [Bool.false_eq_true, if_false] at his
  have : is = is1 := by
    split at h
    · split at h
      · cases h
      · exact (Prod.mk.inj (Except.ok.inj h)).2.symm
    · exact (Prod.mk.inj (Except.ok.inj h)).2.symm
  rw [this, his, codesAt, errorsAt_add, errorsAt_add, errorsAt_empty, List.nil_append]
  by_cases hl1 : l = [.name "attributes".toList]
  · subst hl1; rfl
  by_cases hl2 : l = [.name "excludeAttributes".toList]
  · subst hl2; rfl
  rw [if_neg (fun e => hl1 e.symm), if_neg (fun e => hl2 e.symm), if_neg (fun e => e.elim hl1 hl2)]
  rfl

/-- **C95** whatever the request says about the order, the sorter is descending. -/
theorem C95_descending (body v : Val) (is : Issues) (h : SearchA.parse body = .ok (v, is)) (hn : is.hasIssues = false)
    (s : SorterCfg) (hs : v.Holds "sorter" (.obj (.sorter s))) : s.asc = false := by
  obtain ⟨x, y, z, -, -, hz, hc⟩ := (C95_accepted body v is h hn).1.sorter
  have : z = .obj (.sorter s) := Except.ok.inj (hz.symm.trans hs)
  subst this
  rcases hc with ⟨-, -, h⟩ | ⟨_, _, -, -, -, h⟩
  · cases h
  · cases h; rfl

/-- **C95** a list of names to be left out is without effect on what is handed on next to it. -/
theorem C95_exclude_ignored (body v : Val) (is : Issues) (h : SearchA.parse body = .ok (v, is)) (hn : is.hasIssues = false)
    (x : Val) (hx : body.toCont.Says "attributes" x) (hx' : x.NotSaid) : v.Holds "presence_checker" .missing := by
  obtain ⟨xi, yi, xe, ye, z, incl, excl, bi, -, si, -, -, -, -, hz, hz'⟩ := (C95_accepted body v is h hn).1.names
  have : xi = x := Except.ok.inj (bi.symm.trans hx)
  subst this
  rcases si with ⟨-, -, rfl⟩ | ⟨names, rfl, -, -⟩
  · rw [hz'] at hz; exact hz
  · rcases hx' with hx' | hx' <;> cases hx'

/-- **C70** a search request is handed on with a body exactly when nothing is reported; the body is the parsed one, and
the headers and the query string are not looked at. -/
theorem C70_search (body headers query : Val) (req : Request) (is : Issues)
    (h : parseSearch body headers query = .ok (req, is)) :
    (req.body ≠ .null ↔ is.hasIssues = false) ∧ req.headers = headers ∧ req.query = query ∧
      (is.hasIssues = false → SearchRead body.toCont req.body) := by
  unfold parseSearch at h
  split at h
  · cases h
  rename_i v i hp
  have e1 := (Prod.mk.inj (Except.ok.inj h)).1
  have e2 := (Prod.mk.inj (Except.ok.inj h)).2
  subst e1 e2
  have hi : (Issues.empty.merge i bodyLoc).hasIssues = i.hasIssues := by
    cases hb : i.hasIssues with
    | false => exact (hasIssues_merge_false _ _ _).mpr ⟨rfl, hb⟩
    | true =>
      cases hc : (Issues.empty.merge i bodyLoc).hasIssues with
      | true => rfl
      | false => rw [((hasIssues_merge_false _ _ _).mp hc).2] at hb; cases hb
  rw [hi]
  refine ⟨?_, rfl, rfl, ?_⟩
  · cases hb : i.hasIssues with
    | true => simp
    | false =>
      obtain ⟨-, hr, -⟩ := SearchA.accepted hp hb
      have := hr.isCont
      simp only [Bool.false_eq_true, if_false, iff_true]
      intro e; rw [e] at this; cases this
  · intro hb
    rw [hb]
    exact (SearchA.accepted hp hb).1

end Scim

/-! ### Examples -/

namespace Scim.Examples.Search
local instance searchEnv : PyEnv := asciiEnv

def searchBody (more : List (Str × Val)) : Val :=
  .dict (("schemas".toList, .list [.str "urn:ietf:params:scim:api:messages:2.0:SearchRequest".toList]) :: more)

/-- Three parameters, the order among them. -/
def ordered : Val := searchBody [("filter".toList, .str "userName eq \"bj\"".toList),
  ("sortBy".toList, .str "userName".toList), ("sortOrder".toList, .str "ascending".toList)]

/-- Both lists of names. -/
def both : Val := searchBody [("attributes".toList, .list [.str "userName".toList]),
  ("excludeAttributes".toList, .list [.str "emails".toList])]

def clean (r : PyM (Val × Issues)) : Bool :=
  match r with
  | .ok (_, is) => !is.hasIssues
  | .error _ => false

def sorterOf (r : PyM (Val × Issues)) : Option Bool :=
  match r with
  | .ok (v, _) => match v.getItem { attr := "sorter".toList } with
    | .ok (.obj (.sorter s)) => some s.asc
    | _ => none
  | .error _ => none

def codes (r : PyM (Val × Issues)) (l : Loc) : Option (List Nat) :=
  match r with
  | .ok (_, is) => some (is.codesAt l)
  | .error _ => none

/-- **C95** the hypotheses are met, and the sorter of a request for ascending order is descending. -/
example : clean (SearchA.parse ordered) = true ∧ sorterOf (SearchA.parse ordered) = some false := by decide +kernel

/-- **C95** -/
example : clean (SearchA.schema.parse both) = true ∧
    codes (SearchA.parse both) [.name "attributes".toList] = some [30] ∧
    codes (SearchA.parse both) [.name "excludeAttributes".toList] = some [30] := by decide +kernel

/-- **C95** an unknown order is accepted. -/
example : clean (SearchA.parse (searchBody [("sortOrder".toList, .str "sideways".toList)])) = true := by decide +kernel

end Scim.Examples.Search
