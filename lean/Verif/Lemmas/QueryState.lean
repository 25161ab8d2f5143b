import Verif.Model.QueryState
import Verif.Props.Requests

/-! The state of a query string through lookups (C110). -/

namespace Scim
open Issues
namespace V
variable [PyEnv]

/-- A dictionary by its lookups. -/
abbrev Look := Str → Option Val

/-- The entry of one key replaced. -/
def Look.put (k : Str) (o : Option Val) (g : Look) : Look := fun k' => if k = k' then o else g k'

/-- The lookups of a dictionary. -/
def look (q : Dict) : Look := fun k => aget k q

theorem look_aset (k : Str) (v : Val) (q : Dict) : look (aset k v q) = (look q).put k (some v) := by
  funext k'; exact aget_aset k k' v q

theorem put_same (k : Str) (g : Look) : g.put k (g k) = g := by
  funext k'; unfold Look.put; split
  · rename_i h; rw [h]
  · rfl

/-- `parseFiltering` by the entry. -/
def filtOf (o : Option Val) : PyM (Val × Issues) := parseFiltering (match o with | some v => [(filterWord, v)] | none => [])
/-- `parseSorting` by the entries. -/
def sortOf (b o : Option Val) : Val × Issues :=
  parseSorting ((match b with | some v => [(sortByWord, v)] | none => []) ++ (match o with | some v => [(sortOrderWord, v)] | none => []))
/-- `parseRequested` by the entries. -/
def reqOf (a b : Option Val) : PyM (Val × Issues) :=
  requested (splitNames (a.getD (.list []))) (splitNames (b.getD (.list [])))
/-- `touchNumber` by the entry: the new entry, and whether it is bad. -/
def numRead (o : Option Val) : Option Val × PyM Bool :=
  match o.getD .null with
  | .prim .none => (o, .ok false)
  | v => match v.pyInt with
    | .ok i => (some (.int i), .ok false)
    | .error e => if e.isValueError then (o, .ok true) else (o, .error e)

theorem filtOf_eq (q : Dict) : parseFiltering q = filtOf (look q filterWord) := by
  unfold filtOf look parseFiltering
  cases aget filterWord q with
  | none => rfl
  | some v => rw [show aget filterWord [(filterWord, v)] = some v by simp [aget]]

theorem sortOf_eq (q : Dict) : parseSorting q = sortOf (look q sortByWord) (look q sortOrderWord) := by
  unfold sortOf look parseSorting
  have n1 : sortByWord ≠ sortOrderWord := by decide
  cases aget sortByWord q <;> cases aget sortOrderWord q <;> simp [aget, n1, Ne.symm n1]

theorem reqOf_eq (q : Dict) : parseRequested q = reqOf (look q attributesWord) (look q excludeWord) := rfl

/-- The issues after a number. -/
def numIssues (name : Str) (is : Issues) (bad : Bool) : Issues :=
  if bad then is.add ⟨2, []⟩ false (queryLoc ++ [.name name]) else is

theorem touchNumber_look (name : Str) (q : Dict) (is : Issues) :
    look (touchNumber name q is).1 = (look q).put name (numRead (look q name)).1 ∧
      (touchNumber name q is).2 = (match (numRead (look q name)).2 with
        | .error e => .error e
        | .ok b => .ok (numIssues name is b)) := by
  unfold touchNumber numRead look
  cases h : (aget name q).getD .null with
  | prim p =>
    cases p <;> dsimp only <;> first
      | exact ⟨(put_same name (look q)).symm, rfl⟩
      | (generalize Val.pyInt _ = z
         cases z with
         | ok i => exact ⟨look_aset _ _ _, rfl⟩
         | error e =>
           dsimp only
           by_cases hv : e.isValueError = true
           · simp only [if_pos hv]; exact ⟨(put_same name (look q)).symm, rfl⟩
           · simp only [if_neg hv]; exact ⟨(put_same name (look q)).symm, trivial⟩)
  | _ =>
    dsimp only
    first
      | (generalize Val.pyInt _ = z
         cases z with
         | ok i => exact ⟨look_aset _ _ _, rfl⟩
         | error e =>
           dsimp only
           by_cases hv : e.isValueError = true
           · simp only [if_pos hv]; exact ⟨(put_same name (look q)).symm, rfl⟩
           · simp only [if_neg hv]; exact ⟨(put_same name (look q)).symm, trivial⟩)

theorem numRead_cases (o : Option Val) : (numRead o).1 = o ∨ ∃ i, numRead o = (some (.int i), .ok false) := by
  unfold numRead
  cases h : o.getD .null with
  | prim p =>
    cases p <;> dsimp only <;> first
      | exact .inl rfl
      | (generalize Val.pyInt _ = z
         cases z with
         | ok i => exact .inr ⟨i, rfl⟩
         | error e =>
           dsimp only
           by_cases hv : e.isValueError = true
           · simp only [if_pos hv]; exact .inl trivial
           · simp only [if_neg hv]; exact .inl trivial)
  | _ =>
    dsimp only
    first
      | (generalize Val.pyInt _ = z
         cases z with
         | ok i => exact .inr ⟨i, rfl⟩
         | error e =>
           dsimp only
           by_cases hv : e.isValueError = true
           · simp only [if_pos hv]; exact .inl trivial
           · simp only [if_neg hv]; exact .inl trivial)

theorem numRead_again (o : Option Val) : numRead (numRead o).1 = numRead o := by
  rcases numRead_cases o with h | ⟨i, h⟩
  · rw [h]
  · rw [h]; rfl

/-- The state after the filter, the sorter and the requested names. -/
def midLook (g : Look) (f s c : Val) (bad : Bool) : Look :=
  let g2 := (g.put filterWord (some f)).put sorterWord (some s)
  if bad then g2 else g2.put checkerWord (some c)

/-- `touchList` by lookups. -/
def gList (g : Look) : Look × PyM Issues :=
  match filtOf (g filterWord) with
  | .error e => (g, .error e)
  | .ok (f, i1) =>
    match reqOf (g attributesWord) (g excludeWord) with
    | .error e => (midLook g f (sortOf (g sortByWord) (g sortOrderWord)).1 .null true, .error e)
    | .ok (c, i3) =>
      let g3 := midLook g f (sortOf (g sortByWord) (g sortOrderWord)).1 c i3.hasIssues
      let is := (((Issues.empty.merge i1 (queryLoc ++ [.name filterWord])).merge
        (sortOf (g sortByWord) (g sortOrderWord)).2 (queryLoc ++ [.name "sortby".toList])).merge i3 queryLoc)
      match (numRead (g countWord)).2 with
      | .error e => (g3.put countWord (numRead (g countWord)).1, .error e)
      | .ok b => ((g3.put countWord (numRead (g countWord)).1).put startWord (numRead (g startWord)).1,
        match (numRead (g startWord)).2 with
        | .error e => .error e
        | .ok b' => .ok (numIssues startWord (numIssues countWord is b) b'))

theorem touchList_look (q : Dict) :
    look (touchList q).1 = (gList (look q)).1 ∧ (touchList q).2 = (gList (look q)).2 := by
  unfold touchList gList
  rw [filtOf_eq]
  cases filtOf (look q filterWord) with
  | error e => exact ⟨rfl, rfl⟩
  | ok p =>
    obtain ⟨f, i1⟩ := p
    dsimp only
    have hs : parseSorting (aset filterWord f q) = sortOf (look q sortByWord) (look q sortOrderWord) := by
      rw [sortOf_eq, look_aset]; rfl
    rw [hs]
    generalize sortOf (look q sortByWord) (look q sortOrderWord) = ss
    obtain ⟨s, i2⟩ := ss
    dsimp only
    have hr : parseRequested (aset sorterWord s (aset filterWord f q)) = reqOf (look q attributesWord) (look q excludeWord) := by
      rw [reqOf_eq, look_aset, look_aset]; rfl
    rw [hr]
    cases reqOf (look q attributesWord) (look q excludeWord) with
    | error e => exact ⟨by rw [look_aset, look_aset]; rfl, rfl⟩
    | ok p =>
      obtain ⟨c, i3⟩ := p
      dsimp only
      have hm : look (if i3.hasIssues = true then aset sorterWord s (aset filterWord f q)
          else aset checkerWord c (aset sorterWord s (aset filterWord f q))) = midLook (look q) f s c i3.hasIssues := by
        unfold midLook
        cases i3.hasIssues
        · rw [if_neg (by decide), look_aset, look_aset, look_aset]; rfl
        · rw [if_pos rfl, look_aset, look_aset]; rfl
      generalize (if i3.hasIssues = true then aset sorterWord s (aset filterWord f q)
          else aset checkerWord c (aset sorterWord s (aset filterWord f q))) = q3 at hm ⊢
      generalize hI : ((Issues.empty.merge i1 (queryLoc ++ [.name filterWord])).merge i2 (queryLoc ++ [.name "sortby".toList])).merge i3 queryLoc = is
      have hc : look q3 countWord = look q countWord := by
        rw [hm]; unfold midLook; cases i3.hasIssues <;> rfl
      obtain ⟨k1, k2⟩ := touchNumber_look countWord q3 is
      rw [hc] at k1 k2
      rw [hm] at k1
      generalize touchNumber countWord q3 is = t at k1 k2
      obtain ⟨q4, o⟩ := t
      dsimp only at k1 k2
      cases hn : (numRead (look q countWord)).2 with
      | error e =>
        rw [hn] at k2
        subst k2
        exact ⟨k1, rfl⟩
      | ok b =>
        rw [hn] at k2
        subst k2
        dsimp only
        have hs4 : look q4 startWord = look q startWord := by
          rw [k1]; unfold midLook; cases i3.hasIssues <;> rfl
        obtain ⟨m1, m2⟩ := touchNumber_look startWord q4 (numIssues countWord is b)
        rw [hs4] at m1 m2
        rw [k1] at m1
        exact ⟨m1, m2⟩

/-- The entries the validators write. -/
theorem gList_frame (g : Look) (k : Str) (h1 : k ≠ filterWord) (h2 : k ≠ sorterWord) (h3 : k ≠ checkerWord)
    (h4 : k ≠ countWord) (h5 : k ≠ startWord) : (gList g).1 k = g k := by
  have e1 := Ne.symm h1
  have e2 := Ne.symm h2
  have e3 := Ne.symm h3
  have e4 := Ne.symm h4
  have e5 := Ne.symm h5
  unfold gList midLook
  cases filtOf (g filterWord) with
  | error e => rfl
  | ok p =>
    dsimp only
    cases reqOf (g attributesWord) (g excludeWord) with
    | error e => simp [Look.put, e1, e2]
    | ok p =>
      dsimp only
      cases (numRead (g countWord)).2 <;> dsimp only <;> cases p.2.hasIssues <;>
        simp [Look.put, e1, e2, e3, e4, e5]

/-- A list request again, after the caller restored the filter. -/
theorem gList_again (g : Look) : gList ((gList g).1.put filterWord (g filterWord)) = gList g := by
  have f1 : ∀ h : Look, h = (gList g).1.put filterWord (g filterWord) →
      h filterWord = g filterWord ∧ h sortByWord = g sortByWord ∧ h sortOrderWord = g sortOrderWord ∧
      h attributesWord = g attributesWord ∧ h excludeWord = g excludeWord := by
    rintro h rfl
    have w : ∀ k, k ≠ filterWord → k ≠ sorterWord → k ≠ checkerWord → k ≠ countWord → k ≠ startWord →
        ((gList g).1.put filterWord (g filterWord)) k = g k := by
      intro k h1 h2 h3 h4 h5
      unfold Look.put
      rw [if_neg (Ne.symm h1)]
      exact gList_frame g k h1 h2 h3 h4 h5
    exact ⟨by simp [Look.put], w _ (by decide) (by decide) (by decide) (by decide) (by decide),
      w _ (by decide) (by decide) (by decide) (by decide) (by decide),
      w _ (by decide) (by decide) (by decide) (by decide) (by decide),
      w _ (by decide) (by decide) (by decide) (by decide) (by decide)⟩
  generalize hh : (gList g).1.put filterWord (g filterWord) = h
  obtain ⟨a1, a2, a3, a4, a5⟩ := f1 h hh.symm
  unfold gList at hh ⊢
  rw [a1, a2, a3, a4, a5]
  cases e1 : filtOf (g filterWord) with
  | error e =>
    rw [e1] at hh
    dsimp only at hh ⊢
    rw [put_same] at hh
    rw [hh]
  | ok p =>
    obtain ⟨f, i1⟩ := p
    rw [e1] at hh
    dsimp only at hh ⊢
    cases e2 : reqOf (g attributesWord) (g excludeWord) with
    | error e =>
      rw [e2] at hh
      dsimp only at hh ⊢
      congr 1
      rw [← hh]
      funext k
      unfold midLook Look.put
      simp only [if_pos]
      by_cases k1 : filterWord = k <;> by_cases k2 : sorterWord = k <;> simp [k1, k2]
    | ok p =>
      obtain ⟨c, i3⟩ := p
      rw [e2] at hh
      dsimp only at hh ⊢
      cases e3 : (numRead (g countWord)).2 with
      | error e =>
        rw [e3] at hh
        dsimp only at hh ⊢
        have b1 : h countWord = (numRead (g countWord)).1 := by
          rw [← hh]; rfl
        rw [b1, numRead_again, e3]
        dsimp only
        congr 1
        rw [← hh]
        funext k
        unfold midLook Look.put
        cases i3.hasIssues <;>
        by_cases k1 : filterWord = k <;> by_cases k2 : sorterWord = k <;> by_cases k3 : checkerWord = k <;>
          by_cases k4 : countWord = k <;> simp [k1, k2, k3, k4]
      | ok b =>
        rw [e3] at hh
        dsimp only at hh ⊢
        have b1 : h countWord = (numRead (g countWord)).1 := by
          rw [← hh]; rfl
        have b2 : h startWord = (numRead (g startWord)).1 := by
          rw [← hh]; rfl
        rw [b1, b2, numRead_again, numRead_again, e3]
        dsimp only
        congr 1
        rw [← hh]
        funext k
        unfold midLook Look.put
        cases i3.hasIssues <;>
        by_cases k1 : filterWord = k <;> by_cases k2 : sorterWord = k <;> by_cases k3 : checkerWord = k <;>
          by_cases k4 : countWord = k <;> by_cases k5 : startWord = k <;> simp [k1, k2, k3, k4, k5]

/-- `touchQuery` by lookups. -/
theorem touchQuery_look (q : Dict) (k : Str) (hk : k ≠ checkerWord) : look (touchQuery q).1 k = look q k := by
  unfold touchQuery
  cases parseRequested q with
  | error e => rfl
  | ok p =>
    dsimp only
    split
    · rfl
    · rw [look_aset]; unfold Look.put; rw [if_neg (Ne.symm hk)]

theorem touchQuery_congr {q q' : Dict} (h1 : look q attributesWord = look q' attributesWord)
    (h2 : look q excludeWord = look q' excludeWord) : (touchQuery q).2 = (touchQuery q').2 := by
  unfold touchQuery
  rw [reqOf_eq, reqOf_eq, h1, h2]
  cases reqOf (look q' attributesWord) (look q' excludeWord) <;> rfl

/-- Any request leaves these entries alone. -/
theorem on_frame (u : QueryUse) (q : Dict) (k : Str) (h1 : k ≠ filterWord) (h2 : k ≠ sorterWord) (h3 : k ≠ checkerWord)
    (h4 : k ≠ countWord) (h5 : k ≠ startWord) : look (u.on q).1 k = look q k := by
  cases u with
  | list => show look (touchList q).1 k = _; rw [(touchList_look q).1]; exact gList_frame _ k h1 h2 h3 h4 h5
  | resource => exact touchQuery_look q k h3
  | config => rfl
  | other => rfl

theorem reuse_frame (us : List QueryUse) (q : Dict) (k : Str) (h1 : k ≠ filterWord) (h2 : k ≠ sorterWord)
    (h3 : k ≠ checkerWord) (h4 : k ≠ countWord) (h5 : k ≠ startWord) : look (reuse us q) k = look q k := by
  induction us generalizing q with
  | nil => rfl
  | cons u us ih => unfold reuse; rw [ih, on_frame u q k h1 h2 h3 h4 h5]

end V
end Scim
