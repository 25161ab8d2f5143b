import Verif.Lemmas.QueryState
import Verif.Lemmas.BulkSchema
import Verif.Spec.QueryState

/-! The query string handed over twice: C110. -/

namespace Scim
open Issues V
variable [PyEnv]

/-- **C110** What a list request makes of its query string, and what is left in the caller's dictionary, are the same. -/
theorem C110_in_place (body headers : Val) (q : Dict) :
    parseListRequest body headers (.dict q) = match touchList q with
      | (_, .error e) => .error e
      | (q', .ok is) => .ok ({ headers, query := .dict q', body }, is) := by
  have hn : ∀ name q is, parseNumber name q is = match touchNumber name q is with
      | (_, .error e) => .error e
      | (q', .ok is) => .ok (q', is) := by
    intro name q is
    unfold parseNumber touchNumber
    cases h : (aget name q).getD .null with
    | prim p =>
      cases p <;> dsimp only <;> first
        | rfl
        | (generalize Val.pyInt _ = z
           cases z with
           | ok i => rfl
           | error e =>
             dsimp only
             by_cases hv : e.isValueError = true
             · simp only [if_pos hv]
             · simp only [if_neg hv])
    | _ =>
      dsimp only
      first
        | (generalize Val.pyInt _ = z
           cases z with
           | ok i => rfl
           | error e =>
             dsimp only
             by_cases hv : e.isValueError = true
             · simp only [if_pos hv]
             · simp only [if_neg hv])
  unfold parseListRequest parseListQuery touchList
  dsimp only
  cases parseFiltering q with
  | error e => rfl
  | ok p =>
    dsimp only
    generalize parseSorting (aset filterWord p.1 q) = ss
    cases parseRequested (aset sorterWord ss.1 (aset filterWord p.1 q)) with
    | error e => rfl
    | ok c =>
      dsimp only
      rw [hn]
      generalize touchNumber countWord _ _ = t
      obtain ⟨q4, o⟩ := t
      cases o with
      | error e => rfl
      | ok is4 =>
        dsimp only
        rw [hn]
        generalize touchNumber startWord _ _ = t
        obtain ⟨q5, o⟩ := t
        cases o <;> rfl

/-- **C110** The same for requests about one resource. -/
theorem C110_in_place_resource (q : Dict) :
    parseQuery (.dict q) = match touchQuery q with
      | (_, .error e) => .error e
      | (q', .ok is) => .ok (.dict q', is) := by
  unfold parseQuery touchQuery
  dsimp only
  cases parseRequested q <;> rfl

/-- **C110** Requests change five entries of the dictionary only, whatever the history. -/
theorem C110_frame (us : List QueryUse) (q : Dict) (k : Str)
    (hk : k ∉ ["filter".toList, "sorter".toList, "presence_checker".toList, "count".toList, "startIndex".toList]) :
    aget k (reuse us q) = aget k q := by
  simp only [List.mem_cons, List.not_mem_nil, or_false, not_or] at hk
  exact reuse_frame us q k hk.1 hk.2.1 hk.2.2.1 hk.2.2.2.1 hk.2.2.2.2

theorem reuse_names (us : List QueryUse) (q : Dict) :
    look (reuse us q) attributesWord = look q attributesWord ∧ look (reuse us q) excludeWord = look q excludeWord :=
  ⟨reuse_frame us q _ (by decide) (by decide) (by decide) (by decide) (by decide),
    reuse_frame us q _ (by decide) (by decide) (by decide) (by decide) (by decide)⟩

/-- **C110** Requests about one resource can be repeated with the same dictionary, in any history: the answers are the same. -/
theorem C110_resources (us : List QueryUse) (q : Dict) (s : Schema) (body headers : Val) :
    answer (parseGet body headers (.dict (reuse us q))) = answer (parseGet body headers (.dict q)) ∧
    answer (parsePut s body headers (.dict (reuse us q))) = answer (parsePut s body headers (.dict q)) ∧
    answer (parsePost s body headers (.dict (reuse us q))) = answer (parsePost s body headers (.dict q)) ∧
    answer (parsePatch s body headers (.dict (reuse us q))) = answer (parsePatch s body headers (.dict q)) := by
  have e := touchQuery_congr (reuse_names us q).1 (reuse_names us q).2
  have h1 := C110_in_place_resource q
  have h2 := C110_in_place_resource (reuse us q)
  generalize touchQuery q = a at *
  generalize touchQuery (reuse us q) = b at *
  obtain ⟨qa, oa⟩ := a
  obtain ⟨qb, ob⟩ := b
  dsimp only at e
  subst e
  unfold parseGet parsePut parsePost parsePatch
  rw [h1, h2]
  cases ob with
  | error e => exact ⟨rfl, rfl, rfl, rfl⟩
  | ok is =>
    dsimp only
    refine ⟨rfl, ?_, ?_, ?_⟩
    · cases parseBody s.parse s.attrs body with
      | error e => rfl
      | ok p =>
        dsimp only
        split
        · rfl
        · cases dropReadOnly s.attrs.all p.1 <;> rfl
    · cases parseBody s.parse s.attrs body (serverRequired s.attrs.all) <;> rfl
    · cases parsePatchBody s body is <;> rfl

/-- **C110** A list request after requests about single resources (or schemas, resource types, searches) is answered as without them. -/
theorem C110_list_after (us : List QueryUse) (hus : .list ∉ us) (q : Dict) :
    (touchList (reuse us q)).2 = (touchList q).2 ∧
      ∀ k, k ≠ "presence_checker".toList → aget k (touchList (reuse us q)).1 = aget k (touchList q).1 := by
  have hl : ∀ k, k ≠ checkerWord → look (reuse us q) k = look q k := by
    intro k hk
    induction us generalizing q with
    | nil => rfl
    | cons u us ih =>
      unfold reuse
      rw [ih (fun h => hus (List.mem_cons_of_mem _ h))]
      cases u with
      | list => exact absurd (List.mem_cons_self ..) hus
      | resource => exact touchQuery_look q k hk
      | config => rfl
      | other => rfl
  obtain ⟨a1, a2⟩ := touchList_look (reuse us q)
  obtain ⟨b1, b2⟩ := touchList_look q
  have key : (gList (look (reuse us q))).2 = (gList (look q)).2 ∧
      ∀ k, k ≠ checkerWord → (gList (look (reuse us q))).1 k = (gList (look q)).1 k := by
    unfold gList
    rw [hl filterWord (by decide), hl attributesWord (by decide), hl excludeWord (by decide), hl sortByWord (by decide),
      hl sortOrderWord (by decide), hl countWord (by decide), hl startWord (by decide)]
    cases filtOf (look q filterWord) with
    | error e => exact ⟨rfl, hl⟩
    | ok p =>
      dsimp only
      cases reqOf (look q attributesWord) (look q excludeWord) with
      | error e =>
        refine ⟨rfl, fun k hk => ?_⟩
        simp only [midLook, Look.put, if_pos, hl k hk]
      | ok c =>
        dsimp only
        cases (numRead (look q countWord)).2 with
        | error e =>
          refine ⟨rfl, fun k hk => ?_⟩
          cases c.2.hasIssues <;> simp [midLook, Look.put, hl k hk]
        | ok b =>
          refine ⟨rfl, fun k hk => ?_⟩
          cases c.2.hasIssues <;> simp [midLook, Look.put, hl k hk]
  refine ⟨by rw [a2, b2]; exact key.1, fun k hk => ?_⟩
  have := key.2 k hk
  rw [← a1, ← b1] at this
  exact this

/-- **C110** If the caller restores the filter, a list request can be repeated: the same issues or the same exception, and the
same entries. -/
theorem C110_restored (q p : Dict) (hf : aget "filter".toList p = aget "filter".toList q)
    (hp : ∀ k, k ≠ "filter".toList → aget k p = aget k (touchList q).1) :
    (touchList p).2 = (touchList q).2 ∧ ∀ k, aget k (touchList p).1 = aget k (touchList q).1 := by
  obtain ⟨a1, a2⟩ := touchList_look p
  obtain ⟨b1, b2⟩ := touchList_look q
  have e : look p = (gList (look q)).1.put filterWord (look q filterWord) := by
    funext k
    unfold Look.put
    by_cases hk : filterWord = k
    · rw [if_pos hk, ← hk]; exact hf
    · rw [if_neg hk, ← b1]; exact hp k (Ne.symm hk)
  rw [e, gList_again] at a1 a2
  refine ⟨by rw [a2, b2], fun k => ?_⟩
  have : look (touchList p).1 k = look (touchList q).1 k := by rw [a1, b1]
  exact this

/-- What a list request leaves under `filter`: a filter or `Invalid`. -/
def Used : Option Val → Prop
  | some .invalid => True
  | some (.obj (.filter _)) => True
  | _ => False

theorem filtOf_used {o : Option Val} (h : Used o) : filtOf o = .ok (.invalid, Issues.empty.add ⟨2, []⟩ false) := by
  unfold Used at h
  split at h
  · rfl
  · rfl
  · exact h.elim

theorem filtOf_uses {o : Option Val} {f : Val} {is : Issues} (h : filtOf o = .ok (f, is)) : Used (some f) := by
  unfold filtOf parseFiltering at h
  split at h
  · split at h
    · cases h
    · cases h; trivial
    · cases h; trivial
  · cases h; trivial
  · cases h; trivial

/-- The state of a dictionary after a list request that did not raise. -/
structure AfterList (g : Look) : Prop where
  used : Used (g filterWord)
  req : ∃ r, reqOf (g attributesWord) (g excludeWord) = .ok r
  count : ∃ b, (numRead (g countWord)).2 = .ok b
  start : ∃ b, (numRead (g startWord)).2 = .ok b

theorem AfterList.made {g : Look} {is : Issues} (h : (gList g).2 = .ok is) : AfterList (gList g).1 := by
  have f := gList_frame g
  have hreq : ∀ r, reqOf (g attributesWord) (g excludeWord) = .ok r →
      reqOf ((gList g).1 attributesWord) ((gList g).1 excludeWord) = .ok r := by
    intro r hr
    rw [f attributesWord (by decide) (by decide) (by decide) (by decide) (by decide),
      f excludeWord (by decide) (by decide) (by decide) (by decide) (by decide), hr]
  unfold gList at h
  cases e1 : filtOf (g filterWord) with
  | error e => rw [e1] at h; cases h
  | ok p =>
    rw [e1] at h
    dsimp only at h
    cases e2 : reqOf (g attributesWord) (g excludeWord) with
    | error e => rw [e2] at h; cases h
    | ok c =>
      rw [e2] at h
      dsimp only at h
      cases e3 : (numRead (g countWord)).2 with
      | error e => rw [e3] at h; cases h
      | ok b =>
        rw [e3] at h
        dsimp only at h
        cases e4 : (numRead (g startWord)).2 with
        | error e => rw [e4] at h; cases h
        | ok b' =>
          have k1 : (gList g).1 filterWord = some p.1 := by
            unfold gList; rw [e1]; dsimp only; rw [e2]; dsimp only; rw [e3]; dsimp only
            cases c.2.hasIssues <;> rfl
          have k2 : (gList g).1 countWord = (numRead (g countWord)).1 := by
            unfold gList; rw [e1]; dsimp only; rw [e2]; dsimp only; rw [e3]; rfl
          have k3 : (gList g).1 startWord = (numRead (g startWord)).1 := by
            unfold gList; rw [e1]; dsimp only; rw [e2]; dsimp only; rw [e3]; rfl
          refine ⟨?_, ⟨c, hreq c e2⟩, ?_, ?_⟩
          · rw [k1]; exact filtOf_uses e1
          · rw [k2, numRead_again, e3]; exact ⟨b, rfl⟩
          · rw [k3, numRead_again, e4]; exact ⟨b', rfl⟩

/-- In such a state a list request answers, reports the filter, and loses it. -/
theorem AfterList.list {g : Look} (h : AfterList g) : ∃ is, (gList g).2 = .ok is ∧
    is.codesAt (queryLoc ++ [.name filterWord]) = [2] ∧ (gList g).1 filterWord = some .invalid := by
  obtain ⟨h1, ⟨⟨c, i3⟩, h2⟩, ⟨b, h3⟩, ⟨b', h4⟩⟩ := h
  have hf := filtOf_used h1
  have hq : ∃ q : Dict, parseRequested q = .ok (c, i3) := by
    refine ⟨(match g attributesWord with | some v => [(attributesWord, v)] | none => []) ++
      (match g excludeWord with | some v => [(excludeWord, v)] | none => []), ?_⟩
    rw [reqOf_eq, ← h2]
    have n1 : attributesWord ≠ excludeWord := by decide
    unfold look
    cases g attributesWord <;> cases g excludeWord <;> simp [aget, n1, Ne.symm n1]
  obtain ⟨q, hq⟩ := hq
  have hw := parseRequested_wf hq
  have h3e : i3.errorsAt [.name filterWord] = [] := by
    unfold parseRequested requested at hq
    have hp : ∀ {ns incl}, parseNamesAs ns incl = .ok (c, i3) → i3.errorsAt [.name filterWord] = [] := by
      intro ns incl h
      unfold parseNamesAs at h
      split at h
      · cases h
      · cases h
        rw [errorsAt_merge_other (by cases incl <;> decide)]
        rfl
    split at hq
    · cases hq; rfl
    · exact hp hq
    · exact hp hq
    · cases hq
      rw [errorsAt_add, errorsAt_add, if_neg (by decide), if_neg (by decide)]
      rfl
    · cases hq; rfl
  have hnum : ∀ (name : Str) (is : Issues) (b : Bool), name ≠ filterWord →
      (numIssues name is b).errorsAt (queryLoc ++ [.name filterWord]) = is.errorsAt (queryLoc ++ [.name filterWord]) := by
    intro name is b hn
    unfold numIssues
    cases b with
    | false => rfl
    | true =>
      rw [if_pos rfl, errorsAt_add, if_neg, List.append_nil]
      intro e
      have := List.append_cancel_left e
      simp at this
      exact hn this
  unfold gList
  rw [hf]
  dsimp only
  rw [h2]
  dsimp only
  rw [h3]
  dsimp only
  rw [h4]
  refine ⟨_, rfl, ?_, ?_⟩
  · unfold Issues.codesAt
    rw [hnum _ _ _ (by decide), hnum _ _ _ (by decide), errorsAt_merge hw, errorsAt_merge_other (by decide),
      if_pos ⟨[.name filterWord], rfl⟩]
    have : (queryLoc ++ [LKey.name filterWord]).drop queryLoc.length = [LKey.name filterWord] := by simp
    rw [this, h3e]
    rfl
  · cases i3.hasIssues <;> rfl

/-- **C110** After a list request that did not raise, whether it was accepted or not and whether it had a filter or not, each
further list request with the same dictionary is answered with a complaint about the type of the filter, whatever other requests
were made in between; and the filter of the dictionary, which is also the one of the request data handed out before, is gone. -/
theorem C110_once (q : Dict) (is : Issues) (h : (touchList q).2 = .ok is) (us : List QueryUse) :
    ∃ is', (touchList (reuse us (touchList q).1)).2 = .ok is' ∧
      is'.codesAt [.name "query_string".toList, .name "filter".toList] = [2] ∧
      aget "filter".toList (touchList (reuse us (touchList q).1)).1 = some .invalid := by
  have main : ∀ us (p : Dict), AfterList (look p) → AfterList (look (reuse us p)) := by
    intro us
    induction us with
    | nil => exact fun p h => h
    | cons u us ih =>
      intro p hp
      unfold reuse
      refine ih _ ?_
      cases u with
      | list =>
        show AfterList (look (touchList p).1)
        rw [(touchList_look p).1]
        obtain ⟨is, h1, -⟩ := hp.list
        exact AfterList.made h1
      | resource =>
        obtain ⟨h1, h2, h3, h4⟩ := hp
        have f := touchQuery_look p
        show AfterList (look (touchQuery p).1)
        exact ⟨by rw [f _ (by decide)]; exact h1, by rw [f _ (by decide), f _ (by decide)]; exact h2,
          by rw [f _ (by decide)]; exact h3, by rw [f _ (by decide)]; exact h4⟩
      | config => exact hp
      | other => exact hp
  have h0 : AfterList (look (touchList q).1) := by
    rw [(touchList_look q).1]
    exact AfterList.made ((touchList_look q).2.symm.trans h)
  obtain ⟨is', h1, h2, h3⟩ := (main us _ h0).list
  obtain ⟨a1, a2⟩ := touchList_look (reuse us (touchList q).1)
  refine ⟨is', a2.trans h1, h2, ?_⟩
  rw [← a1] at h3
  exact h3

/-- **C110** And each request for the list of schemas or of resource types is rejected. -/
theorem C110_config (q : Dict) (is : Issues) (h : (touchList q).2 = .ok is) (headers : Val) :
    (parseConfigQuery headers (.dict (touchList q).1)).2.codesAt [.name "query_string".toList, .name "filter".toList] = [39] := by
  have h0 : AfterList (look (touchList q).1) := by
    rw [(touchList_look q).1]
    exact AfterList.made ((touchList_look q).2.symm.trans h)
  have : (aget filterWord (touchList q).1).isSome = true := by
    have := h0.used
    unfold look at this
    cases e : aget filterWord (touchList q).1 with
    | none => rw [e] at this; exact this.elim
    | some v => rfl
  unfold parseConfigQuery
  dsimp only
  rw [if_pos this]
  rfl

end Scim

/-! ## Concrete cases (ASCII run-time library) -/

namespace Scim.Examples.QueryState
open Scim.V

local instance queryStateEnv : PyEnv := asciiEnv

/-- A query string. -/
def exQuery : Dict :=
  [("filter".toList, .str "userName eq \"jane\"".toList), ("count".toList, .str "10".toList),
   ("attributes".toList, .str "userName,emails.value".toList), ("sortBy".toList, .str "userName".toList), ("x".toList, .int 1)]

/-- The locations and codes that are reported. -/
def codes (r : PyM Issues) : Option (List (Loc × List Nat)) :=
  match r with
  | .ok is => some (is.issues.map (fun e => (e.1, e.2.map (·.code))))
  | .error _ => none

/-- The first list request is fine, the second is not, and not the third. -/
example : codes (touchList exQuery).2 = some [] ∧
    codes (touchList (touchList exQuery).1).2 = some [([.name "query_string".toList, .name "filter".toList], [2])] ∧
    codes (touchList (reuse [.list, .resource] (touchList exQuery).1)).2 =
      some [([.name "query_string".toList, .name "filter".toList], [2])] := by decide +kernel

/-- Even without any parameters. -/
example : codes (touchList []).2 = some [] ∧
    codes (touchList (touchList []).1).2 = some [([.name "query_string".toList, .name "filter".toList], [2])] := by decide +kernel

/-- The number stays, and what is not known stays. -/
example : aget "count".toList (reuse [.list, .list] exQuery) = some (.int 10) ∧ aget "x".toList (reuse [.list, .list] exQuery) = some (.int 1) := by
  decide +kernel

/-- Requests about a resource can be repeated. -/
example : codes (touchQuery (reuse [.list, .resource, .list] exQuery)).2 = codes (touchQuery exQuery).2 := by decide +kernel

/-- A call that raises half-way leaves its traces, too: the filter is replaced. -/
example : (match (touchList [("filter".toList, .str "a pr".toList), ("count".toList, .list [])]) with
    | (q, .error .typeError) => (match aget "filter".toList q with | some (.obj (.filter _)) => true | _ => false)
    | _ => false) = true := by decide +kernel

end Scim.Examples.QueryState
