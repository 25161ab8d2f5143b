import Verif.Lemmas.ListDoc
import Verif.Props.FilterTypes

/-! # C115: which list responses are accepted, said about the response itself -/

namespace Scim
open Issues V Valid Declared ListA
variable [PyEnv]

theorem list_rejects {schemas : List Schema} {status : Int} {body headers : Val} {start : Int} {count : Option Int} {f : Option Op}
    {so : Option SorterCfg} {c : Option Checker} {resp : Response} {is : Issues}
    (hwf : ∀ s ∈ schemas, s.WF ∧ SaneAll s.attrs.top) (ht : body.Tame) (hd : body.isDict = false)
    (h : dumpList schemas status body headers start count f so c = .ok (resp, is)) : is.hasIssues = true := by
  cases hn : is.hasIssues with
  | true => rfl
  | false =>
    obtain ⟨b, xs, hdump, -⟩ := (dumpList_spec hwf h).2.2.2 hn
    unfold ListA.dump at hdump
    split at hdump
    · cases hdump
    rename_i r i hs
    obtain ⟨cc, hc⟩ := process_rejects (m := .dump) (s := ListA.schema) ht hd
    have hp := process_of_dump hs
    rw [hc] at hp
    cases hp
    split at hdump
    · cases hdump
    · rename_i h; exact absurd rfl h

theorem list_accepts {schemas : List Schema} (hne : schemas ≠ [])
    (hall : ∀ s ∈ schemas, s.Listable ∧ Proper s ∧ s.isResource = true) {body : Val} (ht : body.Tame)
    (hb : ∀ D, body = .dict D → ListBody schemas D) (status : Int) (headers : Val) (start : Int) (count : Option Int)
    (f : Option Op) (so : Option SorterCfg) (c : Option Checker) :
    ∃ resp is, dumpList schemas status body headers start count f so c = .ok (resp, is) ∧
      (is.hasIssues = false ↔ status = 200 ∧ ∃ D xs ys ids, body = .dict D ∧ ListDoc schemas start count (c.getD {}) D xs ∧
        Written schemas xs ys ids ∧ filteredIf schemas ids f ys = .ok {} ∧ sortedIf schemas ids so ys = .ok {}) := by
  obtain ⟨resp, is, h⟩ := C98_list schemas hne (fun s hs => (hall s hs).1) status body headers ht hb start count f so c
  refine ⟨resp, is, h, ?_⟩
  cases hd : body.isDict with
  | false =>
    have := list_rejects (fun s hs => ⟨(hall s hs).1.wf, (hall s hs).2.1.sane⟩) ht hd h
    refine ⟨fun hn => (by rw [this] at hn; cases hn), fun ⟨_, D, _, _, _, e, _⟩ => (by subst e; cases hd)⟩
  | true =>
    obtain ⟨D, rfl⟩ : ∃ D, body = .dict D := by cases body <;> first | exact ⟨_, rfl⟩ | cases hd
    rw [list_iff hne hall (hb D rfl) h]
    constructor
    · rintro ⟨h1, xs, ys, ids, h2⟩
      exact ⟨h1, D, xs, ys, ids, rfl, h2⟩
    · rintro ⟨h1, D', xs, ys, ids, e, h2⟩
      cases e
      exact ⟨h1, xs, ys, ids, h2⟩

/-- **C115** a list response is always answered, and, when neither filter nor order was asked for, accepted exactly when the
status is 200 and the body is a list response for the request with resources that may be sent. -/
theorem C115_list {schemas : List Schema} (hne : schemas ≠ [])
    (hall : ∀ s ∈ schemas, s.Listable ∧ Proper s ∧ s.isResource = true) {body : Val} (ht : body.Tame)
    (hb : ∀ D, body = .dict D → ListBody schemas D) (status : Int) (headers : Val) (start : Int) (count : Option Int)
    (c : Option Checker) :
    ∃ resp is, dumpList schemas status body headers start count none none c = .ok (resp, is) ∧
      (is.hasIssues = false ↔ status = 200 ∧ ∃ D xs, body = .dict D ∧ ListDoc schemas start count (c.getD {}) D xs) := by
  obtain ⟨resp, is, h, hi⟩ := list_accepts hne hall ht hb status headers start count none none c
  refine ⟨resp, is, h, ?_⟩
  rw [hi]
  constructor
  · rintro ⟨h1, D, xs, ys, ids, e, h2, -⟩
    exact ⟨h1, D, xs, e, h2⟩
  · rintro ⟨h1, D, xs, e, h2⟩
    obtain ⟨ys, ids, hw⟩ := written_of hne hall (hb D e) h2
    exact ⟨h1, D, xs, ys, ids, e, h2, hw, rfl, rfl⟩

theorem filtered_iff {table : List Schema} {o : Op} {ys : List Val} {ids : List (Option Nat)} (hlen : ids.length = ys.length)
    (hv : ∀ (k : Nat) (x : Val) (t : Option Nat), ys[k]? = some x → ids[k]? = some t → ∃ b, Verdict table o x t b) :
    validateFiltered ys o table ids false = .ok {} ↔
      ∀ (k : Nat) (x : Val) (t : Option Nat), ys[k]? = some x → ids[k]? = some t → Verdict table o x t true := by
  obtain ⟨is, h1, h2, h3⟩ := C77_issues table o ys ids hlen hv
  rw [h1]
  constructor
  · intro e k x t hx ht
    cases e
    obtain ⟨b, hb⟩ := hv k x t hx ht
    cases b with
    | true => exact hb
    | false => cases (h2 k x t hx ht).mpr hb
  · intro hall
    have hw : is.WF := skipIfBad_wf (fun i hi => filteredLoop_wf WF.empty hi) h1
    rw [eq_empty_of_noIssues hw (errors_none hw fun l e he => ?_)]
    obtain ⟨hc, k, hk, rfl⟩ := h3 l e.code (List.mem_map.mpr ⟨e, he, rfl⟩)
    have hk' : k < ids.length := by omega
    have hmem := List.mem_map.mpr ⟨e, he, hc⟩
    have hf := (h2 k _ _ (List.getElem?_eq_getElem hk) (List.getElem?_eq_getElem hk')).mp hmem
    cases hf.unique (hall k _ _ (List.getElem?_eq_getElem hk) (List.getElem?_eq_getElem hk'))

/-- **C115** when a filter was asked for that fits the schemas, all resources of an accepted list pass it, and nothing else is
checked. -/
theorem C115_filtered {schemas : List Schema} (hne : schemas ≠ [])
    (hall : ∀ s ∈ schemas, s.Listable ∧ Proper s ∧ s.isResource = true) (hflat : ∀ s ∈ schemas, s.Flat) {body : Val} (ht : body.Tame)
    (hb : ∀ D, body = .dict D → ListBody schemas D) (status : Int) (headers : Val) (start : Int) (count : Option Int)
    (P : DateTime → Prop) (o : Op) (ho : ∀ s ∈ schemas, o.WellTyped P s.attrs.all)
    (hdate : ∀ D, body = .dict D → ListDated P schemas D) (c : Option Checker) :
    ∃ resp is, dumpList schemas status body headers start count (some o) none c = .ok (resp, is) ∧
      (is.hasIssues = false ↔ status = 200 ∧ ∃ D xs, body = .dict D ∧ ListDoc schemas start count (c.getD {}) D xs ∧
        ∀ x ∈ xs, Passes schemas o x) := by
  obtain ⟨resp, is, h, hi⟩ := list_accepts hne hall ht hb status headers start count (some o) none c
  refine ⟨resp, is, h, ?_⟩
  rw [hi]
  have key : ∀ D xs ys ids, body = .dict D → ListDoc schemas start count (c.getD {}) D xs → Written schemas xs ys ids →
      (filteredIf schemas ids (some o) ys = .ok {} ↔ ∀ x ∈ xs, Passes schemas o x) := by
    intro D xs ys ids e hdoc hw
    have hx : xs = [] ∨ listHolds D "Resources" = some (.list xs) := hdoc.resources.imp (·.2) id
    obtain ⟨hj, hkeys⟩ := resources_known (hb D e) hx
    have hli : ids.length = xs.length := by have := schemasFor_length hw.chosen; rwa [List.length_map] at this
    have htoBool : ∀ st : MatchStatus, st.toBool = .ok true → st = .passed := by
      intro st h; cases st <;> first | rfl | cases h
    have hv : ∀ (k : Nat) (y : Val) (t : Option Nat), ys[k]? = some y → ids[k]? = some t → ∃ b, Verdict schemas o y t b := by
      intro k y t hy ht
      have hk : k < xs.length := by rw [← hw.len]; exact (List.getElem?_eq_some_iff.mp hy).1
      obtain ⟨n, s, y', e1, e2, e3, e4⟩ := hw.each k _ t (List.getElem?_eq_getElem hk) ht
      rw [e4] at hy; cases hy
      have hsm := List.mem_of_getElem? e2
      have hmem := List.getElem_mem hk
      have hd : Dated P s.attrs.all y := by
        rcases hx with rfl | hx
        · cases hk
        · exact hdate D e xs hx _ hmem s hsm y e3
      obtain ⟨st, hst⟩ := C107_decides P s.attrs.all o (ho s hsm) y
        (C107_written s (hall s hsm).1 (hflat s hsm) _ y {} e3 rfl P hd) false
      obtain ⟨b, hb⟩ := verdict_of hst
      exact ⟨b, n, s, st, e1, e2, hst, hb⟩
    refine (filtered_iff (by rw [hli, hw.len]) hv).trans ⟨fun hp x hxm => ?_, fun hp k y t hy ht => ?_⟩
    · obtain ⟨k, hk, rfl⟩ := List.mem_iff_getElem.mp hxm
      have hk' : k < ids.length := by rw [hli]; exact hk
      obtain ⟨n, s, y, e1, e2, e3, e4⟩ := hw.each k _ _ (List.getElem?_eq_getElem hk) (List.getElem?_eq_getElem hk')
      obtain ⟨n', s', st, e1', e2', hst, hb⟩ := hp k y _ e4 (List.getElem?_eq_getElem hk')
      rw [e1] at e1'; cases e1'
      rw [e2] at e2'; cases e2'
      rw [htoBool st hb] at hst
      obtain ⟨R, s', hR, -⟩ := hdoc.each _ hxm
      exact ⟨R, s, y, hR, (taken_iff hne hj hkeys hw.chosen (by rw [List.getElem?_eq_getElem hk, hR])
        (List.getElem?_eq_getElem hk')).mp ⟨n, e1, e2⟩, e3, hst⟩
    · have hk : k < xs.length := by rw [← hw.len]; exact (List.getElem?_eq_some_iff.mp hy).1
      obtain ⟨R, s, y', hR, htk, e3, hst⟩ := hp _ (List.getElem_mem hk)
      obtain ⟨n, e1, e2⟩ := (taken_iff hne hj hkeys hw.chosen (by rw [List.getElem?_eq_getElem hk, hR]) ht).mpr htk
      obtain ⟨n', s', y'', e1', e2', e3', e4⟩ := hw.each k _ t (List.getElem?_eq_getElem hk) ht
      rw [e1] at e1'; cases e1'
      rw [e2] at e2'; cases e2'
      rw [e3] at e3'; cases e3'
      rw [e4] at hy; cases hy
      exact ⟨n, s, .passed, e1, e2, hst, rfl⟩
  constructor
  · rintro ⟨h1, D, xs, ys, ids, e, h2, hw, hf, -⟩
    exact ⟨h1, D, xs, e, h2, (key D xs ys ids e h2 hw).mp hf⟩
  · rintro ⟨h1, D, xs, e, h2, hp⟩
    obtain ⟨ys, ids, hw⟩ := written_of hne hall (hb D e) h2
    exact ⟨h1, D, xs, ys, ids, e, h2, hw, (key D xs ys ids e h2 hw).mpr hp, rfl⟩

/-- **C115** when an order was asked for, and the resources as they are written have plain keys and are all different, the
resources of an accepted list stand in that order, and nothing else is checked. -/
theorem C115_sorted {schemas : List Schema} (hne : schemas ≠ [])
    (hall : ∀ s ∈ schemas, s.Listable ∧ Proper s ∧ s.isResource = true) {D : List (Str × Val)} (hb : ListBody schemas D)
    (status : Int) (headers : Val) (start : Int) (count : Option Int) (so : SorterCfg) (c : Option Checker)
    {xs ys : List Val} {ids : List (Option Nat)} (hR : listHolds D "Resources" = some (.list xs)) (hw : Written schemas xs ys ids)
    (k : Nat → SortKey) (hk : KeysOf so ys (.many schemas ids) k) (e : Bool) (hpl : ∀ i < ys.length, (k i).Plain e)
    (r : List Val) (hr : so.call ys (.many schemas ids) = .ok r)
    (hd : ∀ i < ys.length, ∀ j < ys.length, i ≠ j → (ys.getD i .missing).pyEq (ys.getD j .missing) = .ok false) :
    ∃ resp is, dumpList schemas status (.dict D) headers start count none (some so) c = .ok (resp, is) ∧
      (is.hasIssues = false ↔ status = 200 ∧ ListDoc schemas start count (c.getD {}) D xs ∧ InOrder so.asc k xs.length) := by
  obtain ⟨resp, is, h, hi⟩ := list_accepts hne hall hb.ordinary.tame (fun D' e => by cases e; exact hb) status headers start count none
    (some so) c
  refine ⟨resp, is, h, ?_⟩
  rw [hi]
  have hs : sortedIf schemas ids (some so) ys = .ok {} ↔ InOrder so.asc k xs.length := by
    rw [← hw.len]
    rcases C66_accepted_iff so ys (.many schemas ids) k hk e hpl r hr hd with ⟨h1, h2⟩ | ⟨h1, h2⟩
    · exact ⟨fun _ => h1, fun _ => h2⟩
    · refine ⟨fun h => ?_, fun h => absurd h h1⟩
      have h : validateSorted so ys (.many schemas ids) = .ok {} := h
      rw [h2] at h
      have h := congrArg Issues.hasIssues (Except.ok.inj h)
      rw [hasIssues_add] at h
      cases h
  constructor
  · rintro ⟨h1, D', xs', ys', ids', e, h2, hw', -, h3⟩
    cases e
    have : xs' = xs := by
      rcases h2.resources with ⟨e, -⟩ | e
      · rw [hR] at e; cases e
      · rw [hR] at e; cases e; rfl
    subst this
    obtain ⟨rfl, rfl⟩ := written_unique hw hw'
    exact ⟨h1, h2, hs.mp h3⟩
  · rintro ⟨h1, h2, h3⟩
    exact ⟨h1, D, xs, ys, ids, rfl, h2, hw, rfl, hs.mpr h3⟩

attribute [local irreducible] GroupA.schema in
/-- **C115** lists of users, of groups, and of both are lists the above speaks about. -/
theorem C115_users_groups {schemas : List Schema} (hs : schemas = [userSchema] ∨ schemas = [GroupA.schema] ∨
      schemas = [userSchema, GroupA.schema]) :
    schemas ≠ [] ∧ (∀ s ∈ schemas, s.Listable ∧ Proper s ∧ s.isResource = true) ∧ ∀ s ∈ schemas, s.Flat := by
  have hmem : ∀ s ∈ schemas, s = userSchema ∨ s = GroupA.schema := by
    intro s h
    rcases hs with rfl | rfl | rfl
    · exact .inl (by simpa using h)
    · exact .inr (by simpa using h)
    · simpa using h
  obtain ⟨⟨u1, u2, -⟩, g1, g2, -⟩ := C113_assets
  refine ⟨by rcases hs with rfl | rfl | rfl <;> simp, fun s h => ?_, fun s h => ?_⟩
  · rcases hmem s h with rfl | rfl
    · exact ⟨user_listable, u1, u2⟩
    · exact ⟨group_listable, g1, g2⟩
  · rcases hmem s h with rfl | rfl
    · exact user_flatSchema
    · exact group_flatSchema

end Scim

/-! ## Concrete cases (ASCII run-time library) -/

namespace Scim.Examples.ListBodies
open Scim Scim.Examples Scim.Valid Scim.Examples.FilterTypes V

local instance listBodiesEnv : PyEnv := asciiEnv

/-- Whether the response was answered without issues. -/
def fine (r : PyM (Response × Issues)) : Bool :=
  match r with
  | .ok (_, is) => !is.hasIssues
  | .error _ => false

/-- The list of two users is accepted when all are asked for, but not when only one is, and not with another status. -/
theorem two_users : fine (dumpList [userSchema] 200 (.dict (exUsers exJim)) .null 1 none none none none) = true := by decide +kernel
theorem one_user : fine (dumpList [userSchema] 200 (.dict (exUsers exJim)) .null 1 (some 1) none none none) = false := by decide +kernel

theorem exBody : ∀ D, Val.dict (exUsers exJim) = .dict D → ListBody [userSchema] D := fun D e => by cases e; exact exUsers_ok.2

/-- So the words hold of it in the first case, and not in the second. -/
theorem two_users_doc : ∃ xs, ListDoc [userSchema] 1 none {} (exUsers exJim) xs := by
  obtain ⟨h1, h2, -⟩ := C115_users_groups (schemas := [userSchema]) (.inl rfl)
  obtain ⟨resp, is, h, hi⟩ := C115_list h1 h2 exUsers_ok.1 exBody 200 .null 1 none none
  have := two_users
  rw [h] at this
  obtain ⟨-, D, xs, e, hd⟩ := hi.mp (by simpa [fine] using this)
  cases e
  exact ⟨xs, hd⟩

theorem one_user_not : ¬ ∃ xs, ListDoc [userSchema] 1 (some 1) {} (exUsers exJim) xs := by
  rintro ⟨xs, hd⟩
  obtain ⟨h1, h2, -⟩ := C115_users_groups (schemas := [userSchema]) (.inl rfl)
  obtain ⟨resp, is, h, hi⟩ := C115_list h1 h2 exUsers_ok.1 exBody 200 .null 1 (some 1) none
  have := one_user
  rw [h] at this
  have hn := hi.mpr ⟨rfl, _, xs, rfl, hd⟩
  simp [fine, hn] at this

/-- The hypotheses of the theorem on filters are met, and both users pass. -/
theorem two_users_pass : ∃ xs, ListDoc [userSchema] 1 none {} (exUsers exJim) xs ∧ ∀ x ∈ xs, Passes [userSchema] exFilter x := by
  obtain ⟨h1, h2, h3⟩ := C115_users_groups (schemas := [userSchema]) (.inl rfl)
  obtain ⟨resp, is, h, hi⟩ := C115_filtered h1 h2 h3 exUsers_ok.1 exBody 200 .null 1 none Local exFilter
    (fun s hs => by rw [List.mem_singleton.mp hs]; exact exFilter_fits) (fun _ _ _ _ _ _ _ _ _ _ => dated_local _ _) none
  have ha : fine (dumpList [userSchema] 200 (.dict (exUsers exJim)) .null 1 none (some exFilter) none none) = true := by decide +kernel
  rw [h] at ha
  obtain ⟨-, D, xs, e, hd⟩ := hi.mp (by simpa [fine] using ha)
  cases e
  exact ⟨xs, hd⟩

/-- What is written for a user. -/
def written (x : Val) : Val :=
  match userSchema.dump x with
  | .ok (y, _) => y
  | .error _ => .missing

/-- Whether a user is written without issues. -/
def clean (x : Val) : Bool :=
  match userSchema.dump x with
  | .ok (_, is) => decide (is = {})
  | .error _ => false

theorem written_clean {x : Val} (h : clean x = true) : userSchema.dump x = .ok (written x, {}) := by
  unfold clean at h
  unfold written
  split at h
  · rename_i y is hd
    rw [hd, of_decide_eq_true h]
  · cases h

/-- The two users. -/
def exTwo : List Val :=
  [.dict (Scim.Examples.FilterTypes.exUser "jane".toList 7 [.dict [("value".toList, .str "j@x".toList), ("type".toList, .str "work".toList)]]), exJim]

theorem exTwo_written : Written [userSchema] exTwo (exTwo.map written) [some 0, some 0] := by
  refine ⟨rfl, by simp, fun k x t hx ht => ?_⟩
  have hc : ∀ x ∈ exTwo, clean x = true := by
    intro x hx
    simp only [exTwo, List.mem_cons, List.not_mem_nil, or_false] at hx
    rcases hx with rfl | rfl <;> decide +kernel
  have hm := List.mem_of_getElem? hx
  refine ⟨0, userSchema, written x, ?_, rfl, written_clean (hc x hm), by rw [List.getElem?_map, hx]; rfl⟩
  have : t ∈ [some 0, some 0] := List.mem_of_getElem? ht
  simpa using this

/-- By user name, ascending or descending. -/
def byName (asc : Bool) : SorterCfg := { rep := { attr := "userName".toList }, asc }

/-- The keys of the two users. -/
def twoKeys : Nat → SortKey
  | 0 => .str "jane".toList false
  | 1 => .str "Jim".toList false
  | _ => .last

/-- Whether a key is the given text, compared without regard to case. -/
def isKey (t : Str) (r : PyM SortKey) : Bool :=
  match r with
  | .ok (.str s c) => decide (s = t) && !c
  | _ => false

theorem isKey_eq {t : Str} {r : PyM SortKey} (h : isKey t r = true) : r = .ok (.str t false) := by
  unfold isKey at h
  split at h
  · simp only [Bool.and_eq_true, decide_eq_true_eq, Bool.not_eq_true'] at h
    rw [h.1, h.2]
  · cases h

theorem two_keys (asc : Bool) : KeysOf (byName asc) (exTwo.map written) (.many [userSchema] [some 0, some 0]) twoKeys := by
  intro i x hx
  rcases i with _ | _ | i
  · cases hx; cases asc <;> exact isKey_eq (by decide +kernel)
  · cases hx; cases asc <;> exact isKey_eq (by decide +kernel)
  · simp [exTwo] at hx

/-- Whether the call gives a result. -/
def gives {α : Type} (r : PyM α) : Bool := match r with | .ok _ => true | .error _ => false

theorem gives_ok {α : Type} {r : PyM α} (h : gives r = true) : ∃ a, r = .ok a := by
  cases r with
  | ok a => exact ⟨a, rfl⟩
  | error e => cases h

/-- Whether the comparison says that the values differ. -/
def differs (r : PyM Bool) : Bool := match r with | .ok b => !b | .error _ => false

theorem differs_ok {r : PyM Bool} (h : differs r = true) : r = .ok false := by
  cases r with
  | ok b => cases b <;> first | rfl | cases h
  | error e => cases h

/-- The hypotheses of the theorem on the order are met; the users stand in ascending order of their names. -/
theorem two_users_sorted (asc : Bool) : ∃ resp is,
    dumpList [userSchema] 200 (.dict (exUsers exJim)) .null 1 none none (some (byName asc)) none = .ok (resp, is) ∧
      (is.hasIssues = false ↔ ListDoc [userSchema] 1 none {} (exUsers exJim) exTwo ∧ InOrder asc twoKeys 2) := by
  obtain ⟨h1, h2, h3⟩ := C115_users_groups (schemas := [userSchema]) (.inl rfl)
  obtain ⟨r, hr⟩ : ∃ r, (byName asc).call (exTwo.map written) (.many [userSchema] [some 0, some 0]) = .ok r := by
    apply gives_ok
    cases asc <;> decide +kernel
  have := C115_sorted h1 h2 exUsers_ok.2 200 .null 1 none (byName asc) none (xs := exTwo) (by rfl) exTwo_written twoKeys
    (two_keys asc) false (fun i hi => ?_) r hr (fun i hi j hj hij => ?_)
  · obtain ⟨resp, is, h, hi⟩ := this
    exact ⟨resp, is, h, hi.trans ⟨fun h => ⟨h.2.1, h.2.2⟩, fun h => ⟨rfl, h.1, h.2⟩⟩⟩
  · rcases i with _ | _ | i
    · rfl
    · rfl
    · exact trivial
  · apply differs_ok
    rcases i with _ | _ | i
    · rcases j with _ | _ | j
      · exact absurd rfl hij
      · decide +kernel
      · have : j + 1 + 1 < 2 := hj
        omega
    · rcases j with _ | _ | j
      · decide +kernel
      · exact absurd rfl hij
      · have : j + 1 + 1 < 2 := hj
        omega
    · have : i + 1 + 1 < 2 := hi
      omega

example : fine (dumpList [userSchema] 200 (.dict (exUsers exJim)) .null 1 none none (some (byName true)) none) = true := by decide +kernel
example : fine (dumpList [userSchema] 200 (.dict (exUsers exJim)) .null 1 none none (some (byName false)) none) = false := by decide +kernel

end Scim.Examples.ListBodies
