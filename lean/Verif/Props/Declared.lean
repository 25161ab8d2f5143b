import Verif.Lemmas.Declared
import Verif.Props.Schemas
import Verif.Props.ListTotality
import Verif.Props.PatchOp

/-! Bodies matter by what they hold for the declared attributes only: C109. -/

namespace Scim
open Declared
variable [PyEnv]

/-- **C109** Two bodies that hold the same for each declared attribute are read (and written) with the same result: the same
object, the same issues, or the same exception. -/
theorem C109_declared (m : Mode) (s : Schema) (hd : DirectAll m s.attrs.top) (D D' : List (Str × Val))
    (h : AlikeIn s.attrs.top D D') : s.process m (.dict D) = s.process m (.dict D') := AlikeIn.process hd h

/-- **C109** The spelling of names and the order of entries do not matter, on any level. -/
theorem C109_spelling (m : Mode) (s : Schema) (hd : DirectAll m s.attrs.top) (D D' : List (Str × Val))
    (hc : ∀ a ∈ s.attrs.top, Clear a.rep D) (h : Respelt (.dict D) (.dict D')) :
    s.process m (.dict D) = s.process m (.dict D') := AlikeIn.process hd (h.top s.attrs.top hd hc)

/-- **C109** In words of entries: if the names of each object are distinct up to letter case and not empty, and to every entry
of one there is an entry of the other whose name differs by letter case only and whose value is the same (up to spelling and
order), then the documents differ in spelling and order only. -/
theorem C109_entries (D D' : List (Str × Val)) (hn : (D'.map (fun p => lower p.1)).Nodup)
    (hne : ∀ k ∈ D.map (·.1), k ≠ [])
    (h : ∀ k v, (k, v) ∈ D → ∃ k' v', (k', v') ∈ D' ∧ lower k' = lower k ∧ Respelt v v')
    (h' : ∀ k v, (k, v) ∈ D' → ∃ k' ∈ D.map (·.1), lower k' = lower k) : Respelt (.dict D) (.dict D') :=
  respelt_of_entries hn (fun k hk e => lower_ne_nil (hne k hk) (by rw [e, lower_nil])) h h'

/-- **C109** The order of the entries of a body does not matter. -/
theorem C109_order (m : Mode) (s : Schema) (hd : DirectAll m s.attrs.top) (D D' : List (Str × Val)) (hp : D.Perm D')
    (hn : (D.map (fun p => lower p.1)).Nodup) (hne : ∀ k ∈ D.map (·.1), k ≠ [])
    (hc : ∀ a ∈ s.attrs.top, Clear a.rep D) : s.process m (.dict D) = s.process m (.dict D') := by
  refine C109_spelling m s hd D D' hc (C109_entries D D' ((hp.map _).nodup_iff.mp hn) hne ?_ ?_)
  · exact fun k v h => ⟨k, v, hp.mem_iff.mp h, rfl, .same v⟩
  · exact fun k v h => ⟨k, List.mem_map.mpr ⟨_, hp.mem_iff.mpr h, rfl⟩, rfl⟩

/-- **C109** An attribute that is not declared, wherever it stands in the body and whatever it holds, does not matter. -/
theorem C109_undeclared (m : Mode) (s : Schema) (hd : DirectAll m s.attrs.top) (A B : List (Str × Val)) (k : Str) (v : Val)
    (hk : ∀ a ∈ s.attrs.top, lower k ≠ lower a.rep.attr ∧ lower k ≠ lower a.rep.schema)
    (hc : ∀ a ∈ s.attrs.top, Clear a.rep (A ++ B)) :
    s.process m (.dict (A ++ (k, v) :: B)) = s.process m (.dict (A ++ B)) := by
  refine AlikeIn.process hd (alikeIn_of_look _ fun a ha => ?_)
  have e1 := found_insert v (hk a ha).2 A B
  have e2 := found_insert v (hk a ha).1 A B
  have hc := hc a ha
  refine ⟨?_, hc, ?_⟩
  · unfold Clear at hc ⊢; rw [e1]; exact hc
  · unfold look; rw [e1, e2]

/-- **C109** Attributes are read apart from each other: if two bodies hold the same for one attribute, and both are read
without exception, then the two results agree on this attribute, and so do the issues under its name (except those about the
list of schemas as a whole, which depend on the extensions that are used). -/
theorem C109_apart (m : Mode) (s : Schema) (hs : s.WF) (hsane : SaneAll s.attrs.top) (D D' : List (Str × Val))
    (r r' : Val) (is is' : Issues) (h : s.process m (.dict D) = .ok (r, is)) (h' : s.process m (.dict D') = .ok (r', is'))
    (a : Attr) (ha : a ∈ s.attrs.top) (hd : Direct m a) (x y : Val) (hc : Clear a.rep D) (hc' : Clear a.rep D')
    (hx : look a.rep D = some x) (hy : look a.rep D' = some y) (hm : x.isMissing = false) (hxy : AlikeAt a x y) :
    (∃ z, r.getItem a.rep = .ok z ∧ r'.getItem a.rep = .ok z) ∧
      ∀ l, a.reportLoc ++ l ≠ [.name "schemas".toList] →
        is.errorsAt (a.reportLoc ++ l) = is'.errorsAt (a.reportLoc ++ l) := by
  have nm : ∀ v : Val, convVal v ≠ .missing → (convVal v).isMissing = false := by
    intro v hv
    generalize convVal v = w at hv
    cases w <;> first | rfl | exact absurd rfl hv
  have mx : convVal x ≠ .missing := by
    intro e
    cases x <;> simp [convVal, Val.isMissing] at e hm
  have my : convVal y ≠ .missing := fun e => mx (hxy.missing.mpr e)
  have gx := getItem_look hc hd.sub
  have gy := getItem_look hc' hd.sub
  rw [hx] at gx
  rw [hy] at gy
  have ep := hxy.process m a x y hd
  obtain ⟨t, -⟩ := process_spec hs rfl h
  obtain ⟨t', -⟩ := process_spec hs rfl h'
  obtain ⟨z, i, p1, p2⟩ := t.present a ha _ gx (nm _ mx)
  obtain ⟨z', i', q1, q2⟩ := t'.present a ha _ gy (nm _ my)
  have : z = z' ∧ i = i' := by
    rw [ep, q1] at p1
    cases p1
    exact ⟨rfl, rfl⟩
  obtain ⟨rfl, rfl⟩ := this
  refine ⟨⟨z, p2, q2⟩, fun l hl => ?_⟩
  obtain ⟨w, j, w1, w2⟩ := (C82_locations m s hs hsane _ r is (.inr rfl) h).1 a ha _ gx (nm _ mx)
  obtain ⟨w', j', w1', w2'⟩ := (C82_locations m s hs hsane _ r' is' (.inr rfl) h').1 a ha _ gy (nm _ my)
  rw [w2 l hl, w2' l hl]
  rw [ep, w1'] at w1
  cases w1
  rfl

/-- **C109** Requests to create or replace a resource are answered alike for such bodies. -/
theorem C109_requests (s : Schema) (hd : DirectAll .parse s.attrs.top) (D D' : List (Str × Val))
    (h : AlikeIn s.attrs.top D D') (headers query : Val) :
    V.parsePost s (.dict D) headers query = V.parsePost s (.dict D') headers query ∧
    V.parsePut s (.dict D) headers query = V.parsePut s (.dict D') headers query := by
  have e := AlikeIn.process hd h
  constructor
  · unfold V.parsePost V.parseBody Schema.parse; rw [e]
  · unfold V.parsePut V.parseBody Schema.parse; rw [e]

/-- **C109** So are responses with a resource. -/
theorem C109_responses (s : Schema) (hd : DirectAll .dump s.attrs.top) (D D' : List (Str × Val))
    (h : AlikeIn s.attrs.top D D') (status : Int) (headers : Val) (c : Option Checker) :
    V.dumpGet s status (.dict D) headers c = V.dumpGet s status (.dict D') headers c ∧
    V.dumpPatch s status (.dict D) headers c = V.dumpPatch s status (.dict D') headers c ∧
    (D ≠ [] → D' ≠ [] → V.dumpPost s status (.dict D) headers c = V.dumpPost s status (.dict D') headers c) := by
  have e := AlikeIn.process hd h
  have er : ∀ lr ex, V.dumpResource s lr ex status (.dict D) headers c = V.dumpResource s lr ex status (.dict D') headers c := by
    intro lr ex
    unfold V.dumpResource Schema.dump
    rw [e]
  refine ⟨er _ _, ?_, fun h1 h2 => ?_⟩
  · unfold V.dumpPatch; rw [er]
  · have t1 : (Val.dict D).truthy = true := by cases D <;> first | rfl | exact absurd rfl h1
    have t2 : (Val.dict D').truthy = true := by cases D' <;> first | rfl | exact absurd rfl h2
    unfold V.dumpPost
    rw [if_pos t1, if_pos t2, er]

/-! ## Users and groups -/

/-- Attributes declared as usual are direct. -/
theorem direct_of_standard {m : Mode} : ∀ (a : Attr), a.Standard m → a.typed = true → a.rep.sub = [] → Direct m a
  | .simple i, _, ht, hs => by
    simp only [Attr.typed, Bool.and_eq_true, bne_iff_ne, ne_eq] at ht
    unfold Direct
    exact ⟨hs, ht.1, ht.2⟩
  | .complex i subs ps ds, h, ht, hs => by
    unfold Attr.Standard at h
    unfold Attr.typed at ht
    unfold Direct
    obtain ⟨-, -, h1, -, h2, h3⟩ := h
    exact ⟨hs, h1, directAll_of_standard subs h3 ht (fun s hm => (h2.plain s hm).2.1), fun s hm => (h2.plain s hm).1⟩
where
  /-- all attributes -/
  directAll_of_standard {m : Mode} : ∀ (as : List Attr), StandardAll m as → typedAll as = true → (∀ a ∈ as, a.rep.sub = []) →
      DirectAll m as
    | [], _, _, _ => by unfold DirectAll; trivial
    | a :: as, h, ht, hs => by
      unfold StandardAll at h
      simp only [typedAll, Bool.and_eq_true] at ht
      unfold DirectAll
      exact ⟨direct_of_standard a h.1 ht.1 (hs a (List.mem_cons_self ..)),
        directAll_of_standard as h.2 ht.2 (fun b hb => hs b (List.mem_cons_of_mem _ hb))⟩

/-- `DirectAll` in words. -/
theorem directAll_iff {m : Mode} {as : List Attr} : DirectAll m as ↔ ∀ a ∈ as, Direct m a := by
  induction as with
  | nil => unfold DirectAll; simp
  | cons a r ih => unfold DirectAll; simp [ih]

/-- The attributes of users are direct. -/
theorem user_direct {m : Mode} : DirectAll m userSchema.attrs.top :=
  direct_of_standard.directAll_of_standard _ user_standard user_listable.typed user_wf.sub

attribute [local irreducible] GroupA.schema in
/-- So are those of groups. -/
theorem group_direct {m : Mode} : DirectAll m GroupA.schema.attrs.top :=
  direct_of_standard.directAll_of_standard _ group_standard group_typed group_wf.sub

/-- **C109** Users: requests that create or replace one give the same result when names are spelled or entries are ordered
differently, on any level.  (Nothing is nested under the URN of users; if there is something under the URN of the extension, then
an object without an empty name.) -/
theorem C109_users (D D' : List (Str × Val)) (h : Respelt (.dict D) (.dict D')) (hcore : found userSchema.urn D = none)
    (hext : ∀ u ∈ userSchema.exts.map (·.1), found u D = none ∨ ∃ E, found u D = some (.dict E) ∧ found [] E = none)
    (headers query : Val) :
    V.parsePost userSchema (.dict D) headers query = V.parsePost userSchema (.dict D') headers query ∧
    V.parsePut userSchema (.dict D) headers query = V.parsePut userSchema (.dict D') headers query := by
  refine C109_requests _ user_direct D D' (h.top _ (m := .parse) user_direct fun a ha => ?_) headers query
  cases e : a.rep.ext with
  | false => left; rw [user_wf.core a ha e]; exact hcore
  | true => exact hext _ (user_wf.ext a ha e)

end Scim

/-! ## Concrete cases (ASCII run-time library) -/

namespace Scim.Examples.Declared
open Scim.Declared

local instance declaredEnv : PyEnv := asciiEnv

/-- A user. -/
def exOne : List (Str × Val) :=
  [("schemas".toList, .list [.str UserA.urn]), ("userName".toList, .str "jane".toList),
   ("name".toList, .dict [("givenName".toList, .str "Jane".toList), ("familyName".toList, .str "Doe".toList)]),
   ("emails".toList, .list [.dict [("value".toList, .str "j@x".toList), ("primary".toList, .bool true)], .int 7])]

/-- The same user: names spelled differently, entries in another order. -/
def exTwo : List (Str × Val) :=
  [("EMAILS".toList, .list [.dict [("Primary".toList, .bool true), ("VALUE".toList, .str "j@x".toList)], .int 7]),
   ("Name".toList, .dict [("familyname".toList, .str "Doe".toList), ("givenname".toList, .str "Jane".toList)]),
   ("username".toList, .str "jane".toList), ("Schemas".toList, .list [.str UserA.urn])]

theorem exRespelt : Respelt (.dict exOne) (.dict exTwo) := by
  refine C109_entries _ _ (by decide +kernel) (by decide +kernel) ?_ ?_
  · intro k v h
    simp only [exOne, List.mem_cons, Prod.mk.injEq, List.not_mem_nil, or_false] at h
    rcases h with ⟨rfl, rfl⟩ | ⟨rfl, rfl⟩ | ⟨rfl, rfl⟩ | ⟨rfl, rfl⟩
    · exact ⟨"Schemas".toList, _, by simp [exTwo], by decide +kernel, .same _⟩
    · exact ⟨"username".toList, _, by simp [exTwo], by decide +kernel, .same _⟩
    · refine ⟨"Name".toList, .dict [("familyname".toList, .str "Doe".toList), ("givenname".toList, .str "Jane".toList)],
        by simp [exTwo], by decide +kernel, C109_entries _ _ (by decide +kernel) (by decide +kernel) ?_ ?_⟩
      · intro k v h
        simp only [List.mem_cons, Prod.mk.injEq, List.not_mem_nil, or_false] at h
        rcases h with ⟨rfl, rfl⟩ | ⟨rfl, rfl⟩
        · exact ⟨"givenname".toList, _, by simp, by decide +kernel, .same _⟩
        · exact ⟨"familyname".toList, _, by simp, by decide +kernel, .same _⟩
      · intro k v h
        simp only [List.mem_cons, Prod.mk.injEq, List.not_mem_nil, or_false] at h
        rcases h with ⟨rfl, rfl⟩ | ⟨rfl, rfl⟩
        · exact ⟨"familyName".toList, by simp, by decide +kernel⟩
        · exact ⟨"givenName".toList, by simp, by decide +kernel⟩
    · refine ⟨"EMAILS".toList, .list [.dict [("Primary".toList, .bool true), ("VALUE".toList, .str "j@x".toList)], .int 7],
        by simp [exTwo], by decide +kernel, .list _ _ rfl ?_⟩
      intro i x y hx hy
      match i, hx, hy with
      | 0, hx, hy =>
        cases hx
        cases hy
        refine C109_entries _ _ (by decide +kernel) (by decide +kernel) ?_ ?_
        · intro k v h
          simp only [List.mem_cons, Prod.mk.injEq, List.not_mem_nil, or_false] at h
          rcases h with ⟨rfl, rfl⟩ | ⟨rfl, rfl⟩
          · exact ⟨"VALUE".toList, _, by simp, by decide +kernel, .same _⟩
          · exact ⟨"Primary".toList, _, by simp, by decide +kernel, .same _⟩
        · intro k v h
          simp only [List.mem_cons, Prod.mk.injEq, List.not_mem_nil, or_false] at h
          rcases h with ⟨rfl, rfl⟩ | ⟨rfl, rfl⟩
          · exact ⟨"primary".toList, by simp, by decide +kernel⟩
          · exact ⟨"value".toList, by simp, by decide +kernel⟩
      | 1, hx, hy => cases hx; cases hy; exact .same _
      | i + 2, hx, hy => simp at hx
  · intro k v h
    simp only [exTwo, List.mem_cons, Prod.mk.injEq, List.not_mem_nil, or_false] at h
    rcases h with ⟨rfl, rfl⟩ | ⟨rfl, rfl⟩ | ⟨rfl, rfl⟩ | ⟨rfl, rfl⟩
    · exact ⟨"emails".toList, by simp [exOne], by decide +kernel⟩
    · exact ⟨"name".toList, by simp [exOne], by decide +kernel⟩
    · exact ⟨"userName".toList, by simp [exOne], by decide +kernel⟩
    · exact ⟨"schemas".toList, by simp [exOne], by decide +kernel⟩

theorem exPlain (u : Str) (h : u ∈ userSchema.urn :: userSchema.exts.map (·.1)) : found u exOne = none := by
  revert u
  have : ∀ u ∈ userSchema.urn :: userSchema.exts.map (·.1), (found u exOne).isNone = true := by decide +kernel
  exact fun u h => Option.isNone_iff_eq_none.mp (this u h)

/-- The two requests give the same. -/
example (headers query : Val) : V.parsePost userSchema (.dict exOne) headers query = V.parsePost userSchema (.dict exTwo) headers query :=
  (C109_users _ _ exRespelt (exPlain _ (List.mem_cons_self ..))
    (fun u hu => .inl (exPlain u (List.mem_cons_of_mem _ hu))) headers query).1

/-- What the first of them gives: one issue, about the second of the e-mail addresses. -/
example : (match V.parsePost userSchema (.dict exOne) .null .null with
    | .ok (_, is) => is.issues.map (fun e => (e.1, e.2.map (·.code)))
    | .error _ => []) = [([.name "body".toList, .name "emails".toList, .idx 1], [2])] := by decide +kernel

/-- An undeclared attribute in the middle does not matter. -/
example : userSchema.process .parse (.dict (exOne.take 2 ++ ("shoeSize".toList, .dict [([], .int 1)]) :: exOne.drop 2)) =
    userSchema.process .parse (.dict exOne) := by
  refine (C109_undeclared .parse userSchema user_direct (exOne.take 2) (exOne.drop 2) _ _ (by decide +kernel) fun a ha => ?_)
  left
  refine exPlain _ ?_
  revert a
  decide +kernel

/-- Another user with the same name, and little else in order. -/
def exOther : List (Str × Val) :=
  [("emails".toList, .int 3), ("USERNAME".toList, .str "jane".toList), ("name".toList, .list []), ("active".toList, .null)]

/-- Attributes are read apart: the name is the same, and so is what is reported about it. -/
example (r r' : Val) (is is' : Issues) (h : userSchema.process .parse (.dict exOne) = .ok (r, is))
    (h' : userSchema.process .parse (.dict exOther) = .ok (r', is')) (a : Attr) (ha : a ∈ userSchema.attrs.top)
    (hn : a.rep.attr = "userName".toList) : ∃ z, r.getItem a.rep = .ok z ∧ r'.getItem a.rep = .ok z := by
  have key : ∀ a ∈ userSchema.attrs.top, a.rep.attr = "userName".toList → (found a.rep.schema exOne).isNone = true ∧
      (found a.rep.schema exOther).isNone = true ∧ look a.rep exOne = some (.str "jane".toList) ∧
      look a.rep exOther = some (.str "jane".toList) := by decide +kernel
  obtain ⟨k1, k2, k3, k4⟩ := key a ha hn
  exact (C109_apart .parse userSchema user_wf (saneAll_iff.mpr fun b hb => saneAll_iff.mp user_sane b (user_wf.top_all b hb))
    exOne exOther r r' is is' h h' a ha (directAll_iff.mp user_direct a ha) _ _ (.inl (Option.isNone_iff_eq_none.mp k1))
    (.inl (Option.isNone_iff_eq_none.mp k2)) k3 k4 rfl (AlikeAt.refl a _)).1

/-- Both are read, and such an attribute exists. -/
example : (match userSchema.process .parse (.dict exOne), userSchema.process .parse (.dict exOther) with
      | .ok _, .ok _ => true
      | _, _ => false) = true ∧ ∃ a ∈ userSchema.attrs.top, a.rep.attr = "userName".toList := by decide +kernel

/-- **C109** Why the names must be distinct up to letter case: otherwise the last one counts, so the order matters. -/
theorem C109_order_duplicates :
    let one : List (Str × Val) := [("userName".toList, .str "a".toList), ("USERNAME".toList, .str "b".toList)]
    let name := fun (D : List (Str × Val)) => match userSchema.process .parse (.dict D) with
      | .ok (r, _) => (match r.getItem { attr := "userName".toList } with | .ok v => some v | .error _ => none)
      | .error _ => none
    name one = some (.str "b".toList) ∧ name one.reverse = some (.str "a".toList) := by decide +kernel

/-- **C109** Why an undeclared attribute must not have the empty name: sub-attributes are looked for under the empty name first,
so it hides the others. -/
theorem C109_empty_name :
    let name := fun (D : List (Str × Val)) => match userSchema.process .parse (.dict [("name".toList, .dict D)]) with
      | .ok (r, _) => (match r.getItem { attr := "name".toList, sub := "givenName".toList } with | .ok v => some v | .error _ => none)
      | .error _ => none
    name [("givenName".toList, .str "Jane".toList)] = some (.str "Jane".toList) ∧
      name [("givenName".toList, .str "Jane".toList), ([], .dict [])] = some .missing := by decide +kernel

/-- **C109** Why both bodies of a response to a creation must be non-empty: an empty one may be left out, one with an undeclared
attribute may not. -/
theorem C109_empty_response :
    let codes := fun (D : List (Str × Val)) => match V.dumpPost userSchema 201 (.dict D) (.dict [("Location".toList, .str "https://x".toList)]) none with
      | .ok (_, is) => some is.issues.length
      | .error _ => none
    codes [] ≠ codes [("shoeSize".toList, .int 1)] := by decide +kernel

end Scim.Examples.Declared
