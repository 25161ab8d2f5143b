import Verif.Lemmas.Sorter
import Verif.Model.ListChecks

/-!
# C64–C66: sorting

The input is a list of resources `data`; `k i` is the sort key of the resource at position `i`, computed with the
given schema or schemas.  The result is described by the list of positions its resources had in the input.
-/

namespace Scim

variable [PyEnv]

/-- `k` gives the sort key of every resource. -/
def KeysOf (s : SorterCfg) (data : List Val) (schemas : SortSchemas) (k : Nat → SortKey) : Prop :=
  ∀ i x, data[i]? = some x → schemas.key s.rep data i x = .ok (k i)

omit [PyEnv] in
theorem getD_range (data : List Val) (d : Val) : (List.range data.length).map (fun i => data.getD i d) = data := by
  apply List.ext_getElem
  · simp
  · intro i h1 h2
    simp at h1
    simp [h1]

theorem order_cases {s : SorterCfg} {data : List Val} {schemas : SortSchemas} {is : List Nat}
    (h : s.order data schemas = .ok is) :
    (is = List.range data.length ∧ anyValue s.rep data = .ok false) ∨
      ∃ ks r, anyValue s.rep data = .ok true ∧ keysFrom (schemas.key s.rep data) 0 data = .ok ks ∧
        sortedPairs (!s.asc) ks = .ok r ∧ is = r.map (·.2) := by
  unfold SorterCfg.order at h
  split at h
  · simp at h
  · injection h with h; exact .inl ⟨h.symm, by assumption⟩
  · split at h
    · simp at h
    · split at h
      · simp at h
      · injection h with h
        exact .inr ⟨_, _, by assumption, by assumption, by assumption, h.symm⟩

theorem keysFrom_of {s : SorterCfg} {data : List Val} {schemas : SortSchemas} {k : Nat → SortKey}
    (hk : KeysOf s data schemas k) :
    keysFrom (schemas.key s.rep data) 0 data = .ok ((List.range data.length).map (fun j => (k j, j))) := by
  have := keysFrom_ok (key := schemas.key s.rep data) (k := k) (i := 0) (xs := data)
    (fun j x hx => by rw [Nat.zero_add]; exact hk j x hx)
  rwa [← List.range_eq_range'] at this

/-- **C64** When sorting does not raise, the result consists of the given resources, each once. -/
theorem C64_permutation (s : SorterCfg) (data : List Val) (schemas : SortSchemas) (r : List Val)
    (h : s.call data schemas = .ok r) : r.Perm data := by
  unfold SorterCfg.call at h
  split at h
  · simp at h
  · rename_i is ho
    injection h with h; subst h
    have hp : is.Perm (List.range data.length) := by
      rcases order_cases ho with ⟨rfl, -⟩ | ⟨ks, r, -, hk, hs, rfl⟩
      · exact .refl _
      · have := (keysFrom_spec hk).1
        rw [← List.range_eq_range'] at this
        rw [← this]
        exact (sortedPairs_perm hs).map _
    have := hp.map (fun i => data.getD i .missing)
    rwa [getD_range] at this

theorem order_pairwise (s : SorterCfg) (data : List Val) (schemas : SortSchemas) (k : Nat → SortKey)
    (hk : KeysOf s data schemas k) (c : Bool) (hpl : ∀ i < data.length, (k i).Plain c)
    (is : List Nat) (ho : s.order data schemas = .ok is) : is.Pairwise (Before s.asc k) := by
  rcases order_cases ho with ⟨rfl, ha⟩ | ⟨ks, r, -, hks, hs, rfl⟩
  · have hl : ∀ i < data.length, k i = .last := by
      intro i hi
      obtain ⟨v, hv, ht⟩ := anyValue_false ha _ (List.getElem_mem hi)
      exact schemasKey_falsy hv ht (hk i _ (List.getElem?_eq_getElem hi))
    refine List.Pairwise.imp_of_mem ?_ (List.pairwise_lt_range)
    intro a b ha hb hab
    rw [List.mem_range] at ha hb
    unfold Before
    rw [hl a ha, hl b hb]
    split <;> exact ⟨trivial, fun _ => hab⟩
  · rw [keysFrom_of hk] at hks
    injection hks with hks; subst hks
    have hsp := sortedPairs_spec (c := c) (asc := s.asc) (ps := (List.range data.length).map (fun j => (k j, j)))
      (by
        intro p hp
        obtain ⟨j, hj, rfl⟩ := List.mem_map.mp hp
        exact hpl j (List.mem_range.mp hj))
      (by
        rw [List.pairwise_map]
        exact List.pairwise_lt_range) hs
    rw [List.pairwise_map]
    refine List.Pairwise.imp_of_mem ?_ hsp
    intro p q hp hq hpq
    have hf : ∀ p ∈ r, p.1 = k p.2 := by
      intro p hp
      obtain ⟨j, hj, rfl⟩ := List.mem_map.mp ((sortedPairs_perm hs).mem_iff.mp hp)
      rfl
    unfold Before
    rw [← hf p hp, ← hf q hq]
    exact hpq

/-- **C64** … in the order of the sort keys (reversed when descending), resources with equal keys in their original
order.  `is` are the positions of the resources of the result in the input. -/
theorem C64_sorted (s : SorterCfg) (data : List Val) (schemas : SortSchemas) (k : Nat → SortKey)
    (hk : KeysOf s data schemas k) (c : Bool) (hpl : ∀ i < data.length, (k i).Plain c)
    (r : List Val) (h : s.call data schemas = .ok r) :
    ∃ is : List Nat, is.Perm (List.range data.length) ∧ r = is.map (fun i => data.getD i .missing) ∧
      is.Pairwise (Before s.asc k) := by
  unfold SorterCfg.call at h
  split at h
  · simp at h
  · rename_i is ho
    injection h with h; subst h
    refine ⟨is, ?_, rfl, order_pairwise s data schemas k hk c hpl is ho⟩
    rcases order_cases ho with ⟨rfl, -⟩ | ⟨ks, r, -, hk, hs, rfl⟩
    · exact .refl _
    · have := (keysFrom_spec hk).1
      rw [← List.range_eq_range'] at this
      rw [← this]
      exact (sortedPairs_perm hs).map _

/-- **C64** The order described by `C64_sorted` determines the result: it does not depend on the sorting
algorithm. -/
theorem C64_unique (asc : Bool) (k : Nat → SortKey) (is js : List Nat) (hp : is.Perm js)
    (hi : is.Pairwise (Before asc k)) (hj : js.Pairwise (Before asc k)) : is = js := by
  refine hp.eq_of_pairwise ?_ hi hj
  intro a b _ _ hab hba
  exfalso
  unfold Before at hab hba
  cases asc <;> simp only [if_true, Bool.false_eq_true, if_false] at hab hba
  · have := hab.2 hba.1
    have := hba.2 hab.1
    omega
  · have := hab.2 hba.1
    have := hba.2 hab.1
    omega

/-- **C64** Sorting does not raise when the attribute of every resource can be read and the keys can be
compared. -/
theorem C64_total (s : SorterCfg) (data : List Val) (schemas : SortSchemas) (k : Nat → SortKey)
    (hk : KeysOf s data schemas k) (c : Bool) (hpl : ∀ i < data.length, (k i).Plain c)
    (hr : ∀ x ∈ data, ∃ v, x.getItem s.rep = .ok v)
    (hc : ∀ i < data.length, ∀ j < data.length, KeyLe (k i) (k j) ∨ KeyLe (k j) (k i)) :
    ∃ r, s.call data schemas = .ok r := by
  have ha : ∀ xs : List Val, (∀ x ∈ xs, ∃ v, x.getItem s.rep = .ok v) → ∃ b, anyValue s.rep xs = .ok b := by
    intro xs
    induction xs with
    | nil => intro _; exact ⟨_, rfl⟩
    | cons x xs ih =>
      intro h
      obtain ⟨v, hv⟩ := h x (List.mem_cons_self ..)
      obtain ⟨b, hb⟩ := ih (fun y hy => h y (List.mem_cons_of_mem _ hy))
      simp only [anyValue, hv]
      split
      · exact ⟨_, rfl⟩
      · exact ⟨b, hb⟩
  obtain ⟨b, hb⟩ := ha data hr
  unfold SorterCfg.call SorterCfg.order
  rw [hb]
  cases b with
  | false => exact ⟨_, rfl⟩
  | true =>
    obtain ⟨r, hr⟩ := sortedPairs_ok (rv := !s.asc) (ps := (List.range data.length).map (fun j => (k j, j)))
      (by
        intro p hp q hq
        obtain ⟨i, hi, rfl⟩ := List.mem_map.mp hp
        obtain ⟨j, hj, rfl⟩ := List.mem_map.mp hq
        rw [List.mem_range] at hi hj
        exact key_lt_ok (hpl i hi) (hpl j hj) (hc i hi j hj))
    rw [keysFrom_of hk]
    simp only [hr]
    exact ⟨_, rfl⟩

/-- With a single schema all string keys have the case sensitivity of one attribute. -/
theorem sortKey_flag (rep : AttrRep) (sch : Schema) : ∃ c : Bool, ∀ item s e, sortKey rep sch item = .ok (.str s e) →
    e = c := by
  cases ha : sch.attrs.get rep with
  | none => exact ⟨true, fun item s e h => by simp [sortKey, ha] at h⟩
  | some a =>
    have hkey : ∀ {v : Val} {o : Option AttrInfo} {s e}, sortKeyOf v o = .str s e → ∃ i, o = some i ∧ e = i.caseExact := by
      intro v o s e h
      cases o with
      | none => simp [sortKeyOf] at h
      | some i =>
        simp only [sortKeyOf] at h
        split at h
        · simp at h
        · split at h
          · split at h
            · injection h with _ h; exact ⟨i, rfl, h.symm⟩
            · simp at h
          · simp at h
    have hprim : ∀ (subs : List Attr) (i : AttrInfo) (items : List Val) v o, primaryKey subs i items = .ok (v, o) →
        v.truthy = true → o = (subs.find? (fun s => lower s.rep.attr == valueWord)).map Attr.info := by
      intro subs i items
      induction items with
      | nil =>
        intro v o h ht
        simp only [primaryKey, Except.ok.injEq, Prod.mk.injEq] at h
        rw [← h.1] at ht
        simp [Val.truthy, Val.null] at ht
      | cons x xs ih =>
        intro v o h ht
        simp only [primaryKey] at h
        split at h
        · simp at h
        · split at h
          · split at h
            · simp at h
            · simp only [Except.ok.injEq, Prod.mk.injEq] at h
              exact h.2.symm
          · exact ih v o h ht
    have hval : ∃ oc : Option AttrInfo, ∀ x v o, sortValue a x = .ok (v, o) → v.truthy = true → o = oc ∨ o = some a.info ∧
        (a.info.multi = false ∨ x.isMissing = true) := by
      cases a with
      | simple i =>
        refine ⟨some i, fun x v o h ht => ?_⟩
        unfold sortValue at h
        split at h
        · simp only [] at h
          split at h
          · simp at h
          · simp only [Except.ok.injEq, Prod.mk.injEq] at h
            exact .inl h.2.symm
        · simp only [Except.ok.injEq, Prod.mk.injEq] at h
          exact .inl h.2.symm
      | complex i subs ps ds =>
        refine ⟨(subs.find? (fun s => lower s.rep.attr == valueWord)).map Attr.info, fun x v o h ht => ?_⟩
        unfold sortValue at h
        split at h
        · simp only [] at h
          split at h
          · simp at h
          · exact .inl (hprim _ _ _ _ _ h ht)
        · rename_i hc
          simp only [Except.ok.injEq, Prod.mk.injEq] at h
          simp only [Bool.and_eq_true, Bool.not_eq_true', not_and, Bool.not_eq_true] at hc
          refine .inr ⟨h.2.symm, ?_⟩
          cases hm : x.isMissing
          · exact .inl (hc hm)
          · exact .inr rfl
    obtain ⟨oc, hoc⟩ := hval
    have hfind : ∀ item s e, sortKey rep sch item = .ok (.str s e) →
        ∃ x v o i, sortValue a x = .ok (v, o) ∧ v.truthy = true ∧ o = some i ∧ e = i.caseExact ∧ x.isMissing = false := by
      intro item s e h
      unfold sortKey at h
      rw [ha] at h
      simp only [] at h
      split at h
      · simp at h
      · rename_i x hx
        split at h
        · simp at h
        · rename_i v o hv
          injection h with h
          have ht : v.truthy = true := by
            cases hh : v.truthy with
            | true => rfl
            | false => rw [sortKeyOf_falsy hh] at h; simp at h
          obtain ⟨i, hi, he⟩ := hkey h
          refine ⟨x, v, o, i, hv, ht, hi, he, ?_⟩
          cases hm : x.isMissing with
          | false => rfl
          | true =>
            cases x <;> simp [Val.isMissing] at hm
            unfold sortValue at hv
            simp only [Val.isMissing, Bool.not_true, Bool.false_and, Bool.false_eq_true, if_false,
              Except.ok.injEq, Prod.mk.injEq] at hv
            rw [← hv.1] at ht
            simp [Val.truthy] at ht
    by_cases hm : a.info.multi = false
    · refine ⟨a.info.caseExact, fun item s e h => ?_⟩
      obtain ⟨x, v, o, i, hv, ht, rfl, rfl, hmi⟩ := hfind item s e h
      unfold sortValue at hv
      rw [hm] at hv
      simp only [Bool.and_false, Bool.false_eq_true, if_false, Except.ok.injEq, Prod.mk.injEq, Option.some.injEq] at hv
      rw [hv.2]
    · cases oc with
      | none =>
        refine ⟨true, fun item s e h => ?_⟩
        obtain ⟨x, v, o, i, hv, ht, rfl, rfl, hmi⟩ := hfind item s e h
        rcases hoc x v _ hv ht with h | ⟨-, h | h⟩
        · simp at h
        · exact absurd h hm
        · rw [hmi] at h; simp at h
      | some j =>
        refine ⟨j.caseExact, fun item s e h => ?_⟩
        obtain ⟨x, v, o, i, hv, ht, rfl, rfl, hmi⟩ := hfind item s e h
        rcases hoc x v _ hv ht with h | ⟨-, h | h⟩
        · injection h with h; rw [h]
        · exact absurd h hm
        · rw [hmi] at h; simp at h

/-! ## C65 -/

omit [PyEnv] in
theorem usable_iff (v : Val) (i : AttrInfo) : sortKeyOf v (some i) ≠ .last ↔ UsableValue i v := by
  unfold sortKeyOf UsableValue
  cases ht : v.truthy with
  | false => simp
  | true =>
    simp only [Bool.not_true, Bool.false_eq_true, if_false, true_and]
    split
    · rename_i s
      by_cases hty : i.type = .string
      · simp [hty]
      · simp only [hty, if_false, ne_eq, not_true, false_iff]
        exact fun hh => hh s rfl
    · rename_i hns
      simp only [ne_eq, reduceCtorEq, not_false_eq_true, true_iff]
      intro s hs
      exact absurd hs (hns s)

theorem primaryKey_found {subs : List Attr} {j : AttrInfo} {pre post : List Val} {y v : Val}
    (hpre : ∀ z ∈ pre, ∃ p, z.subscript primaryWord = .ok p ∧ p ≠ .bool true)
    (hy : y.subscript primaryWord = .ok (.bool true)) (hv : y.subscript valueWord = .ok v) :
    primaryKey subs j (pre ++ y :: post) =
      .ok (v, (subs.find? (fun s => lower s.rep.attr == valueWord)).map Attr.info) := by
  induction pre with
  | nil => simp only [List.nil_append, primaryKey, hy, Val.isTrue, Val.bool, if_true, hv]
  | cons z pre ih =>
    obtain ⟨p, hp, hne⟩ := hpre z (by simp)
    have hnt : p.isTrue = false := by
      cases hh : p.isTrue with
      | false => rfl
      | true => exact absurd (by
          rcases p with (_ | (_|_) | _ | _ | _) | _ | _ | _ | _ | _ | _ | _ <;> simp_all [Val.isTrue, Val.bool]) hne
    simp only [List.cons_append, primaryKey, hp, hnt, Bool.false_eq_true, if_false]
    exact ih (fun z hz => hpre z (List.mem_cons_of_mem _ hz))

/-- **C64** What the resources are compared by: the usable value of the attribute, and for texts letter case counts
exactly if the attribute says so. -/
theorem C64_key (rep : AttrRep) (sch : Schema) (item : Val) (i : AttrInfo) (v : Val) (h : SortedBy rep sch item i v)
    (hu : UsableValue i v) : sortKey rep sch item = .ok (keyFor i v) := by
  have hk : sortKeyOf v (some i) = keyFor i v := by
    unfold sortKeyOf
    simp only [hu.1, Bool.not_true, Bool.false_eq_true, if_false]
    split
    · rename_i s
      rw [if_pos (hu.2 s rfl)]
      rfl
    · rename_i hns
      unfold keyFor
      split
      · exact absurd rfl (hns _)
      · rfl
  obtain ⟨a, x, ha, hx, h⟩ := h
  have hs : sortValue a x = .ok (v, some i) := by
    unfold sortValue
    rcases h with ⟨hm, rfl, rfl⟩ | ⟨hm, hc, rfl, ys, rfl⟩ | ⟨hm, hc, pre, y, post, sub, rfl, hpre, hy, hv, hf, rfl⟩
    · simp only [hm, Bool.and_false, Bool.false_eq_true, if_false]
    · cases a with
      | complex j subs ps ds => simp [Attr.isComplex] at hc
      | simple j =>
        have hm' : j.multi = true := hm
        simp only [Val.isMissing, Bool.not_false, hm', Bool.and_self, if_true, Val.first, Attr.info]
    · cases a with
      | simple j => simp [Attr.isComplex] at hc
      | complex j subs ps ds =>
        simp only [Val.isMissing, Bool.not_false, hm, Bool.and_self, if_true, Val.iterate]
        rw [primaryKey_found hpre hy hv]
        have : subs.find? (fun s => lower s.rep.attr == valueWord) = some sub := hf
        rw [this]
        rfl
  unfold sortKey
  rw [ha, hx]
  simp only [hs, hk]

/-- **C65** The resources that are sorted last are those without a usable value (for attributes with several
values, the value read must be a list, as it is after validation). -/
theorem C65_key (rep : AttrRep) (sch : Schema) (item : Val) (k : SortKey) (h : sortKey rep sch item = .ok k)
    (hl : ∀ a x, sch.attrs.get rep = some a → a.info.multi = true → item.getItem rep = .ok x →
      x = .missing ∨ ∃ xs, x = .list xs) :
    k ≠ .last ↔ HasSortValue rep sch item := by
  unfold sortKey at h
  unfold HasSortValue
  cases ha : sch.attrs.get rep with
  | none =>
    rw [ha] at h
    injection h with h; subst h
    simp
  | some a =>
    rw [ha] at h
    cases hx : item.getItem rep with
    | error e => rw [hx] at h; simp at h
    | ok x =>
      rw [hx] at h
      simp only [] at h
      have hl := hl a x ha
      have : ∀ P : Attr → Val → Prop, (∃ a' x', some a = some a' ∧ (Except.ok x : PyM Val) = .ok x' ∧ P a' x') ↔ P a x := by
        intro P
        constructor
        · rintro ⟨a', x', h1, h2, h3⟩
          injection h1 with h1; injection h2 with h2
          subst h1 h2; exact h3
        · exact fun h => ⟨a, x, rfl, rfl, h⟩
      rw [this]
      split at h
      · simp at h
      · rename_i v o hv
        injection h with h; subst h
        unfold sortValue at hv
        cases hm : a.info.multi with
        | false =>
          rw [hm] at hv
          simp only [Bool.and_false, Bool.false_eq_true, if_false, Except.ok.injEq, Prod.mk.injEq] at hv
          obtain ⟨rfl, rfl⟩ := hv
          rw [usable_iff]
          simp
        | true =>
          rcases hl hm hx with rfl | ⟨xs, rfl⟩
          · simp only [Val.isMissing, Bool.not_true, Bool.false_and, Bool.false_eq_true, if_false, Except.ok.injEq,
              Prod.mk.injEq] at hv
            obtain ⟨rfl, rfl⟩ := hv
            rw [usable_iff]
            simp [UsableValue, Val.truthy]
          · rw [hm] at hv
            simp only [Val.isMissing, Bool.not_false, Bool.true_and, if_true] at hv
            cases a with
            | simple i =>
              simp only [] at hv
              cases xs with
              | nil => simp [Val.first] at hv
              | cons y ys =>
                simp only [Val.first, Except.ok.injEq, Prod.mk.injEq] at hv
                obtain ⟨rfl, rfl⟩ := hv
                rw [usable_iff]
                simp [Attr.isComplex, Attr.info]
            | complex i subs ps ds =>
              simp only [Val.iterate] at hv
              have key : ∀ (pre ys : List Val), (∀ z ∈ pre, ∃ p, z.subscript primaryWord = .ok p ∧ p ≠ .bool true) →
                  primaryKey subs i ys = .ok (v, o) → 
                  (sortKeyOf v o ≠ .last ↔ ∃ pre' y post, pre ++ ys = pre' ++ y :: post ∧
                    (∀ z ∈ pre', ∃ p, z.subscript primaryWord = .ok p ∧ p ≠ .bool true) ∧
                    y.subscript primaryWord = .ok (.bool true) ∧
                    ∃ v sub, y.subscript valueWord = .ok v ∧
                      subs.find? (fun s => lower s.rep.attr == valueWord) = some sub ∧ UsableValue sub.info v) := by
                intro pre ys
                induction ys generalizing pre with
                | nil =>
                  intro hpre hp
                  simp only [primaryKey, Except.ok.injEq, Prod.mk.injEq] at hp
                  obtain ⟨rfl, rfl⟩ := hp
                  simp only [sortKeyOf_falsy (v := .null) rfl, ne_eq, not_true, false_iff, List.append_nil]
                  rintro ⟨pre', y, post, rfl, -, hy, -⟩
                  obtain ⟨p, hp, hne⟩ := hpre y (by simp)
                  rw [hy] at hp; injection hp with hp
                  exact hne hp.symm
                | cons y ys ih =>
                  intro hpre hp
                  simp only [primaryKey] at hp
                  split at hp
                  · simp at hp
                  · rename_i p hyp
                    by_cases hpt : p = .bool true
                    · subst hpt
                      simp only [Val.isTrue, if_true] at hp
                      split at hp
                      · simp at hp
                      · rename_i w hw
                        simp only [Except.ok.injEq, Prod.mk.injEq] at hp
                        obtain ⟨rfl, rfl⟩ := hp
                        constructor
                        · intro hne
                          refine ⟨pre, y, ys, rfl, hpre, hyp, w, ?_⟩
                          cases hf : subs.find? (fun s => lower s.rep.attr == valueWord) with
                          | none => rw [hf] at hne; simp [sortKeyOf] at hne
                          | some sub =>
                            rw [hf] at hne
                            exact ⟨sub, hw, rfl, (usable_iff _ _).mp hne⟩
                        · rintro ⟨pre', y', post, he, hpre', hy', w', sub, hw', hf, hu⟩
                          have hyy : y = y' := by
                            rcases List.append_eq_append_iff.mp he with ⟨as, h1, h2⟩ | ⟨bs, h1, h2⟩
                            · cases as with
                              | nil => simp only [List.nil_append, List.cons.injEq] at h2; exact h2.1
                              | cons z as =>
                                simp only [List.cons_append, List.cons.injEq] at h2
                                obtain ⟨rfl, -⟩ := h2
                                obtain ⟨p, hp, hne⟩ := hpre' y (by rw [h1]; simp)
                                rw [hyp] at hp; injection hp with hp
                                exact absurd hp.symm hne
                            · cases bs with
                              | nil => simp only [List.nil_append, List.cons.injEq] at h2; exact h2.1.symm
                              | cons z bs =>
                                simp only [List.cons_append, List.cons.injEq] at h2
                                obtain ⟨rfl, -⟩ := h2
                                obtain ⟨p, hp, hne⟩ := hpre y' (by rw [h1]; simp)
                                rw [hy'] at hp; injection hp with hp
                                exact absurd hp.symm hne
                          subst hyy
                          rw [hw] at hw'; injection hw' with hw'
                          subst hw'
                          rw [hf]
                          exact (usable_iff _ _).mpr hu
                    · have hnt : p.isTrue = false := by
                        cases hh : p.isTrue with
                        | false => rfl
                        | true => exact absurd (by
                            rcases p with (_ | (_|_) | _ | _ | _) | _ | _ | _ | _ | _ | _ | _ <;> simp_all [Val.isTrue, Val.bool]) hpt
                      rw [hnt] at hp
                      simp only [Bool.false_eq_true, if_false] at hp
                      have := ih (pre ++ [y]) (by
                        intro z hz
                        rcases List.mem_append.mp hz with hz | hz
                        · exact hpre z hz
                        · simp only [List.mem_singleton] at hz
                          subst hz
                          exact ⟨p, hyp, hpt⟩) hp
                      simpa only [List.append_assoc, List.singleton_append] using this
              have := key [] xs (by simp) hv
              rw [this]
              simp only [List.nil_append, Attr.isComplex, Attr.info, Attr.subs, Bool.true_eq_false, Bool.false_eq_true,
                false_and, false_or, and_false, true_and, hm, Val.list.injEq]
              rfl

/-- **C65** In an ascending sort a resource without a usable value stands behind every resource with one, in a
descending sort before. -/
theorem C65_missing_last (s : SorterCfg) (data : List Val) (schemas : SortSchemas) (k : Nat → SortKey)
    (hk : KeysOf s data schemas k) (c : Bool) (hpl : ∀ i < data.length, (k i).Plain c)
    (r : List Val) (h : s.call data schemas = .ok r) :
    ∃ is : List Nat, is.Perm (List.range data.length) ∧ r = is.map (fun i => data.getD i .missing) ∧
      is.Pairwise (fun i j => if s.asc then k i = .last → k j = .last else k j = .last → k i = .last) := by
  obtain ⟨is, hp, hr, hs⟩ := C64_sorted s data schemas k hk c hpl r h
  refine ⟨is, hp, hr, hs.imp ?_⟩
  intro i j hij
  have hlast : ∀ a b : SortKey, KeyLe a b → a = .last → b = .last := by
    intro a b hab ha
    subst ha
    cases b with
    | last => rfl
    | str s e => simp [KeyLe] at hab
    | val v => cases v <;> simp [KeyLe] at hab
  unfold Before at hij
  split at hij
  · rename_i ha; rw [if_pos ha]; exact hlast _ _ hij.1
  · rename_i ha; rw [if_neg ha]; exact hlast _ _ hij.1

/-- **C65** With one schema: in an ascending sort no resource without a usable value stands before one with a
usable value, in a descending sort none stands behind. -/
theorem C65_without_value (s : SorterCfg) (data : List Val) (sch : Schema) (k : Nat → SortKey)
    (hk : KeysOf s data (.one sch) k) (c : Bool) (hpl : ∀ i < data.length, (k i).Plain c)
    (hl : ∀ item ∈ data, ∀ a x, sch.attrs.get s.rep = some a → a.info.multi = true → item.getItem s.rep = .ok x →
      x = .missing ∨ ∃ xs, x = .list xs)
    (r : List Val) (h : s.call data (.one sch) = .ok r) :
    r.Pairwise (fun x y =>
      if s.asc then HasSortValue s.rep sch y → HasSortValue s.rep sch x
      else HasSortValue s.rep sch x → HasSortValue s.rep sch y) := by
  obtain ⟨is, hp, rfl, hs⟩ := C65_missing_last s data (.one sch) k hk c hpl r h
  rw [List.pairwise_map]
  refine List.Pairwise.imp_of_mem ?_ hs
  intro i j hi hj hij
  have key : ∀ i, i ∈ is → (k i ≠ .last ↔ HasSortValue s.rep sch (data.getD i .missing)) := by
    intro i hi
    have hi' : i < data.length := by simpa using hp.mem_iff.mp hi
    have e : data.getD i .missing = data[i] := by simp [hi']
    rw [e]
    exact C65_key s.rep sch _ (k i) (hk i _ (List.getElem?_eq_getElem hi')) (hl _ (List.getElem_mem hi'))
  rw [← key i hi, ← key j hj]
  split at hij
  · rename_i ha; rw [if_pos ha]; exact fun hy hx => hy (hij hx)
  · rename_i ha; rw [if_neg ha]; exact fun hx hy => hx (hij hy)

/-! ## C66 -/

theorem single_key (sch : Schema) (rep : AttrRep) (data : List Val) (i : Nat) (x : Val) :
    (SortSchemas.one sch).key rep data i x = sortKey rep sch x := rfl

/-- A sorted list stays as it is. -/
theorem order_sorted (s : SorterCfg) (data : List Val) (sch : Schema)
    (hpl : ∀ x ∈ data, ∀ k, sortKey s.rep sch x = .ok k → ∃ c, k.Plain c)
    (r : List Val) (h : s.call data (.one sch) = .ok r) :
    s.order r (.one sch) = .ok (List.range r.length) := by
  -- if there is nothing to sort by, the list is returned as it is
  have h0 := h
  unfold SorterCfg.call at h
  split at h
  · simp at h
  rename_i is ho
  injection h with h
  rcases order_cases ho with ⟨rfl, ha⟩ | ⟨ks, ps, ha, hks, hs, rfl⟩
  · rw [getD_range] at h
    subst h
    exact ho
  · have hperm : r.Perm data := C64_permutation s data _ r h0
    obtain ⟨c0, hc0⟩ := sortKey_flag s.rep sch
    obtain ⟨hk1, hk2⟩ := keysFrom_spec hks
    -- the keys are those of the resources
    have hkeys : ∀ x ∈ data, ∃ k, sortKey s.rep sch x = .ok k ∧ k.Plain c0 := by
      intro x hx
      obtain ⟨i, hi, rfl⟩ := List.getElem_of_mem hx
      obtain ⟨k, hk, -⟩ := hk2 i _ (List.getElem?_eq_getElem hi)
      rw [single_key] at hk
      refine ⟨k, hk, ?_⟩
      obtain ⟨c, hc⟩ := hpl _ (List.getElem_mem hi) k hk
      cases k with
      | last => trivial
      | str t e => exact hc0 _ _ _ hk
      | val v => rcases v with (_|_|_|(_|_|_)|_)|_|_|_|_|_|_|_ <;> simp_all [SortKey.Plain]
    -- the attribute
    cases hattr : sch.attrs.get s.rep with
    | none =>
      -- not declared: nothing moves
      have hall : ∀ x, sortKey s.rep sch x = .ok .last := fun x => by simp [sortKey, hattr]
      have hK : KeysOf s data (.one sch) (fun _ => .last) := fun i x _ => hall x
      obtain ⟨is, hp, hr, hpw⟩ := C64_sorted s data (.one sch) (fun _ => .last) hK true (fun _ _ => trivial) r h0
      have : is = List.range data.length := by
        refine C64_unique s.asc (fun _ => .last) _ _ hp hpw ?_
        refine List.pairwise_lt_range.imp ?_
        intro a b hab
        unfold Before
        split <;> exact ⟨trivial, fun _ => hab⟩
      rw [this, getD_range] at hr
      subst hr
      have hsp := sortedPairs_of_sorted (c := true) (asc := s.asc)
        (ps := (List.range r.length).map (fun j => (SortKey.last, j)))
        (by
          intro p hp
          obtain ⟨j, hj, rfl⟩ := List.mem_map.mp hp
          exact True.intro)
        (by
          rw [List.pairwise_map]
          exact List.pairwise_lt_range.imp (fun _ => by split <;> trivial))
      unfold SorterCfg.order
      rw [ha]
      simp only []
      rw [keysFrom_of hK]
      simp only [hsp, List.map_map]
      congr 1
      exact List.map_id _
    | some a =>
      have hread : ∀ x ∈ data, ∃ v, x.getItem s.rep = .ok v := by
        intro x hx
        obtain ⟨k, hk, -⟩ := hkeys x hx
        unfold sortKey at hk
        rw [hattr] at hk
        cases hg : x.getItem s.rep with
        | error e => rw [hg] at hk; simp at hk
        | ok v => exact ⟨v, rfl⟩
      -- the key of each resource, as a function of its position in `r`
      let kr : Nat → SortKey := fun i => match sortKey s.rep sch (r.getD i .missing) with
        | .ok k => k
        | .error _ => .last
      have hkr : ∀ i x, r[i]? = some x → sortKey s.rep sch x = .ok (kr i) := by
        intro i x hx
        have hmem : x ∈ data := hperm.mem_iff.mp (List.mem_of_getElem? hx)
        obtain ⟨k, hk, -⟩ := hkeys x hmem
        have : r.getD i .missing = x := by simp [hx]
        simp only [kr, this, hk]
      have hK : KeysOf s r (.one sch) kr := hkr
      -- the order in `r`
      have hsorted : (List.range r.length).Pairwise
          (fun i j => if s.asc then KeyLe (kr i) (kr j) else KeyLe (kr j) (kr i)) := by
        let k : Nat → SortKey := fun i => match sortKey s.rep sch (data.getD i .missing) with
          | .ok k => k
          | .error _ => .last
        have hk : ∀ i x, data[i]? = some x → sortKey s.rep sch x = .ok (k i) := by
          intro i x hx
          obtain ⟨k', hk', -⟩ := hkeys x (List.mem_of_getElem? hx)
          have : data.getD i .missing = x := by simp [hx]
          simp only [k, this, hk']
        obtain ⟨is, hp, hr, hpw⟩ := C64_sorted s data (.one sch) k hk c0 (by
          intro i hi
          obtain ⟨k', hk', hpk⟩ := hkeys _ (List.getElem_mem hi)
          have := hk i _ (List.getElem?_eq_getElem hi)
          rw [this] at hk'; injection hk' with hk'
          rw [hk']; exact hpk) r h0
        rw [List.pairwise_iff_getElem] at hpw ⊢
        intro i j hi hj hij
        have hil : is.length = r.length := by rw [hr]; simp
        simp only [List.length_range] at hi hj
        have hkk : ∀ i (hi : i < r.length), kr i = k (is[i]'(by omega)) := by
          intro i hi
          have e : r.getD i .missing = data.getD (is[i]'(by omega)) .missing := by
            subst hr
            simp at hi
            simp [hi]
          simp only [kr, k, e]
        have := hpw i j (by omega) (by omega) hij
        simp only [List.getElem_range]
        rw [hkk i hi, hkk j hj]
        unfold Before at this
        split at this
        · rename_i ha; rw [if_pos ha]; exact this.1
        · rename_i ha; rw [if_neg ha]; exact this.1
      have hplr : ∀ i < r.length, (kr i).Plain c0 := by
        intro i hi
        have hx := hkr i _ (List.getElem?_eq_getElem hi)
        obtain ⟨k', hk', hpk⟩ := hkeys _ (hperm.mem_iff.mp (List.getElem_mem hi))
        rw [hx] at hk'; injection hk' with hk'
        rw [hk']; exact hpk
      have hsp := sortedPairs_of_sorted (c := c0) (asc := s.asc) (ps := (List.range r.length).map (fun j => (kr j, j)))
        (by
          intro p hp
          obtain ⟨j, hj, rfl⟩ := List.mem_map.mp hp
          exact hplr j (List.mem_range.mp hj))
        (by rw [List.pairwise_map]; exact hsorted)
      have hany : ∃ b, anyValue s.rep r = .ok b := by
        have : ∀ xs : List Val, (∀ x ∈ xs, ∃ v, x.getItem s.rep = .ok v) → ∃ b, anyValue s.rep xs = .ok b := by
          intro xs
          induction xs with
          | nil => intro _; exact ⟨_, rfl⟩
          | cons x xs ih =>
            intro h
            obtain ⟨v, hv⟩ := h x (List.mem_cons_self ..)
            obtain ⟨b, hb⟩ := ih (fun y hy => h y (List.mem_cons_of_mem _ hy))
            simp only [anyValue, hv]
            split
            · exact ⟨_, rfl⟩
            · exact ⟨b, hb⟩
        exact this r (fun x hx => hread x (hperm.mem_iff.mp hx))
      obtain ⟨b, hb⟩ := hany
      unfold SorterCfg.order
      rw [hb]
      cases b with
      | false => rfl
      | true =>
        simp only []
        rw [keysFrom_of hK]
        simp only [hsp, List.map_map]
        congr 1
        exact List.map_id _

/-- **C66** Sorting a sorted list changes nothing. -/
theorem C66_idempotent (s : SorterCfg) (data : List Val) (sch : Schema)
    (hpl : ∀ x ∈ data, ∀ k, sortKey s.rep sch x = .ok k → ∃ c, k.Plain c)
    (r : List Val) (h : s.call data (.one sch) = .ok r) :
    s.call r (.one sch) = .ok r := by
  unfold SorterCfg.call
  rw [order_sorted s data sch hpl r h]
  simp only []
  rw [getD_range]

theorem sameOrder_range' (data : List Val) (i n : Nat) : sameOrder data i (List.range' i n) = .ok true := by
  induction n generalizing i with
  | zero => rfl
  | succ n ih =>
    simp only [List.range'_succ, sameOrder, if_true]
    exact ih (i + 1)

theorem sameOrder_range (data : List Val) (n : Nat) : sameOrder data 0 (List.range n) = .ok true := by
  rw [List.range_eq_range']
  exact sameOrder_range' data 0 n

/-- **C66** The sortedness validation accepts the result of a sort. -/
theorem C66_result_accepted (s : SorterCfg) (data : List Val) (sch : Schema)
    (hpl : ∀ x ∈ data, ∀ k, sortKey s.rep sch x = .ok k → ∃ c, k.Plain c)
    (r : List Val) (h : s.call data (.one sch) = .ok r) :
    validateSorted s r (.one sch) = .ok {} := by
  unfold validateSorted
  rw [order_sorted s data sch hpl r h]
  simp only [sameOrder_range]
  rfl

theorem order_perm {s : SorterCfg} {data : List Val} {schemas : SortSchemas} {is : List Nat}
    (h : s.order data schemas = .ok is) : is.Perm (List.range data.length) := by
  rcases order_cases h with ⟨rfl, -⟩ | ⟨ks, r, -, hk, hs, rfl⟩
  · exact .refl _
  · have := (keysFrom_spec hk).1
    rw [← List.range_eq_range'] at this
    rw [← this]
    exact (sortedPairs_perm hs).map _

/-- If no resource equals another one, only the identical order is the same order. -/
theorem sameOrder_distinct {data : List Val}
    (hd : ∀ i < data.length, ∀ j < data.length, i ≠ j →
      (data.getD i .missing).pyEq (data.getD j .missing) = .ok false)
    (i : Nat) (is : List Nat) (hi : i + is.length = data.length) (his : ∀ j ∈ is, j < data.length) :
    sameOrder data i is = .ok (decide (is = List.range' i is.length)) := by
  induction is generalizing i with
  | nil => simp [sameOrder]
  | cons j js ih =>
    simp only [List.length_cons] at hi
    simp only [sameOrder, List.length_cons, List.range'_succ, List.cons.injEq]
    by_cases hij : i = j
    · subst hij
      simp only [if_true, true_and]
      exact ih (i + 1) (by omega) (fun x hx => his x (List.mem_cons_of_mem _ hx))
    · rw [if_neg hij, hd i (by omega) j (his j (List.mem_cons_self ..)) hij]
      have : ¬ (j = i) := fun h => hij h.symm
      simp [this]

/-- What comparing two orders of the same resources says when no comparison of two resources raises. -/
theorem sameOrder_spec {data : List Val} (hr : ∀ x ∈ data, x.pyEq x = .ok true)
    (ht : ∀ x ∈ data, ∀ y ∈ data, ∃ b, x.pyEq y = .ok b)
    (i : Nat) (is : List Nat) (hi : i + is.length = data.length) (his : ∀ j ∈ is, j < data.length) :
    (sameOrder data i is = .ok true ∧ ∀ k j, is[k]? = some j →
        (data.getD (i + k) .missing).pyEq (data.getD j .missing) = .ok true) ∨
      (sameOrder data i is = .ok false ∧ ∃ k j, is[k]? = some j ∧
        (data.getD (i + k) .missing).pyEq (data.getD j .missing) = .ok false) := by
  have hm : ∀ n, n < data.length → data.getD n .missing ∈ data := by
    intro n hn
    rw [List.getD_eq_getElem?_getD, List.getElem?_eq_getElem hn]
    exact List.getElem_mem hn
  induction is generalizing i with
  | nil => exact .inl ⟨rfl, by simp⟩
  | cons j js ih =>
    simp only [List.length_cons] at hi
    have hj := his j (List.mem_cons_self ..)
    have key : ∀ b, (data.getD i .missing).pyEq (data.getD j .missing) = .ok b →
        sameOrder data i (j :: js) = if b then sameOrder data (i + 1) js else .ok false := by
      intro b hb
      rw [sameOrder]
      by_cases hij : i = j
      · subst hij
        rw [hr _ (hm i hj)] at hb
        cases hb
        simp
      · rw [if_neg hij, hb]
        cases b <;> rfl
    obtain ⟨b, hb⟩ := ht _ (hm i (by omega)) _ (hm j hj)
    cases b with
    | false => exact .inr ⟨key false hb, 0, j, rfl, hb⟩
    | true =>
      have hk := key true hb
      simp only [if_true] at hk
      rcases ih (i + 1) (by omega) (fun x hx => his x (List.mem_cons_of_mem _ hx)) with ⟨h1, h2⟩ | ⟨h1, k, j', h2, h3⟩
      · refine .inl ⟨hk.trans h1, ?_⟩
        intro k j' hkj
        cases k with
        | zero => cases hkj; exact hb
        | succ k =>
          have := h2 k j' hkj
          rwa [show i + 1 + k = i + (k + 1) by omega] at this
      · refine .inr ⟨hk.trans h1, k + 1, j', h2, ?_⟩
        rwa [show i + 1 + k = i + (k + 1) by omega] at h3

/-- **C66** If comparing two resources never raises and a resource equals itself, the sortedness validation accepts a
list exactly when the sorted list has an equal resource at every position, and otherwise reports error 26. -/
theorem C66_equal_iff (s : SorterCfg) (data : List Val) (schemas : SortSchemas)
    (hr : ∀ x ∈ data, x.pyEq x = .ok true) (ht : ∀ x ∈ data, ∀ y ∈ data, ∃ b, x.pyEq y = .ok b)
    (r : List Val) (h : s.call data schemas = .ok r) :
    r.length = data.length ∧
    ((validateSorted s data schemas = .ok {} ∧
        ∀ (k : Nat) (x y : Val), data[k]? = some x → r[k]? = some y → x.pyEq y = .ok true) ∨
      (validateSorted s data schemas = .ok (Issues.empty.add ⟨26, []⟩ true) ∧
        ∃ (k : Nat) (x y : Val), data[k]? = some x ∧ r[k]? = some y ∧ x.pyEq y = .ok false)) := by
  unfold SorterCfg.call at h
  split at h
  · simp at h
  rename_i is hord
  injection h with h
  subst h
  have hp := order_perm hord
  have hlen : is.length = data.length := by simpa using hp.length_eq
  refine ⟨by simpa using hlen, ?_⟩
  unfold validateSorted
  rw [hord]
  simp only []
  rcases sameOrder_spec hr ht 0 is (by omega) (fun j hj => by simpa using hp.mem_iff.mp hj) with ⟨h1, h2⟩ | ⟨h1, k, j, h2, h3⟩
  · rw [h1]
    refine .inl ⟨rfl, ?_⟩
    intro k x y hx hy
    rw [List.getElem?_map, Option.map_eq_some_iff] at hy
    obtain ⟨j, hj, rfl⟩ := hy
    have := h2 k j hj
    rw [Nat.zero_add, List.getD_eq_getElem?_getD, hx] at this
    exact this
  · rw [h1]
    refine .inr ⟨rfl, k, data.getD k .missing, data.getD j .missing, ?_, ?_, by rwa [Nat.zero_add] at h3⟩
    · have hk : k < data.length := by
        rw [← hlen]
        exact (List.getElem?_eq_some_iff.mp h2).1
      rw [List.getD_eq_getElem?_getD, List.getElem?_eq_getElem hk]
      rfl
    · rw [List.getElem?_map, h2]
      rfl

/-- The resources stand in the order of their keys. -/
def InOrder (asc : Bool) (k : Nat → SortKey) (n : Nat) : Prop :=
  ∀ i j, i < j → j < n → if asc then KeyLe (k i) (k j) else KeyLe (k j) (k i)

/-- **C66** A list whose keys are in order is left in place by the sort, and the sortedness validation accepts
it. -/
theorem C66_in_order_accepted (s : SorterCfg) (data : List Val) (schemas : SortSchemas) (k : Nat → SortKey)
    (hk : KeysOf s data schemas k) (c : Bool) (hpl : ∀ i < data.length, (k i).Plain c)
    (r : List Val) (h : s.call data schemas = .ok r) (ho : InOrder s.asc k data.length) :
    r = data ∧ validateSorted s data schemas = .ok {} := by
  have hbefore : (List.range data.length).Pairwise (Before s.asc k) := by
    rw [List.pairwise_iff_getElem]
    intro i j hi hj hij
    simp only [List.length_range] at hi hj
    simp only [List.getElem_range]
    have := ho i j hij hj
    unfold Before
    split at this
    · rename_i ha; rw [if_pos ha]; exact ⟨this, fun _ => hij⟩
    · rename_i ha; rw [if_neg ha]; exact ⟨this, fun _ => hij⟩
  unfold SorterCfg.call at h
  split at h
  · simp at h
  · rename_i is hord
    have hcall : s.call data schemas = .ok (is.map (fun i => data.getD i .missing)) := by
      unfold SorterCfg.call; rw [hord]
    have hpw : is.Pairwise (Before s.asc k) := order_pairwise s data schemas k hk c hpl is hord
    have := C64_unique s.asc k is _ (order_perm hord) hpw hbefore
    subst this
    injection h with h
    rw [getD_range] at h
    refine ⟨h.symm, ?_⟩
    unfold validateSorted
    rw [hord]
    simp only [sameOrder_range]
    rfl

/-- **C66** If no resource equals another one, the sortedness validation accepts a list exactly when its keys are
in order, and otherwise reports error 26. -/
theorem C66_accepted_iff (s : SorterCfg) (data : List Val) (schemas : SortSchemas) (k : Nat → SortKey)
    (hk : KeysOf s data schemas k) (c : Bool) (hpl : ∀ i < data.length, (k i).Plain c)
    (r : List Val) (h : s.call data schemas = .ok r)
    (hd : ∀ i < data.length, ∀ j < data.length, i ≠ j →
      (data.getD i .missing).pyEq (data.getD j .missing) = .ok false) :
    (InOrder s.asc k data.length ∧ validateSorted s data schemas = .ok {}) ∨
      (¬ InOrder s.asc k data.length ∧
        validateSorted s data schemas = .ok (Issues.empty.add ⟨26, []⟩ true)) := by
  by_cases ho : InOrder s.asc k data.length
  · exact .inl ⟨ho, (C66_in_order_accepted s data schemas k hk c hpl r h ho).2⟩
  · refine .inr ⟨ho, ?_⟩
    unfold SorterCfg.call at h
    split at h
    · simp at h
    · rename_i is hord
      have hp := order_perm hord
      have hlen : is.length = data.length := by simpa using hp.length_eq
      have hne : is ≠ List.range' 0 is.length := by
        intro he
        apply ho
        have hpw := order_pairwise s data schemas k hk c hpl is hord
        rw [he, hlen, ← List.range_eq_range', List.pairwise_iff_getElem] at hpw
        intro i j hij hj
        have := hpw i j (by simp; omega) (by simpa using hj) hij
        simp only [List.getElem_range] at this
        unfold Before at this
        split at this
        · rename_i ha; rw [if_pos ha]; exact this.1
        · rename_i ha; rw [if_neg ha]; exact this.1
      unfold validateSorted
      rw [hord]
      simp only []
      rw [sameOrder_distinct hd 0 is (by omega) (fun j hj => by simpa using hp.mem_iff.mp hj)]
      simp [hne, skipIfBad]

end Scim

namespace Scim.Examples.Sorter
local instance sorterEnv : PyEnv := asciiEnv

/-- a resource with a name, a number and mail addresses -/
def schema1 : Schema := mkResource "urn:x".toList
  [ mkAttr { rep := { attr := "nick".toList }, type := .string },
    mkAttr { rep := { attr := "age".toList }, type := .integer },
    mkAttr { rep := { attr := "tags".toList }, type := .string, multi := true, caseExact := true },
    mkComplex { rep := { attr := "mails".toList }, type := .complex, multi := true }
      [ mkAttr { rep := { attr := "value".toList }, type := .string },
        mkAttr { rep := { attr := "primary".toList }, type := .boolean } ] ]
/-- the same with a case sensitive `nick` -/
def schema2 : Schema := mkResource "urn:y".toList
  [ mkAttr { rep := { attr := "nick".toList }, type := .string, caseExact := true } ]

def mail (v : String) (p : Bool) : Val := .dict [("value".toList, .str v.toList), ("primary".toList, .bool p)]
def data : List Val := [
  Val.toCont (.dict [("nick".toList, .str "b".toList), ("age".toList, .int 7), ("tags".toList, .list [.str "x".toList]),
    ("mails".toList, .list [mail "zz" false, mail "n" true])]),
  Val.toCont (.dict [("nick".toList, .str [])]),
  Val.toCont (.dict [("nick".toList, .str "A".toList), ("age".toList, .int 7), ("tags".toList, .list [.str "X".toList])]),
  Val.toCont (.dict [("nick".toList, .str "B".toList), ("age".toList, .int (-1)), ("tags".toList, .list [.str "w".toList]),
    ("mails".toList, .list [mail "M" true])])]

def by_ (a : String) (asc : Bool) : SorterCfg := { rep := { attr := a.toList }, asc }

/-- **C64** **C65** ascending: case is ignored, equal keys keep their order, the empty name is last -/
example : (by_ "nick" true).order data (.one schema1) = .ok [2, 0, 3, 1] := by decide +kernel
/-- **C64** **C65** descending -/
example : (by_ "nick" false).order data (.one schema1) = .ok [1, 0, 3, 2] := by decide +kernel
example : (by_ "age" true).order data (.one schema1) = .ok [3, 0, 2, 1] := by decide +kernel
example : (by_ "tags" true).order data (.one schema1) = .ok [2, 3, 0, 1] := by decide +kernel
/-- **C65** the primary address counts -/
example : (by_ "mails" true).order data (.one schema1) = .ok [3, 0, 1, 2] := by decide +kernel
/-- **C66** the validation -/
example : validateSorted (by_ "nick" true) data (.one schema1) = .ok (Issues.empty.add ⟨26, []⟩ true) := by
  decide +kernel
example : validateSorted (by_ "phone" true) data (.one schema1) = .ok {} := by decide +kernel
example : (data.all fun x => data.all fun y => decide (∃ b, x.pyEq y = .ok b)) = true ∧
    (data.all fun x => decide (x.pyEq x = .ok true)) = true := by decide +kernel
/-- sorting several schemas -/
example : (by_ "nick" true).order data (.many [schema1, schema2] [some 0, some 0, some 1, some 1]) = .ok [2, 3, 0, 1] := by
  decide +kernel

/-- the keys of the example -/
def keys : Nat → SortKey
  | 0 => .str "b".toList false
  | 1 => .last
  | 2 => .str "A".toList false
  | 3 => .str "B".toList false
  | _ => .last

/-- **C64** **C65** **C66** the hypotheses of the theorems are met by the example -/
theorem keys_ok : KeysOf (by_ "nick" true) data (.one schema1) keys := by
  intro i x hx
  rcases i with _ | _ | _ | _ | i
  · injection hx with hx; subst hx; rfl
  · injection hx with hx; subst hx; rfl
  · injection hx with hx; subst hx; rfl
  · injection hx with hx; subst hx; rfl
  · simp [data] at hx
/-- **C64** the first resource is compared by its name, and by the primary one of its mail addresses -/
example : ∃ i, SortedBy { attr := "nick".toList } schema1 (data.getD 0 .missing) i (.str "b".toList) ∧
    UsableValue i (.str "b".toList) ∧ i.caseExact = false :=
  ⟨_, ⟨_, _, rfl, rfl, Or.inl ⟨rfl, rfl, rfl⟩⟩, ⟨rfl, fun _ _ => rfl⟩, rfl⟩
example : ∃ i, SortedBy { attr := "mails".toList } schema1 (data.getD 0 .missing) i (.str "n".toList) ∧
    UsableValue i (.str "n".toList) ∧ i.rep.attr = "value".toList := by
  refine ⟨_, ⟨_, .list [Val.toCont (mail "zz" false), Val.toCont (mail "n" true)], rfl, by decide +kernel,
    Or.inr (Or.inr ⟨rfl, rfl, [Val.toCont (mail "zz" false)], Val.toCont (mail "n" true), [], _, rfl, ?_,
      by decide +kernel, by decide +kernel, rfl, rfl⟩)⟩, ⟨rfl, fun _ _ => rfl⟩, rfl⟩
  intro z hz
  rw [List.mem_singleton.mp hz]
  exact ⟨.bool false, by decide +kernel, by simp [Val.bool]⟩
example : ∀ i < data.length, (keys i).Plain false := by
  intro i hi
  rcases i with _ | _ | _ | _ | i <;> simp [keys, SortKey.Plain]

/-- Attributes of different case sensitivity: three names without any order, "a" < "B" (ignoring case), "B" < "Z" and
"Z" < "a" (case sensitive). -/
def mixed : List Val := ["a", "B", "Z"].map (fun n => Val.toCont (.dict [("nick".toList, .str n.toList)]))
def mixedKeys : Nat → SortKey
  | 0 => .str "a".toList false
  | 1 => .str "B".toList false
  | _ => .str "Z".toList true
def mixedSchemas : SortSchemas := .many [schema1, schema2] [some 0, some 0, some 1]

theorem mixed_keys : KeysOf (by_ "nick" true) mixed mixedSchemas mixedKeys := by
  intro i x hx
  rcases i with _ | _ | _ | i
  · injection hx with hx; subst hx; rfl
  · injection hx with hx; subst hx; rfl
  · injection hx with hx; subst hx; rfl
  · simp [mixed] at hx

/-- **C64** is false for resources of schemas that disagree about the case sensitivity of the attribute: no order of
these resources is sorted, whatever the sorter returns. -/
theorem C64_mixed_case : ∀ is : List Nat, is.Perm (List.range mixed.length) →
    ¬ is.Pairwise (fun i j => KeyLe (mixedKeys i) (mixedKeys j)) := by
  have h10 : ¬ KeyLe (mixedKeys 1) (mixedKeys 0) := by
    simp only [mixedKeys, KeyLe, CodeLe]; decide
  have h21 : ¬ KeyLe (mixedKeys 2) (mixedKeys 1) := by
    simp only [mixedKeys, KeyLe, CodeLe]; decide
  have h02 : ¬ KeyLe (mixedKeys 0) (mixedKeys 2) := by
    simp only [mixedKeys, KeyLe, CodeLe]; decide
  intro is hp hs
  have hl : is.length = 3 := hp.length_eq
  have hn : is.Nodup := hp.nodup_iff.mpr List.nodup_range
  have hm : ∀ x ∈ is, x < 3 := fun x hx => by have := hp.mem_iff.mp hx; simpa [mixed] using this
  match is, hl with
  | [a, b, c], _ =>
    simp only [List.pairwise_cons, List.mem_cons, List.not_mem_nil, or_false, forall_eq_or_imp, forall_eq,
      List.nodup_cons, not_or] at hs hn
    have ha := hm a (by simp)
    have hb := hm b (by simp)
    have hc := hm c (by simp)
    have e : ∀ x < 3, x = 0 ∨ x = 1 ∨ x = 2 := by omega
    rcases e a ha with rfl | rfl | rfl <;> rcases e b hb with rfl | rfl | rfl <;> rcases e c hc with rfl | rfl | rfl <;>
      simp_all

/-- A list without first value makes the sort raise. -/
example : (by_ "tags" true).order [data.getD 0 .missing, Val.toCont (.dict [("tags".toList, .list [])])] (.one schema1) =
    .error .indexError := by decide +kernel

end Scim.Examples.Sorter
