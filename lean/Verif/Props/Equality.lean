import Verif.Lemmas.Equality
import Verif.Spec.Equality

/-!
# Properties of `SCIMDataContainer.__eq__` (C10)
-/

namespace Scim

/-- `{"userName": "bj", "Name": {"given": "B"}}` -/
def exDictE : List (Str × Val) :=
  [("userName".toList, .str "bj".toList), ("Name".toList, .dict [("given".toList, .str "B".toList)])]

section
variable [PyEnv]

/-- **C10** the comparison of any two values terminates within the bound used in the model. -/
theorem C10_eq_terminates (a b : Val) : a.pyEq b ≠ .error .recursion :=
  pyEqN_noRec _ a b (by omega)

/-- **C10** `c == d` is a subset test: it holds exactly when every key of `c` can be read from `d` and
gives an equal value. -/
theorem C10_eq_iff_subset (data : List (Str × Val)) (lc : List (Str × Str)) (d : List (Str × Val))
    (l : List (Str × Str)) :
    (Val.cont data lc).pyEq (.cont d l) = .ok true ↔
      ∀ k v, (k, v) ∈ data → ∃ x, (Val.cont d l).getName k = .ok x ∧ x.pyEq v = .ok true := by
  have : (Val.cont data lc).pyEq (.cont d l)
      = contLoop (Val.pyEqN ((Val.cont data lc).size + (Val.cont d l).size)) (.cont d l) data := by
    simp [Val.pyEq, Val.pyEqN]
  rw [this, contLoop_true_iff]
  have hst : ∀ k v x, (k, v) ∈ data → (Val.cont d l).getName k = .ok x →
      Val.pyEqN ((Val.cont data lc).size + (Val.cont d l).size) x v = x.pyEq v := by
    intro k v x hm hg
    have h1 := size_getName hg
    have h2 := size_lt_of_mem hm
    simp only [Val.size] at h1 ⊢
    exact pyEqN_stable _ _ _ _ (by omega) (by omega)
  constructor
  · intro h k v hm
    obtain ⟨x, hx, he⟩ := h k v hm
    exact ⟨x, hx, by rw [← hst k v x hm hx]; exact he⟩
  · intro h k v hm
    obtain ⟨x, hx, he⟩ := h k v hm
    exact ⟨x, hx, by rw [hst k v x hm hx]; exact he⟩

/-- **C10** the same against a raw dictionary, which is wrapped first. -/
theorem C10_eq_dict (data : List (Str × Val)) (lc : List (Str × Str)) (kvs : List (Str × Val)) :
    (Val.cont data lc).pyEq (.dict kvs) = (Val.cont data lc).pyEq (Val.toCont (.dict kvs)) := by
  have h := size_toCont_dict kvs
  rw [Val.toCont] at *
  simp only [Val.pyEq, Val.pyEqN, h]
  rw [Val.toCont]

/-- **C10** an empty container equals every container. -/
theorem C10_empty_eq (l : List (Str × Str)) (d : Val) (h : d.isCont = true) :
    (Val.cont [] l).pyEq d = .ok true := by
  cases d with
  | cont d l => simp [Val.pyEq, Val.pyEqN, contLoop]
  | _ => simp [Val.isCont] at h

/-- **C10** scalars are equal when they are the same string or null, or have the same number as value (booleans
count as 0 and 1); NaN is equal to nothing. -/
theorem C10_eq_scalars (p q : Prim) : (Val.prim p).pyEq (.prim q) = .ok true ↔
    (p = .none ∧ q = .none) ∨ (∃ s, p = .str s ∧ q = .str s) ∨ ∃ x, x ≠ .nan ∧ p.num? = some x ∧ q.num? = some x := by
  have hp : (Val.prim p).pyEq (.prim q) = .ok (p.pyEq q) := by simp [Val.pyEq, Val.pyEqN]
  rw [hp]
  have hf : ∀ x y : PyFloat, x.eq y = true ↔ x ≠ .nan ∧ x = y := by
    intro x y
    rcases x with x | x | _ <;> rcases y with y | y | _ <;> simp [PyFloat.eq]
  have hn : ∀ x y : PyFloat, (∃ z, z ≠ .nan ∧ x = z ∧ y = z) ↔ x.eq y = true := by
    intro x y
    rw [hf]
    constructor
    · rintro ⟨z, h, rfl, rfl⟩; exact ⟨h, rfl⟩
    · rintro ⟨h, rfl⟩; exact ⟨x, h, rfl, rfl⟩
  cases p <;> cases q <;>
    simp only [Prim.pyEq, Prim.num?, Option.some.injEq, Except.ok.injEq, hn, reduceCtorEq, false_and, and_false,
      false_or, or_false, exists_false, Bool.false_eq_true, and_self, true_or, Prim.str.injEq, beq_iff_eq, ne_eq]
  exact ⟨fun h => ⟨_, rfl, h.symm⟩, fun ⟨s, h, h'⟩ => h.trans h'.symm⟩

/-! ### Reflexivity -/

theorem PyFloat.eq_refl {f : PyFloat} (h : f ≠ .nan) : f.eq f = true := by
  cases f with
  | fin q => simp [PyFloat.eq]
  | inf b => simp [PyFloat.eq]
  | nan => exact absurd rfl h

theorem Prim.pyEq_refl {p : Prim} (h : p ≠ .flt .nan) : p.pyEq p = true := by
  cases p with
  | flt f =>
    have : f ≠ .nan := fun e => h (by rw [e])
    simp [Prim.pyEq, Prim.num?, PyFloat.eq_refl this]
  | _ => simp [Prim.pyEq, Prim.num?, PyFloat.eq]

theorem parse_wordRun {k : Str} (h : WordRun k) : AttrRep.parse k = some { attr := k } := by
  have hc : ':' ∉ k := h.not_mem colon_not_word
  have hd : '.' ∉ k := h.not_mem dot_not_word
  rw [parse_eq_some_iff]
  refine ⟨⟨.inl h, .inl rfl, .inl rfl, rfl⟩, ?_⟩
  simp [AttrRep.toStr]

theorem plainPairs_mem {k v kvs} (h : PlainPairs kvs) (hm : (k, v) ∈ kvs) : v.Plain := by
  induction kvs with
  | nil => simp at hm
  | cons p r ih =>
    obtain ⟨k', v'⟩ := p
    simp only [PlainPairs] at h
    rcases List.mem_cons.1 hm with hm | hm
    · cases hm; exact h.1
    · exact ih h.2 hm

theorem plainList_mem {v xs} (h : PlainList xs) (hm : v ∈ xs) : v.Plain := by
  induction xs with
  | nil => simp at hm
  | cons p r ih =>
    simp only [PlainList] at h
    rcases List.mem_cons.1 hm with hm | hm
    · cases hm; exact h.1
    · exact ih h.2 hm

theorem mem_convPairs {k v kvs} (h : (k, v) ∈ convPairs kvs) : ∃ w, (k, w) ∈ kvs ∧ v = convVal w := by
  induction kvs with
  | nil => simp [convPairs] at h
  | cons p r ih =>
    obtain ⟨k', v'⟩ := p
    simp only [convPairs, List.mem_cons] at h
    rcases h with h | h
    · cases h; exact ⟨v', by simp, rfl⟩
    · obtain ⟨w, hw, e⟩ := ih h
      exact ⟨w, by simp [hw], e⟩

theorem mem_convItems {v xs} (h : v ∈ convItems xs) : ∃ w ∈ xs, v = w ∨ v = convVal w := by
  induction xs with
  | nil => simp [convItems] at h
  | cons p r ih =>
    cases p with
    | dict kvs =>
      simp only [convItems, List.mem_cons] at h
      rcases h with h | h
      · exact ⟨.dict kvs, by simp, .inr (by rw [h, convVal])⟩
      · obtain ⟨w, hw, e⟩ := ih h; exact ⟨w, by simp [hw], e⟩
    | _ =>
      simp only [convItems, List.mem_cons] at h
      rcases h with h | h
      · exact ⟨_, by simp, .inl h⟩
      · obtain ⟨w, hw, e⟩ := ih h; exact ⟨w, by simp [hw], e⟩

theorem listLoop_refl {eq : Val → Val → PyM Bool} (xs : List Val)
    (h : ∀ x ∈ xs, eq x x = .ok true) : listLoop eq xs xs = .ok true := by
  induction xs with
  | nil => rfl
  | cons x r ih =>
    simp only [listLoop, h x (by simp)]
    exact ih (fun y hy => h y (by simp [hy]))

theorem nodup_of_lower {kvs : List (Str × Val)}
    (h : (kvs.map (fun p => lower p.1)).Nodup) : (kvs.map (·.1)).Nodup := by
  have : kvs.map (fun p => lower p.1) = (kvs.map (·.1)).map lower := by simp
  rw [this] at h
  exact List.Pairwise.of_map lower (fun a b hab e => hab (by rw [e])) h

theorem aget_lcOf_mem {kvs : List (Str × Val)} (h : (kvs.map (fun p => lower p.1)).Nodup) {k : Str}
    (hk : k ∈ kvs.map (·.1)) : aget (lower k) (lcOf (kvs.map (·.1))) = some k := by
  rw [show (kvs.map (fun p => lower p.1)) = (kvs.map (·.1)).map lower by simp] at h
  generalize kvs.map (·.1) = keys at h hk
  rw [aget_lcOf]
  have : ∀ ks : List Str, (ks.map lower).Nodup → k ∈ ks →
      ks.filter (fun k' => lower k' = lower k) = [k] := by
    intro ks
    induction ks with
    | nil => simp
    | cons a r ih =>
      intro hn hm
      simp only [List.map_cons, List.nodup_cons] at hn
      by_cases ha : lower a = lower k
      · have hr : r.filter (fun k' => lower k' = lower k) = [] := by
          rw [List.filter_eq_nil_iff]
          intro x hx he
          exact hn.1 (List.mem_map.2 ⟨x, hx, by rw [ha]; simpa using he⟩)
        have : a = k := by
          rcases List.mem_cons.1 hm with e | hm
          · exact e.symm
          · exact absurd (List.mem_map.2 ⟨k, hm, ha.symm⟩) hn.1
        rw [List.filter_cons_of_pos (by simpa using ha), hr, this]
      · rw [List.filter_cons_of_neg (by simpa using ha)]
        exact ih hn.2 (by
          rcases List.mem_cons.1 hm with e | hm
          · exact absurd (by rw [e]) ha
          · exact hm)
  rw [this _ h hk]; rfl

theorem pyEqN_refl (n : Nat) (v : Val) (h : v.Plain) (hn : v.size + v.size < n) :
    Val.pyEqN n v v = .ok true ∧ Val.pyEqN n (convVal v) (convVal v) = .ok true := by
  induction n generalizing v with
  | zero => omega
  | succ n ih =>
    cases v with
    | prim p =>
      simp only [Val.Plain] at h
      simp [convVal, Val.pyEqN, Prim.pyEq_refl h]
    | list xs =>
      simp only [Val.Plain] at h
      simp only [Val.size] at hn
      have hx : ∀ x ∈ xs, Val.pyEqN n x x = .ok true ∧ Val.pyEqN n (convVal x) (convVal x) = .ok true := by
        intro x hx
        have := size_lt_of_mem_list hx
        exact ih x (plainList_mem h hx) (by omega)
      constructor
      · simp only [Val.pyEqN, if_true]
        exact listLoop_refl _ (fun x hm => (hx x hm).1)
      · simp only [convVal, Val.pyEqN, if_true]
        apply listLoop_refl
        intro x hm
        obtain ⟨w, hw, e | e⟩ := mem_convItems hm
        · rw [e]; exact (hx w hw).1
        · rw [e]; exact (hx w hw).2
    | dict kvs =>
      simp only [Val.Plain] at h
      obtain ⟨hw, hnd, hp⟩ := h
      simp only [Val.size] at hn
      have hx : ∀ k x, (k, x) ∈ kvs →
          Val.pyEqN n x x = .ok true ∧ Val.pyEqN n (convVal x) (convVal x) = .ok true := by
        intro k x hx
        have := size_lt_of_mem hx
        exact ih x (plainPairs_mem hp hx) (by omega)
      have hnd' := nodup_of_lower hnd
      constructor
      · simp only [Val.pyEqN, if_true]
        have : ∀ data : List (Str × Val), (∀ k x, (k, x) ∈ data → (k, x) ∈ kvs) →
            dictLoop (Val.pyEqN n) kvs data = .ok true := by
          intro data
          induction data with
          | nil => intro _; rfl
          | cons p r ih2 =>
            intro hs
            obtain ⟨k, x⟩ := p
            have hm := hs k x (by simp)
            simp only [dictLoop, aget_of_mem hnd' hm, (hx k x hm).1]
            exact ih2 (fun k x hm => hs k x (by simp [hm]))
        exact this kvs (fun _ _ h => h)
      · simp only [convVal, Val.pyEqN]
        rw [contLoop_true_iff]
        intro k v hm
        obtain ⟨w, hwm, rfl⟩ := mem_convPairs hm
        refine ⟨convVal w, ?_, (hx k w hwm).2⟩
        have hkey : k ∈ kvs.map (·.1) := List.mem_map.2 ⟨(k, w), hwm, rfl⟩
        simp only [Val.getName, parse_wordRun (hw _ hwm)]
        have hempty : aget (lower ([] : Str)) (lcOf (kvs.map (·.1))) = none := by
          cases hc : aget (lower ([] : Str)) (lcOf (kvs.map (·.1))) with
          | none => rfl
          | some k' =>
            obtain ⟨h1, h2⟩ := lcOf_sound _ _ _ hc
            have hk' : k' = [] := by
              rw [(PyEnv.lower_eq_nil []).2 rfl] at h1
              exact (PyEnv.lower_eq_nil k').1 h1.symm
            obtain ⟨p, hp1, hp2⟩ := List.mem_map.1 h2
            have := hw p hp1
            rw [hp2, hk'] at this
            exact absurd rfl this.1
        rw [getItem_noKey hempty]
        simp only [aget_lcOf_mem hnd hkey, aget_convPairs, aget_of_mem hnd' hwm]
        simp
    | _ => simp [Val.Plain] at h

/-- **C10** reflexivity: a container built from an object with word keys, without keys that differ only in
case and without NaN (at every level) equals itself. -/
theorem C10_refl (kvs : List (Str × Val)) (h : (Val.dict kvs).Plain) :
    (Val.toCont (.dict kvs)).pyEq (Val.toCont (.dict kvs)) = .ok true := by
  have hs := size_toCont_dict kvs
  have h1 := (pyEqN_refl ((Val.dict kvs).size + (Val.dict kvs).size + 1) (.dict kvs) h (by omega)).2
  have he : Val.toCont (.dict kvs) = convVal (.dict kvs) := by rw [Val.toCont, convVal]
  rw [Val.pyEq, hs, he]
  exact h1

end

/-! ### Witnesses -/

example : letI := asciiEnv; (Val.dict exDictE).Plain := by
  letI := asciiEnv
  simp only [exDictE, Val.Plain, PlainPairs, Val.str]
  refine ⟨?_, by decide, ?_⟩
  · unfold WordRun; decide
  · refine ⟨by decide, ⟨?_, by decide, by decide, trivial⟩, trivial⟩
    unfold WordRun; decide

/-- **C10** `==` is not symmetric: `{"a": 1} ⊆ {"a": 1, "b": 2}` but not conversely. -/
theorem C10_not_symmetric : letI := asciiEnv
    let c := Val.toCont (.dict [("a".toList, .str "1".toList)])
    let d := Val.toCont (.dict [("a".toList, .str "1".toList), ("b".toList, .str "2".toList)])
    c.pyEq d = .ok true ∧ d.pyEq c = .ok false := by decide +kernel

/-- **C10** two containers with case-variant keys: the container is not equal to itself. -/
theorem C10_case_duplicate_not_refl : letI := asciiEnv
    let c := Val.toCont (.dict [("a".toList, .str "1".toList), ("A".toList, .str "2".toList)])
    c.pyEq c = .ok false := by decide +kernel

/-- **C10** a container with extension data under its URN is not equal to itself. -/
theorem C10_extension_not_refl : letI := asciiEnv
    let c := Val.toCont (.dict [("urn:x:Ext".toList, .dict [("a".toList, .str "1".toList)])])
    c.pyEq c = .ok false := by decide +kernel

/-- **C10** a key that is not an attribute name makes the comparison raise `ValueError`. -/
theorem C10_bad_key_raises : letI := asciiEnv
    let c := Val.toCont (.dict [("a b".toList, .str "1".toList)])
    c.pyEq c = .error .valueError := by decide +kernel

/-- **C10** NaN is not equal to itself, and neither is a container holding it. -/
theorem C10_nan_not_refl : letI := asciiEnv
    let c := Val.toCont (.dict [("a".toList, .prim (.flt .nan))])
    c.pyEq c = .ok false := by decide +kernel

end Scim
