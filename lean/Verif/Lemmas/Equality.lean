import Verif.Model.Equality
import Verif.Lemmas.Container
import Verif.Lemmas.AttrRep

/-! Helper lemmas about `==`. -/

namespace Scim

theorem Val.size_pos (v : Val) : 0 < v.size := by
  cases v <;> simp [Val.size] <;> omega

theorem size_lt_of_aget {k : Str} {v : Val} {m : List (Str × Val)} (h : aget k m = some v) :
    v.size < sizePairs m := by
  induction m with
  | nil => simp at h
  | cons p r ih =>
    obtain ⟨k', v'⟩ := p
    rw [aget_cons] at h
    simp only [sizePairs]
    split at h
    · cases h; omega
    · have := ih h; omega

theorem size_lt_of_mem {k : Str} {v : Val} {m : List (Str × Val)} (h : (k, v) ∈ m) :
    v.size < sizePairs m := by
  induction m with
  | nil => simp at h
  | cons p r ih =>
    obtain ⟨k', v'⟩ := p
    simp only [sizePairs]
    rcases List.mem_cons.1 h with h | h
    · cases h; omega
    · have := ih h; omega

theorem size_lt_of_mem_list {v : Val} {m : List Val} (h : v ∈ m) : v.size < sizeList m := by
  induction m with
  | nil => simp at h
  | cons p r ih =>
    simp only [sizeList]
    rcases List.mem_cons.1 h with h | h
    · cases h; omega
    · have := ih h; omega

variable [PyEnv]

mutual
/-- Reading gives something smaller (with `asSub`: not larger). -/
theorem size_getX (b : Bool) (v : Val) (r : AttrRep) (y : Val) (h : Val.getX b v r = .ok y) :
    if b then y.size ≤ v.size else y.size ≤ v.size ∧ (y = .missing ∨ y.size < v.size) := by
  cases v with
  | cont data lc =>
    simp only [Val.getX] at h
    split at h
    · cases h
    · have key : y = .missing ∨ y.size < (Val.cont data lc).size := by
        split at h
        · have := size_getAt false _ data _ y h
          simp only [Val.size]; right; omega
        · split at h
          · cases h; exact .inl rfl
          · split at h
            · split at h
              · rename_i hg
                cases h
                have := size_lt_of_aget hg
                simp only [Val.size]; right; omega
              · cases h
            · have := size_getAt true _ data _ y h
              simp only [Val.size]; right; omega
      have hle : y.size ≤ (Val.cont data lc).size := by
        rcases key with rfl | h
        · simp [Val.size]
        · omega
      cases b
      · exact ⟨hle, key⟩
      · exact hle
  | list xs =>
    cases b
    · simp [Val.getX] at h
    · simp only [Val.getX] at h
      split at h
      · cases h
      · split at h
        · rename_i hm
          cases h
          have := size_getMap xs r _ hm
          simp only [Val.size, if_true]; omega
        · cases h
  | _ =>
    cases b <;> simp [Val.getX] at h
    subst h
    simp [Val.size]
theorem size_getAt (b : Bool) (k : Str) (data : List (Str × Val)) (r : AttrRep) (y : Val)
    (h : getAt b k data r = .ok y) : y.size < sizePairs data := by
  cases data with
  | nil => simp [getAt] at h
  | cons p rest =>
    obtain ⟨k', v⟩ := p
    simp only [getAt] at h
    simp only [sizePairs]
    split at h
    · have := size_getX b v r y h
      cases b
      · simp at this; omega
      · simp at this; omega
    · have := size_getAt b k rest r y h
      omega
theorem size_getMap (xs : List Val) (r : AttrRep) (ys : List Val) (h : getMap xs r = .ok ys) :
    sizeList ys ≤ sizeList xs := by
  cases xs with
  | nil => simp [getMap] at h; subst h; simp
  | cons v rest =>
    simp only [getMap] at h
    split at h
    · cases h
    · rename_i y hy
      split at h
      · cases h
      · rename_i ys' hys
        cases h
        have h1 := size_getX false v r y hy
        have h2 := size_getMap rest r ys' hys
        simp at h1
        simp only [sizeList]; omega
end

theorem size_getName {c y : Val} {k : Str} (h : c.getName k = .ok y) : y.size ≤ c.size := by
  cases c with
  | cont data lc =>
    simp only [Val.getName] at h
    split at h
    · have := size_getX false _ _ _ h
      simp at this; exact this.1
    · cases h
  | _ => simp [Val.getName] at h

mutual
theorem size_convVal (v : Val) : (convVal v).size = v.size := by
  cases v with
  | dict kvs => simp [convVal, Val.size, size_convPairs kvs]
  | list xs => simp [convVal, Val.size, size_convItems xs]
  | _ => simp [convVal]
theorem size_convPairs (kvs : List (Str × Val)) : sizePairs (convPairs kvs) = sizePairs kvs := by
  cases kvs with
  | nil => simp [convPairs]
  | cons p r =>
    obtain ⟨k, v⟩ := p
    simp [convPairs, sizePairs, size_convVal v, size_convPairs r]
theorem size_convItems (xs : List Val) : sizeList (convItems xs) = sizeList xs := by
  cases xs with
  | nil => simp [convItems]
  | cons v r =>
    have hr := size_convItems r
    cases v with
    | dict kvs => simp [convItems, sizeList, Val.size, size_convPairs kvs, hr]
    | _ => simp [convItems, sizeList, hr]
end

theorem size_toCont_dict (kvs : List (Str × Val)) :
    (Val.toCont (.dict kvs)).size = (Val.dict kvs).size := by
  rw [Val.toCont]; simp [Val.size, size_convPairs]

theorem contLoop_congr {eq eq' : Val → Val → PyM Bool} {other : Val} (data : List (Str × Val))
    (h : ∀ k v x, (k, v) ∈ data → other.getName k = .ok x → eq x v = eq' x v) :
    contLoop eq other data = contLoop eq' other data := by
  induction data with
  | nil => rfl
  | cons p r ih =>
    obtain ⟨k, v⟩ := p
    have ih' := ih (fun k v x hm => h k v x (List.mem_cons_of_mem _ hm))
    simp only [contLoop, ih']
    cases hg : other.getName k with
    | error e => rfl
    | ok x => simp only [h k v x (by simp) hg]

theorem listLoop_congr {eq eq' : Val → Val → PyM Bool} (xs ys : List Val)
    (h : ∀ x y, x ∈ xs → y ∈ ys → eq x y = eq' x y) :
    listLoop eq xs ys = listLoop eq' xs ys := by
  induction xs generalizing ys with
  | nil => cases ys <;> rfl
  | cons x xs ih =>
    cases ys with
    | nil => rfl
    | cons y ys =>
      simp only [listLoop, h x y (by simp) (by simp)]
      rw [ih ys (fun a b ha hb => h a b (by simp [ha]) (by simp [hb]))]

theorem dictLoop_congr {eq eq' : Val → Val → PyM Bool} {other : List (Str × Val)}
    (data : List (Str × Val))
    (h : ∀ k v x, (k, v) ∈ data → aget k other = some x → eq v x = eq' v x) :
    dictLoop eq other data = dictLoop eq' other data := by
  induction data with
  | nil => rfl
  | cons p r ih =>
    obtain ⟨k, v⟩ := p
    have ih' := ih (fun k v x hm => h k v x (List.mem_cons_of_mem _ hm))
    simp only [dictLoop, ih']
    cases hg : aget k other with
    | none => rfl
    | some x => simp only [h k v x (by simp) hg]

/-- Any two sufficient bounds give the same result. -/
theorem pyEqN_stable (n m : Nat) (a b : Val) (hn : a.size + b.size < n) (hm : a.size + b.size < m) :
    Val.pyEqN n a b = Val.pyEqN m a b := by
  induction n generalizing m a b with
  | zero => omega
  | succ n ih =>
    cases m with
    | zero => omega
    | succ m =>
      have hcont : ∀ (data : List (Str × Val)) (other : Val),
          other.size + (1 + sizePairs data) < n + 1 → other.size + (1 + sizePairs data) < m + 1 →
          contLoop (Val.pyEqN n) other data = contLoop (Val.pyEqN m) other data := by
        intro data other h1 h2
        apply contLoop_congr
        intro k v x hmem hg
        have hs := size_getName hg
        have hv := size_lt_of_mem hmem
        exact ih m x v (by omega) (by omega)
      have hdict : ∀ kvs : List (Str × Val), (Val.toCont (.dict kvs)).size = 1 + sizePairs kvs := by
        intro kvs; rw [size_toCont_dict]; simp [Val.size]
      have hdict : ∀ kvs : List (Str × Val), (Val.toCont (.dict kvs)).size = 1 + sizePairs kvs := by
        intro kvs; rw [size_toCont_dict]; simp [Val.size]
      cases a with
      | cont data lc =>
        cases b with
        | cont d l =>
          simp only [Val.pyEqN, Val.size] at *
          exact hcont _ _ (by simp only [Val.size]; omega) (by simp only [Val.size]; omega)
        | dict kvs =>
          simp only [Val.pyEqN, Val.size] at *
          exact hcont _ _ (by rw [hdict]; omega) (by rw [hdict]; omega)
        | _ => simp [Val.pyEqN]
      | dict kvs =>
        cases b with
        | cont d l =>
          simp only [Val.pyEqN, Val.size] at *
          exact hcont _ _ (by rw [hdict]; omega) (by rw [hdict]; omega)
        | dict kvs' =>
          simp only [Val.pyEqN, Val.size] at *
          rw [dictLoop_congr]
          intro k v x hmem hg
          have h1 := size_lt_of_mem hmem
          have h2 := size_lt_of_aget hg
          exact ih m v x (by omega) (by omega)
        | _ => simp [Val.pyEqN]
      | list xs =>
        cases b with
        | list ys =>
          simp only [Val.pyEqN, Val.size] at *
          rw [listLoop_congr]
          intro x y hx hy
          have h1 := size_lt_of_mem_list hx
          have h2 := size_lt_of_mem_list hy
          exact ih m x y (by omega) (by omega)
        | _ => simp [Val.pyEqN]
      | obj o => cases o <;> cases b <;> (try rename_i o'; cases o') <;> simp [Val.pyEqN]
      | _ => cases b <;> simp [Val.pyEqN]

theorem contLoop_true_iff (eq : Val → Val → PyM Bool) (other : Val) (data : List (Str × Val)) :
    contLoop eq other data = .ok true ↔
      ∀ k v, (k, v) ∈ data → ∃ x, other.getName k = .ok x ∧ eq x v = .ok true := by
  induction data with
  | nil => simp [contLoop]
  | cons p r ih =>
    obtain ⟨k, v⟩ := p
    simp only [contLoop]
    constructor
    · intro h
      split at h
      · cases h
      · rename_i x hx
        split at h
        · cases h
        · cases h
        · rename_i he
          intro k' v' hm
          rcases List.mem_cons.1 hm with hm | hm
          · cases hm; exact ⟨x, hx, he⟩
          · exact ih.1 h k' v' hm
    · intro h
      obtain ⟨x, hx, he⟩ := h k v (by simp)
      simp only [hx, he]
      exact ih.2 (fun k' v' hm => h k' v' (by simp [hm]))

/-! ### No recursion error -/

theorem contLoop_noRec {eq : Val → Val → PyM Bool} {other : Val} (data : List (Str × Val))
    (ho : ∀ k, other.getName k ≠ .error .recursion)
    (h : ∀ k v x, (k, v) ∈ data → other.getName k = .ok x → eq x v ≠ .error .recursion) :
    contLoop eq other data ≠ .error .recursion := by
  induction data with
  | nil => simp [contLoop]
  | cons p r ih =>
    obtain ⟨k, v⟩ := p
    have ih' := ih (fun k v x hm => h k v x (List.mem_cons_of_mem _ hm))
    simp only [contLoop]
    split
    · rename_i e he
      intro hh; cases hh; exact ho k he
    · rename_i x hx
      split
      · rename_i e he
        intro hh; cases hh; exact h k v x (by simp) hx he
      · simp
      · exact ih'

mutual
theorem getX_noRec (b : Bool) (v : Val) (r : AttrRep) : Val.getX b v r ≠ .error .recursion := by
  cases v with
  | cont data lc =>
    simp only [Val.getX]
    split
    · simp
    · split
      · exact getAt_noRec false _ data _
      · split
        · simp
        · split
          · split <;> simp
          · exact getAt_noRec true _ data _
  | list xs =>
    cases b
    · simp [Val.getX]
    · simp only [Val.getX]
      split
      · simp
      · split
        · simp
        · rename_i e he
          intro hh; cases hh
          exact getMap_noRec xs r he
  | _ => cases b <;> simp [Val.getX]
theorem getAt_noRec (b : Bool) (k : Str) (data : List (Str × Val)) (r : AttrRep) :
    getAt b k data r ≠ .error .recursion := by
  cases data with
  | nil => simp [getAt]
  | cons p rest =>
    obtain ⟨k', v⟩ := p
    simp only [getAt]
    split
    · exact getX_noRec b v r
    · exact getAt_noRec b k rest r
theorem getMap_noRec (xs : List Val) (r : AttrRep) : getMap xs r ≠ .error .recursion := by
  cases xs with
  | nil => simp [getMap]
  | cons v rest =>
    simp only [getMap]
    split
    · rename_i e he
      intro hh; cases hh; exact getX_noRec false v r he
    · split
      · rename_i e he
        intro hh; cases hh; exact getMap_noRec rest r he
      · simp
end

theorem getName_noRec (c : Val) (k : Str) : c.getName k ≠ .error .recursion := by
  cases c with
  | cont data lc =>
    simp only [Val.getName]
    split
    · exact getX_noRec _ _ _
    · simp
  | _ => simp [Val.getName]

theorem pyEqN_noRec (n : Nat) (a b : Val) (hn : a.size + b.size < n) :
    Val.pyEqN n a b ≠ .error .recursion := by
  induction n generalizing a b with
  | zero => omega
  | succ n ih =>
    have hcont : ∀ (data : List (Str × Val)) (other : Val),
        other.size + (1 + sizePairs data) < n + 1 →
        contLoop (Val.pyEqN n) other data ≠ .error .recursion := by
      intro data other h1
      apply contLoop_noRec _ (getName_noRec _)
      intro k v x hmem hg
      have hs := size_getName hg
      have hv := size_lt_of_mem hmem
      exact ih x v (by omega)
    have hdict : ∀ kvs : List (Str × Val), (Val.toCont (.dict kvs)).size = 1 + sizePairs kvs := by
      intro kvs; rw [size_toCont_dict]; simp [Val.size]
    cases a with
    | cont data lc =>
      cases b with
      | cont d l =>
        simp only [Val.pyEqN, Val.size] at *
        exact hcont _ _ (by simp only [Val.size]; omega)
      | dict kvs =>
        simp only [Val.pyEqN, Val.size] at *
        exact hcont _ _ (by rw [hdict]; omega)
      | _ => simp [Val.pyEqN]
    | dict kvs =>
      cases b with
      | cont d l =>
        simp only [Val.pyEqN, Val.size] at *
        exact hcont _ _ (by rw [hdict]; omega)
      | dict kvs' =>
        simp only [Val.pyEqN, Val.size] at *
        split
        · have : ∀ data : List (Str × Val), (∀ k v, (k, v) ∈ data → (k, v) ∈ kvs) →
              dictLoop (Val.pyEqN n) kvs' data ≠ .error .recursion := by
            intro data hsub
            induction data with
            | nil => simp [dictLoop]
            | cons p r ih2 =>
              obtain ⟨k, v⟩ := p
              simp only [dictLoop]
              split
              · simp
              · rename_i x hx
                split
                · rename_i e he
                  intro hh; cases hh
                  have h1 := size_lt_of_mem (hsub k v (by simp))
                  have h2 := size_lt_of_aget hx
                  exact ih v x (by omega) he
                · simp
                · exact ih2 (fun k v hm => hsub k v (by simp [hm]))
          exact this kvs (fun _ _ h => h)
        · simp
      | _ => simp [Val.pyEqN]
    | list xs =>
      cases b with
      | list ys =>
        simp only [Val.pyEqN, Val.size] at *
        split
        · rename_i hlen
          have : ∀ us vs : List Val, (∀ u ∈ us, u ∈ xs) → (∀ v ∈ vs, v ∈ ys) →
              listLoop (Val.pyEqN n) us vs ≠ .error .recursion := by
            intro us
            induction us with
            | nil => intro vs _ _; cases vs <;> simp [listLoop]
            | cons u us ih2 =>
              intro vs hu hv
              cases vs with
              | nil => simp [listLoop]
              | cons v vs =>
                simp only [listLoop]
                split
                · rename_i e he
                  intro hh; cases hh
                  have h1 := size_lt_of_mem_list (hu u (by simp))
                  have h2 := size_lt_of_mem_list (hv v (by simp))
                  exact ih u v (by omega) he
                · simp
                · exact ih2 vs (fun a ha => hu a (by simp [ha])) (fun a ha => hv a (by simp [ha]))
          exact this xs ys (fun _ h => h) (fun _ h => h)
        · simp
      | _ => simp [Val.pyEqN]
    | obj o => cases o <;> cases b <;> (try rename_i o'; cases o') <;> simp [Val.pyEqN]
    | _ => cases b <;> simp [Val.pyEqN]

end Scim
