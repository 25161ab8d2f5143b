import Verif.Lemmas.Assoc
import Verif.Spec.Container

/-! Helper lemmas about containers. -/

namespace Scim
variable [PyEnv]

/-- The lower-case index is consistent with the data. -/
structure CInv (data : List (Str × Val)) (lc : List (Str × Str)) : Prop where
  dataKeys : (data.map (·.1)).Nodup
  lcKeys : (lc.map (·.1)).Nodup
  sound : ∀ l k, aget l lc = some k → l = lower k ∧ k ∈ data.map (·.1)

theorem lcOf_snoc (keys : List Str) (k : Str) : lcOf (keys ++ [k]) = aset (lower k) k (lcOf keys) := by
  simp [lcOf, List.foldl_append]

theorem lcOf_nodup (keys : List Str) : ((lcOf keys).map (·.1)).Nodup := by
  rw [← List.reverse_reverse keys]
  induction keys.reverse with
  | nil => simp [lcOf]
  | cons k ks ih => rw [List.reverse_cons, lcOf_snoc]; exact nodup_keys_aset _ _ _ ih

theorem lcOf_sound (keys : List Str) (l k : Str) (h : aget l (lcOf keys) = some k) :
    l = lower k ∧ k ∈ keys := by
  rw [← List.reverse_reverse keys] at h ⊢
  generalize keys.reverse = ks at *
  induction ks with
  | nil => simp [lcOf] at h
  | cons x ks ih =>
    rw [List.reverse_cons, lcOf_snoc, aget_aset] at h
    rw [List.reverse_cons]
    split at h
    · rename_i he
      simp only [Option.some.injEq] at h
      subst h; subst he; simp
    · obtain ⟨h1, h2⟩ := ih h
      exact ⟨h1, by simp only [List.mem_append]; exact .inl h2⟩

/-- The index finds the last key with the given lower-case form. -/
theorem aget_lcOf (keys : List Str) (l : Str) :
    aget l (lcOf keys) = (keys.filter (fun k => lower k = l)).getLast? := by
  rw [← List.reverse_reverse keys]
  induction keys.reverse with
  | nil => simp [lcOf]
  | cons x ks ih =>
    rw [List.reverse_cons, lcOf_snoc, aget_aset, ih, List.filter_append]
    by_cases h : lower x = l
    · simp [h]
    · simp [h]

theorem keys_convPairs (kvs : List (Str × Val)) : (convPairs kvs).map (·.1) = kvs.map (·.1) := by
  induction kvs with
  | nil => simp [convPairs]
  | cons p r ih => obtain ⟨k, v⟩ := p; simp [convPairs, ih]

theorem aget_convPairs (k : Str) (kvs : List (Str × Val)) :
    aget k (convPairs kvs) = (aget k kvs).map convVal := by
  induction kvs with
  | nil => simp [convPairs]
  | cons p r ih =>
    obtain ⟨k', v⟩ := p
    simp only [convPairs, aget_cons, ih]
    split <;> simp

theorem CInv.ofDict (kvs : List (Str × Val)) (h : (kvs.map (·.1)).Nodup) :
    CInv (convPairs kvs) (lcOf (kvs.map (·.1))) := by
  refine ⟨by rw [keys_convPairs]; exact h, lcOf_nodup _, ?_⟩
  intro l k hk
  rw [keys_convPairs]
  exact lcOf_sound _ _ _ hk

theorem CInv.setPlain {data lc} (h : CInv data lc) (a : Str) (v : Val) :
    CInv (aset a v data) (aset (lower a) a lc) := by
  refine ⟨nodup_keys_aset _ _ _ h.dataKeys, nodup_keys_aset _ _ _ h.lcKeys, ?_⟩
  intro l k hk
  rw [mem_keys_aset]
  rw [aget_aset] at hk
  split at hk
  · rename_i he
    simp only [Option.some.injEq] at hk
    subst hk; exact ⟨he.symm, .inl rfl⟩
  · obtain ⟨h1, h2⟩ := h.sound _ _ hk
    exact ⟨h1, .inr h2⟩

theorem CInv.setData {data lc} (h : CInv data lc) (k : Str) (v : Val) :
    CInv (aset k v data) lc := by
  refine ⟨nodup_keys_aset _ _ _ h.dataKeys, h.lcKeys, ?_⟩
  intro l k' hk
  rw [mem_keys_aset]
  obtain ⟨h1, h2⟩ := h.sound _ _ hk
  exact ⟨h1, .inr h2⟩

theorem CInv.of_keys {data data' lc} (h : CInv data lc)
    (hk : data'.map (fun (x : Str × Val) => x.1) = data.map (·.1)) : CInv data' lc :=
  ⟨by rw [hk]; exact h.dataKeys, h.lcKeys, by intro l k hl; rw [hk]; exact h.sound l k hl⟩

theorem aset_aset {β : Type} (k : Str) (v w : β) (m : List (Str × β)) :
    aset k w (aset k v m) = aset k w m := by
  induction m with
  | nil => simp [aset]
  | cons p r ih =>
    obtain ⟨a, b⟩ := p
    simp only [aset_cons]
    split
    · rename_i h; simp [aset_cons, h]
    · rename_i h; simp [aset_cons, h, ih]

theorem keys_delAt {b : Bool} {k : Str} {r : AttrRep} (data data' : List (Str × Val))
    (h : delAt b k data r = .ok data') :
    data'.map (fun (x : Str × Val) => x.1) = data.map (·.1) := by
  induction data generalizing data' with
  | nil => simp [delAt] at h
  | cons p rest ih =>
    obtain ⟨k', v⟩ := p
    simp only [delAt] at h
    split at h
    · split at h
      · simp only [Except.ok.injEq] at h; subst h; simp
      · cases h
    · split at h
      · rename_i hr
        simp only [Except.ok.injEq] at h; subst h
        simp [ih _ hr]
      · cases h

theorem CInv.adel {data lc} (h : CInv data lc) (l k : Str) (hl : aget l lc = some k) :
    CInv (adel k data) (adel l lc) := by
  refine ⟨nodup_keys_adel _ _ h.dataKeys, nodup_keys_adel _ _ h.lcKeys, ?_⟩
  intro l' k' hk
  have hne : l ≠ l' := by
    intro e; subst e
    rw [aget_adel_self h.lcKeys] at hk; cases hk
  rw [aget_adel_ne hne] at hk
  obtain ⟨h1, h2⟩ := h.sound _ _ hk
  refine ⟨h1, ?_⟩
  have hkk : k ≠ k' := by
    intro e; subst e
    exact hne ((h.sound _ _ hl).1.trans h1.symm)
  rw [← aget_isSome_iff] at h2 ⊢
  rw [aget_adel_ne hkk]; exact h2

theorem setSub_inv {data lc} (h : CInv data lc) (a s : Str) (v : Val) {c' : Val}
    (hs : (Val.cont data lc).setSub a s v = .ok c') :
    ∃ data' lc', c' = .cont data' lc' ∧ CInv data' lc' := by
  simp only [Val.setSub] at hs
  split at hs
  · split at hs
    · simp only [Except.ok.injEq] at hs
      subst hs
      refine ⟨_, _, rfl, ?_⟩
      rw [aset_aset]
      exact h.setPlain _ _
    · cases hs
  · split at hs
    · cases hs
    · split at hs
      · cases hs
      · split at hs
        · simp only [Except.ok.injEq] at hs
          subst hs
          exact ⟨_, _, rfl, h.setData _ _⟩
        · cases hs

theorem setItem_inv {data lc} (h : CInv data lc) (r : AttrRep) (v : Val) {c' : Val}
    (hs : (Val.cont data lc).setItem r v = .ok c') :
    ∃ data' lc', c' = .cont data' lc' ∧ CInv data' lc' := by
  simp only [Val.setItem] at hs
  split at hs
  · split at hs
    · cases hs
    · split at hs
      · simp only [Except.ok.injEq] at hs
        subst hs
        refine ⟨_, _, rfl, ?_⟩
        apply CInv.setData
        cases hg : aget (lower r.schema) lc with
        | none => exact h.setPlain _ _
        | some _ => exact h
      · cases hs
  · simp only [Val.setLocal] at hs
    split at hs
    · simp only [Val.setPlain, Except.ok.injEq] at hs
      subst hs
      exact ⟨_, _, rfl, h.setPlain _ _⟩
    · exact setSub_inv h _ _ _ hs

theorem delItem_inv {data lc} (h : CInv data lc) (r : AttrRep) {c' : Val}
    (hs : (Val.cont data lc).delItem r = .ok c') :
    ∃ data' lc', c' = .cont data' lc' ∧ CInv data' lc' := by
  simp only [Val.delItem, Val.delX, Bool.false_and, Bool.false_eq_true, ↓reduceIte] at hs
  split at hs
  · split at hs
    · rename_i hd
      simp only [Except.ok.injEq] at hs
      subst hs
      exact ⟨_, _, rfl, h.of_keys (keys_delAt _ _ hd)⟩
    · cases hs
  · split at hs
    · simp only [Except.ok.injEq] at hs
      subst hs
      exact ⟨_, _, rfl, h⟩
    · rename_i k hk
      split at hs
      · split at hs
        · simp only [Except.ok.injEq] at hs
          subst hs
          exact ⟨_, _, rfl, h.adel _ _ hk⟩
        · cases hs
      · split at hs
        · rename_i hd
          simp only [Except.ok.injEq] at hs
          subst hs
          exact ⟨_, _, rfl, h.of_keys (keys_delAt _ _ hd)⟩
        · cases hs

theorem Val.Reach.inv {c : Val} (h : c.Reach) : ∃ data lc, c = .cont data lc ∧ CInv data lc := by
  induction h with
  | ofDict kvs hn => exact ⟨_, _, by rw [Val.toCont], CInv.ofDict kvs hn⟩
  | set r v _ hs ih =>
    obtain ⟨data, lc, rfl, hi⟩ := ih
    exact setItem_inv hi r v hs
  | del r _ hs ih =>
    obtain ⟨data, lc, rfl, hi⟩ := ih
    exact delItem_inv hi r hs

theorem CInv.noKey {data lc} (h : CInv data lc) {schema : Str}
    (hn : (Val.cont data lc).NoKeyFor schema) : aget (lower schema) lc = none := by
  cases hg : aget (lower schema) lc with
  | none => rfl
  | some k =>
    obtain ⟨h1, h2⟩ := h.sound _ _ hg
    exact absurd h1.symm (hn k h2)

theorem getAt_eq (b : Bool) (k : Str) (data : List (Str × Val)) (r : AttrRep) :
    getAt b k data r = match aget k data with
      | some v => Val.getX b v r
      | none => .error .keyError := by
  induction data with
  | nil => simp [getAt]
  | cons p rest ih =>
    obtain ⟨k', v⟩ := p
    simp only [getAt, aget_cons]
    split
    · rfl
    · exact ih

theorem delAt_eq (b : Bool) (k : Str) (data : List (Str × Val)) (r : AttrRep) :
    delAt b k data r = match aget k data with
      | some v => match Val.delX b v r with
        | .ok v' => .ok (aset k v' data)
        | .error e => .error e
      | none => .error .keyError := by
  induction data with
  | nil => simp [delAt]
  | cons p rest ih =>
    obtain ⟨k', v⟩ := p
    simp only [delAt, aget_cons, aset_cons]
    split
    · split <;> simp_all
    · rw [ih]
      cases aget k rest with
      | none => rfl
      | some w => cases hd : Val.delX b w r <;> simp [hd]

/-- Reading on a container, for any name whose schema names no key. -/
theorem getItem_noKey {data lc} {r : AttrRep} (hn : aget (lower r.schema) lc = none) :
    (Val.cont data lc).getItem r =
      match aget (lower r.attr) lc with
      | none => .ok .missing
      | some k => match aget k data with
        | none => .error .keyError
        | some v => if r.sub.isEmpty then .ok v else Val.getX true v { attr := r.sub } := by
  simp only [Val.getItem, Val.getX, Bool.false_and, Bool.false_eq_true, ↓reduceIte, hn, getAt_eq]
  cases aget (lower r.attr) lc with
  | none => rfl
  | some k => cases hd : aget k data <;> cases r.sub <;> simp [hd]

theorem getX_true_cont {data lc} {s : Str} (hs : isAttrName s = true)
    (h0 : aget (lower []) lc = none) :
    Val.getX true (.cont data lc) { attr := s } =
      match aget (lower s) lc with
      | none => .ok .missing
      | some k => match aget k data with
        | none => .error .keyError
        | some v => .ok v := by
  simp only [Val.getX, hs, Bool.not_true, Bool.and_false, Bool.false_eq_true, ↓reduceIte, h0,
    List.isEmpty_nil]
  cases aget (lower s) lc with
  | none => rfl
  | some k => cases hd : aget k data <;> simp [hd]

mutual
theorem dictVal_convVal (v : Val) (h : v.isJson = true) : dictVal (convVal v) = v := by
  cases v with
  | dict kvs =>
    simp only [convVal, dictVal]
    rw [dictPairs_convPairs kvs (by simpa [Val.isJson] using h)]
  | list xs =>
    simp only [convVal, dictVal]
    rw [dictItems_convItems xs (by simpa [Val.isJson] using h)]
  | prim p => simp [convVal, dictVal]
  | _ => simp [Val.isJson] at h
theorem dictItems_convItems (xs : List Val) (h : isJsonList xs = true) :
    dictItems (convItems xs) = xs := by
  cases xs with
  | nil => simp [convItems, dictItems]
  | cons v r =>
    simp only [isJsonList, Bool.and_eq_true] at h
    have hr := dictItems_convItems r h.2
    cases v with
    | dict kvs =>
      simp only [convItems, dictItems]
      rw [dictPairs_convPairs kvs (by simpa [Val.isJson] using h.1), hr]
    | list xs => simp [convItems, dictItems, hr]
    | prim p => simp [convItems, dictItems, hr]
    | _ => simp [Val.isJson] at h
theorem dictPairs_convPairs (kvs : List (Str × Val)) (h : isJsonPairs kvs = true) :
    dictPairs (convPairs kvs) = kvs := by
  cases kvs with
  | nil => simp [convPairs, dictPairs]
  | cons p r =>
    obtain ⟨k, v⟩ := p
    simp only [isJsonPairs, Bool.and_eq_true] at h
    simp only [convPairs, dictPairs]
    rw [dictVal_convVal v h.1, dictPairs_convPairs r h.2]
end

mutual
theorem getX_false_lower (v : Val) (b b' : AttrRep) (h : lower b.attr = lower b'.attr)
    (hs : lower b.schema = lower b'.schema) (hsub : b.sub = b'.sub) :
    Val.getX false v b = Val.getX false v b' := by
  cases v with
  | cont data lc =>
    simp only [Val.getX, Bool.false_and, Bool.false_eq_true, ↓reduceIte, hs, h, hsub]
    cases aget (lower b'.schema) lc with
    | none => rfl
    | some k => exact getAt_false_lower data k _ _ h rfl rfl
  | _ => simp [Val.getX]
theorem getAt_false_lower (data : List (Str × Val)) (k : Str) (b b' : AttrRep)
    (h : lower b.attr = lower b'.attr) (hs : lower b.schema = lower b'.schema) (hsub : b.sub = b'.sub) :
    getAt false k data b = getAt false k data b' := by
  cases data with
  | nil => simp [getAt]
  | cons p rest =>
    obtain ⟨k', v⟩ := p
    simp only [getAt]
    rw [getX_false_lower v b b' h hs hsub, getAt_false_lower rest k b b' h hs hsub]
end

/-- What the items of a freshly created multi-valued attribute look like. -/
theorem zipSet_fresh (s : Str) (hs : isAttrName s = true) (vs : List Val) :
    zipSet s vs (List.replicate vs.length .emptyCont) =
      .ok (vs.map (fun v => if v.isMissing then .emptyCont
        else .cont [(s, v)] [(lower s, s)])) := by
  induction vs with
  | nil => simp [zipSet]
  | cons v vs ih =>
    simp only [List.length_cons, List.replicate_succ, List.map_cons]
    cases v <;> simp [zipSet, ih, hs, Val.setPlain, aset, Val.isMissing]

end Scim
