import Verif.Spec.Config

/-! Lemmas about the configuration (C101). -/

namespace Scim.Config

theorem onlyFields_eq (fields : List Str) (kw : Kw) :
    onlyFields fields kw = if ∀ p ∈ kw, p.1 ∈ fields then .ok () else .error .typeError := by
  unfold onlyFields
  by_cases h : ∀ p ∈ kw, p.1 ∈ fields
  · rw [if_pos h, if_pos]
    simpa using h
  · rw [if_neg h, if_neg]
    simpa using h

/-- an option of a known shape can be unpacked -/
theorem option_known {names : List String} {v : Val} (h : KnownSettings names v) :
    ∃ kw, unpackOr v = .ok kw ∧ onlyFields (names.map String.toList) kw = .ok () ∧
      ∀ n d, (aget (String.toList n) kw).getD d = setting v n d := by
  rcases h with h | ⟨kvs, rfl, h⟩
  · refine ⟨[], by simp [unpackOr, h], by simp [onlyFields_eq], fun n d => ?_⟩
    unfold setting
    split
    · next kvs =>
      have : kvs = [] := by simpa [Val.truthy] using h
      subst this
      rfl
    · rfl
  · refine ⟨kvs, ?_, ?_, fun n d => rfl⟩
    · unfold unpackOr unpack
      split
      · rfl
      · next ht =>
        have : kvs = [] := by simpa [Val.truthy] using ht
        rw [this]
    · rw [onlyFields_eq, if_pos]
      intro p hp
      obtain ⟨n, hn, e⟩ := h p.1 p.2 hp
      exact List.mem_map.mpr ⟨n, hn, e.symm⟩

/-- any other option is refused -/
theorem option_unknown {names : List String} {v : Val} (h : ¬KnownSettings names v) :
    unpackOr v = .error .typeError ∨
      ∃ kw, unpackOr v = .ok kw ∧ onlyFields (names.map String.toList) kw = .error .typeError := by
  have ht : v.truthy = true := by
    cases e : v.truthy with
    | true => rfl
    | false => exact absurd (Or.inl e) h
  unfold unpackOr
  rw [if_pos ht]
  unfold unpack
  split
  · next kvs =>
    refine Or.inr ⟨kvs, rfl, ?_⟩
    rw [onlyFields_eq, if_neg]
    intro hall
    refine h (Or.inr ⟨kvs, rfl, fun k v hk => ?_⟩)
    obtain ⟨n, hn, e⟩ := List.mem_map.mp (hall _ hk)
    exact ⟨n, hn, e.symm⟩
  · exact Or.inl rfl

theorem generic_ok {v : Val} (h : KnownSettings ["supported"] v) :
    (unpackOr v).bind mkGeneric = .ok { supported := setting v "supported" (.bool false) } := by
  obtain ⟨kw, h1, h2, h3⟩ := option_known h
  rw [h1, ← h3]
  show mkGeneric kw = _
  unfold mkGeneric
  rw [show [supportedWord] = ["supported"].map String.toList from rfl, h2]
  rfl

theorem generic_error {v : Val} (h : ¬KnownSettings ["supported"] v) :
    (unpackOr v).bind mkGeneric = .error .typeError := by
  rcases option_unknown h with h1 | ⟨kw, h1, h2⟩
  · rw [h1]; rfl
  · rw [h1]
    show mkGeneric kw = _
    unfold mkGeneric
    rw [show [supportedWord] = ["supported"].map String.toList from rfl, h2]

theorem bulk_eq {v : Val} (h : KnownSettings ["supported", "max_operations", "max_payload_size"] v) :
    (unpackOr v).bind mkBulk =
      if (setting v "supported" (.bool false)).truthy &&
          !((setting v "max_payload_size" .null).truthy && (setting v "max_operations" .null).truthy) then .error .valueError
      else .ok { supported := setting v "supported" (.bool false)
                 maxOperations := setting v "max_operations" .null
                 maxPayloadSize := setting v "max_payload_size" .null } := by
  obtain ⟨kw, h1, h2, h3⟩ := option_known h
  rw [h1, ← h3, ← h3, ← h3]
  show mkBulk kw = _
  unfold mkBulk
  rw [show [supportedWord, maxOperationsWord, maxPayloadSizeWord] =
    ["supported", "max_operations", "max_payload_size"].map String.toList from rfl, h2]
  simp only [List.all_cons, List.all_nil, Bool.and_true]
  rfl

theorem bulk_error {v : Val} (h : ¬KnownSettings ["supported", "max_operations", "max_payload_size"] v) :
    (unpackOr v).bind mkBulk = .error .typeError := by
  rcases option_unknown h with h1 | ⟨kw, h1, h2⟩
  · rw [h1]; rfl
  · rw [h1]
    show mkBulk kw = _
    unfold mkBulk
    rw [show [supportedWord, maxOperationsWord, maxPayloadSizeWord] =
      ["supported", "max_operations", "max_payload_size"].map String.toList from rfl, h2]

theorem filter_eq {v : Val} (h : KnownSettings ["supported", "max_results"] v) :
    (unpackOr v).bind mkFiltering =
      if (setting v "supported" (.bool false)).truthy && !(setting v "max_results" .null).truthy then .error .valueError
      else .ok { supported := setting v "supported" (.bool false), maxResults := setting v "max_results" .null } := by
  obtain ⟨kw, h1, h2, h3⟩ := option_known h
  rw [h1, ← h3, ← h3]
  show mkFiltering kw = _
  unfold mkFiltering
  rw [show [supportedWord, maxResultsWord] = ["supported", "max_results"].map String.toList from rfl, h2]
  rfl

theorem filter_error {v : Val} (h : ¬KnownSettings ["supported", "max_results"] v) :
    (unpackOr v).bind mkFiltering = .error .typeError := by
  rcases option_unknown h with h1 | ⟨kw, h1, h2⟩
  · rw [h1]; rfl
  · rw [h1]
    show mkFiltering kw = _
    unfold mkFiltering
    rw [show [supportedWord, maxResultsWord] = ["supported", "max_results"].map String.toList from rfl, h2]

theorem mkScheme_iff (item : Val) (s : Scheme) : mkScheme item = .ok s ↔ IsScheme item s := by
  unfold mkScheme IsScheme
  constructor
  · intro h
    split at h
    · cases h
    · next kw hu =>
      split at h
      · cases h
      · next ho =>
        split at h
        · next n d u w t h1 h2 h3 h4 h5 =>
          cases h
          refine ⟨kw, ?_, fun k v hk => ?_, h1, h2, h3, h4, h5⟩
          · unfold unpack at hu
            split at hu
            · cases hu; rfl
            · cases hu
          · rw [onlyFields_eq] at ho
            split at ho
            · next hall =>
              have := hall _ hk
              simp only [schemeFields, List.mem_cons, List.not_mem_nil, or_false] at this
              rcases this with e | e | e | e | e
              · exact ⟨"name", by simp, e⟩
              · exact ⟨"description", by simp, e⟩
              · exact ⟨"spec_uri", by simp, e⟩
              · exact ⟨"documentation_uri", by simp, e⟩
              · exact ⟨"type", by simp, e⟩
            · cases ho
        · cases h
  · rintro ⟨kvs, rfl, hk, h1, h2, h3, h4, h5⟩
    simp only [unpack]
    rw [onlyFields_eq, if_pos]
    · simp only [h1, h2, h3, h4, h5]
    · intro p hp
      obtain ⟨n, hn, e⟩ := hk p.1 p.2 hp
      rw [e, show schemeFields = ["name", "description", "spec_uri", "documentation_uri", "type"].map String.toList from rfl]
      exact List.mem_map.mpr ⟨n, hn, rfl⟩

theorem mkScheme_error (item : Val) (e : PyErr) (h : mkScheme item = .error e) : e = .typeError := by
  unfold mkScheme at h
  split at h
  · next hu =>
    cases h
    unfold unpack at hu
    split at hu <;> cases hu
    rfl
  · split at h
    · next ho =>
      cases h
      rw [onlyFields_eq] at ho
      split at ho <;> cases ho
      rfl
    · split at h <;> cases h
      rfl

theorem mkSchemes_iff (items : List Val) (ss : List Scheme) :
    mkSchemes items = .ok ss ↔ items.length = ss.length ∧
      ∀ (i : Nat) item s, items[i]? = some item → ss[i]? = some s → IsScheme item s := by
  induction items generalizing ss with
  | nil => cases ss <;> simp [mkSchemes]
  | cons v vs ih =>
    unfold mkSchemes
    constructor
    · intro h
      split at h
      · cases h
      · next s hs =>
        split at h
        · cases h
        · next ss' hss =>
          cases h
          obtain ⟨hl, hi⟩ := (ih ss').mp hss
          refine ⟨by simp [hl], fun i item t h1 h2 => ?_⟩
          cases i with
          | zero =>
            simp only [List.getElem?_cons_zero, Option.some.injEq] at h1 h2
            subst h1 h2
            exact (mkScheme_iff v s).mp hs
          | succ i => exact hi i item t (by simpa using h1) (by simpa using h2)
    · rintro ⟨hl, hi⟩
      cases ss with
      | nil => simp at hl
      | cons s ss' =>
        rw [(mkScheme_iff v s).mpr (hi 0 v s rfl rfl)]
        dsimp only
        rw [(ih ss').mpr ⟨by simpa using hl, fun i item t h1 h2 => hi (i + 1) item t (by simpa using h1) (by simpa using h2)⟩]

theorem mkSchemes_error (items : List Val) (e : PyErr) (h : mkSchemes items = .error e) : e = .typeError := by
  induction items with
  | nil => cases h
  | cons v vs ih =>
    unfold mkSchemes at h
    split at h
    · next hs => cases h; exact mkScheme_error v _ hs
    · split at h
      · next hs => cases h; exact ih hs
      · cases h

theorem schemes_iff (v : Val) (ss : List Scheme) :
    (schemeItems v).bind mkSchemes = .ok ss ↔ AreSchemes v ss := by
  unfold schemeItems AreSchemes
  cases ht : v.truthy with
  | false =>
    simp only [Bool.false_eq_true, if_false]
    show mkSchemes [] = .ok ss ↔ _
    constructor
    · intro h; cases h; exact Or.inl ⟨trivial, rfl⟩
    · rintro (⟨-, rfl⟩ | ⟨items, rfl, hn, -⟩)
      · rfl
      · cases items with
        | nil => exact absurd rfl hn
        | cons _ _ => simp [Val.truthy] at ht
  | true =>
    simp only [if_true]
    split
    · next xs =>
      show mkSchemes xs = .ok ss ↔ _
      rw [mkSchemes_iff]
      constructor
      · rintro ⟨h1, h2⟩
        refine Or.inr ⟨xs, rfl, ?_, h1, h2⟩
        rintro rfl
        simp [Val.truthy] at ht
      · rintro (⟨h, -⟩ | ⟨items, e, -, h1, h2⟩)
        · cases h
        · cases e; exact ⟨h1, h2⟩
    · next hl =>
      constructor
      · intro h; cases h
      · rintro (⟨h, -⟩ | ⟨items, e, -⟩)
        · cases h
        · exact absurd e (hl items)

theorem schemes_error (v : Val) (h : ¬∃ ss, AreSchemes v ss) : (schemeItems v).bind mkSchemes = .error .typeError := by
  cases e : (schemeItems v).bind mkSchemes with
  | ok ss => exact absurd ⟨ss, (schemes_iff v ss).mp e⟩ h
  | error x =>
    unfold schemeItems at e
    split at e
    · split at e
      · rw [mkSchemes_error _ x e]
      · cases e; rfl
    · cases e

/-- the limits are given where they must be -/
def Limited (a : Args) : Prop := ¬BulkUnlimited a ∧ ¬FilterUnlimited a

theorem create_wf {a : Args} {ss : List Scheme} (h : WellFormed a ss) :
    (Limited a → create a = .ok (configured a ss)) ∧ (¬Limited a → create a = .error .valueError) := by
  have hs := (schemes_iff a.schemes ss).mpr h.schemes
  have hb := bulk_eq h.bulk
  have hf := filter_eq h.filter
  have e1 : ((setting a.bulk "supported" (.bool false)).truthy &&
      !((setting a.bulk "max_payload_size" .null).truthy && (setting a.bulk "max_operations" .null).truthy)) = true ↔
      BulkUnlimited a := by
    unfold BulkUnlimited
    cases (setting a.bulk "supported" (.bool false)).truthy <;> cases (setting a.bulk "max_payload_size" .null).truthy <;>
      cases (setting a.bulk "max_operations" .null).truthy <;> simp
  have e2 : ((setting a.filter "supported" (.bool false)).truthy && !(setting a.filter "max_results" .null).truthy) = true ↔
      FilterUnlimited a := by
    unfold FilterUnlimited
    cases (setting a.filter "supported" (.bool false)).truthy <;> cases (setting a.filter "max_results" .null).truthy <;> simp
  unfold create
  rw [generic_ok h.patch, generic_ok h.changePassword, generic_ok h.sort, generic_ok h.etag, hs, hb, hf]
  constructor
  · rintro ⟨h1, h2⟩
    rw [if_neg (mt e1.mp h1), if_neg (mt e2.mp h2)]
    rfl
  · intro hl
    by_cases h1 : BulkUnlimited a
    · rw [if_pos (e1.mpr h1)]
    · have h2 : FilterUnlimited a := Classical.not_not.mp fun h2 => hl ⟨h1, h2⟩
      rw [if_neg (mt e1.mp h1), if_pos (e2.mpr h2)]

/-- what cannot be made sense of is refused -/
theorem create_not_wf {a : Args} (h : ¬∃ ss, WellFormed a ss) :
    create a = .error .typeError ∨ create a = .error .valueError := by
  unfold create
  by_cases h1 : KnownSettings ["supported"] a.patch
  case neg => rw [generic_error h1]; exact Or.inl rfl
  rw [generic_ok h1]
  dsimp only
  by_cases h2 : KnownSettings ["supported", "max_operations", "max_payload_size"] a.bulk
  case neg => rw [bulk_error h2]; exact Or.inl rfl
  rw [bulk_eq h2]
  by_cases hb : ((setting a.bulk "supported" (.bool false)).truthy &&
      !((setting a.bulk "max_payload_size" .null).truthy && (setting a.bulk "max_operations" .null).truthy)) = true
  case pos => rw [if_pos hb]; exact Or.inr rfl
  rw [if_neg hb]
  dsimp only
  by_cases h3 : KnownSettings ["supported", "max_results"] a.filter
  case neg => rw [filter_error h3]; exact Or.inl rfl
  rw [filter_eq h3]
  by_cases hf : ((setting a.filter "supported" (.bool false)).truthy && !(setting a.filter "max_results" .null).truthy) = true
  case pos => rw [if_pos hf]; exact Or.inr rfl
  rw [if_neg hf]
  dsimp only
  by_cases h4 : KnownSettings ["supported"] a.changePassword
  case neg => rw [generic_error h4]; exact Or.inl rfl
  rw [generic_ok h4]
  dsimp only
  by_cases h5 : KnownSettings ["supported"] a.sort
  case neg => rw [generic_error h5]; exact Or.inl rfl
  rw [generic_ok h5]
  dsimp only
  by_cases h6 : KnownSettings ["supported"] a.etag
  case neg => rw [generic_error h6]; exact Or.inl rfl
  rw [generic_ok h6]
  dsimp only
  by_cases h7 : ∃ ss, AreSchemes a.schemes ss
  case neg => rw [schemes_error _ h7]; exact Or.inl rfl
  obtain ⟨ss, h7⟩ := h7
  exact absurd ⟨ss, h1, h2, h3, h4, h5, h6, h7⟩ h

end Scim.Config
