import Verif.Spec.Valid
import Verif.Lemmas.Declared
import Verif.Lemmas.Totality
import Verif.Props.Types
import Verif.Props.Attributes
import Verif.Lemmas.SchemaWF

/-! Processing reports nothing exactly for valid values. -/

namespace Scim.Valid
variable [PyEnv]
open Declared Issues

theorem blocking_hasIssues (c : Nat) : (blocking c).hasIssues = true := rfl

/-- A type accepts exactly the values described. -/
theorem conv_typeOk {m : Mode} {t : AttrType} (hc : t ≠ .complex) {v r : Val} {i : Issues}
    (h : t.conv m v = .ok (r, i)) : i.hasIssues = false ↔ TypeOk m t v := by
  have bad : badType.2.hasIssues = true := rfl
  cases t with
  | unknown =>
    replace h : Except.ok (v, {}) = (.ok (r, i) : PyM (Val × Issues)) := by cases m <;> exact h
    cases h
    exact ⟨fun _ => trivial, fun _ => rfl⟩
  | complex => exact absurd rfl hc
  | boolean =>
    replace h : booleanConv v = .ok (r, i) := by cases m <;> exact h
    unfold booleanConv at h
    unfold TypeOk
    split at h
    · cases h; exact ⟨fun _ => ⟨_, rfl⟩, fun _ => rfl⟩
    · rename_i hne
      cases h
      exact ⟨fun h => (by cases h), fun ⟨b, e⟩ => absurd e (hne b)⟩
  | decimal =>
    replace h : decimalConv v = .ok (r, i) := by cases m <;> exact h
    unfold decimalConv at h
    unfold TypeOk
    split at h
    · cases h; exact ⟨fun _ => .inl ⟨_, rfl⟩, fun _ => rfl⟩
    · rename_i p hne
      cases p with
      | none => cases h; exact ⟨fun h => (by cases h), by rintro (⟨_, e⟩ | ⟨_, e⟩ | ⟨_, e⟩) <;> cases e⟩
      | str s => cases h; exact ⟨fun h => (by cases h), by rintro (⟨_, e⟩ | ⟨_, e⟩ | ⟨_, e⟩) <;> cases e⟩
      | flt f => exact absurd rfl (hne f)
      | int n =>
        rw [show (Val.prim (Prim.int n)).isPyInt = true from rfl, if_pos rfl] at h
        split at h
        · cases h; exact ⟨fun _ => .inr (.inl ⟨_, rfl⟩), fun _ => rfl⟩
        · cases h
      | bool b =>
        rw [show (Val.prim (Prim.bool b)).isPyInt = true from rfl, if_pos rfl] at h
        split at h
        · cases h; exact ⟨fun _ => .inr (.inr ⟨_, rfl⟩), fun _ => rfl⟩
        · cases h
    · rename_i h1 h2
      cases h
      exact ⟨fun h => (by cases h), by
        rintro (⟨f, e⟩ | ⟨n, e⟩ | ⟨b, e⟩) <;> exact absurd e (h2 _)⟩
  | integer =>
    replace h : integerConv v = .ok (r, i) := by cases m <;> exact h
    unfold integerConv at h
    unfold TypeOk
    split at h
    · rename_i f
      split at h
      · cases h
      · split at h
        · rename_i hf; cases h; exact ⟨fun _ => .inl ⟨_, rfl, hf⟩, fun _ => rfl⟩
        · rename_i hf
          cases h
          refine ⟨fun h => (by cases h), ?_⟩
          rintro (⟨f', e, hf'⟩ | ⟨n, e⟩ | ⟨b, e⟩)
          · cases e; exact absurd hf' hf
          · cases e
          · cases e
    · cases h; exact ⟨fun _ => .inr (.inl ⟨_, rfl⟩), fun _ => rfl⟩
    · cases h; exact ⟨fun _ => .inr (.inr ⟨_, rfl⟩), fun _ => rfl⟩
    · rename_i h1 h2 h3
      cases h
      refine ⟨fun h => (by cases h), ?_⟩
      rintro (⟨f', e, hf'⟩ | ⟨n, e⟩ | ⟨b, e⟩)
      · exact absurd e (h1 _)
      · exact absurd e (h2 _)
      · exact absurd e (h3 _)
  | string | uriRef | scimRef =>
    replace h : stringConv v = .ok (r, i) := by cases m <;> exact h
    unfold stringConv at h
    unfold TypeOk
    split at h
    · cases h; exact ⟨fun _ => ⟨_, rfl⟩, fun _ => rfl⟩
    · rename_i hne
      cases h
      exact ⟨fun h => (by cases h), fun ⟨b, e⟩ => absurd e (hne b)⟩
  | binary =>
    replace h : binaryConv v = .ok (r, i) := by cases m <;> exact h
    unfold binaryConv at h
    unfold TypeOk
    split at h
    · rename_i s
      split at h
      · cases h
      · rename_i ha
        have hcan := C18_encode_iff_canonical s
        split at h
        · rename_i hd
          cases h
          refine ⟨fun h => (by cases h), ?_⟩
          rintro ⟨s', e, hs⟩
          cases e
          obtain ⟨bs, rfl⟩ := hcan.mpr hs
          rw [b64Decode_encode] at hd
          cases hd
        · rename_i bs hd
          split at h
          · rename_i hne
            cases h
            refine ⟨fun h => (by cases h), ?_⟩
            rintro ⟨s', e, hs⟩
            cases e
            obtain ⟨bs', rfl⟩ := hcan.mpr hs
            rw [b64Decode_encode] at hd
            cases hd
            exact absurd rfl hne
          · rename_i heq
            cases h
            exact ⟨fun _ => ⟨s, rfl, hcan.mp ⟨bs, by simpa using Eq.symm (Classical.not_not.mp heq)⟩⟩, fun _ => rfl⟩
    · rename_i hne
      cases h
      exact ⟨fun h => (by cases h), fun ⟨b, e, _⟩ => absurd e (hne b)⟩
  | extRef =>
    replace h : extRefConv v = .ok (r, i) := by cases m <;> exact h
    unfold extRefConv at h
    unfold TypeOk
    split at h
    · rename_i s
      split at h
      · rename_i hs; cases h; exact ⟨fun _ => ⟨_, rfl, hs⟩, fun _ => rfl⟩
      · rename_i hs
        cases h
        refine ⟨fun h => (by cases h), ?_⟩
        rintro ⟨s', e, hs'⟩
        cases e; exact absurd hs' hs
    · rename_i hne
      cases h
      exact ⟨fun h => (by cases h), fun ⟨b, e, _⟩ => absurd e (hne b)⟩
  | dateTime =>
    cases m with
    | parse =>
      simp only [AttrType.conv, AttrType.parse] at h
      simp only [TypeOk]
      split at h
      · rename_i s
        split at h
        · rename_i d hd; cases h; exact ⟨fun _ => ⟨_, _, rfl, hd⟩, fun _ => rfl⟩
        · rename_i hd
          cases h
          refine ⟨fun h => (by cases h), ?_⟩
          rintro ⟨s', d, e, hs'⟩
          cases e; rw [hd] at hs'; cases hs'
      · rename_i hne
        cases h
        exact ⟨fun h => (by cases h), fun ⟨b, _, e, _⟩ => absurd e (hne b)⟩
    | dump =>
      simp only [AttrType.conv, AttrType.dump] at h
      simp only [TypeOk]
      split at h
      · cases h; exact ⟨fun _ => ⟨_, rfl⟩, fun _ => rfl⟩
      · rename_i hne
        cases h
        exact ⟨fun h => (by cases h), fun ⟨b, e⟩ => absurd e (hne b)⟩

/-! ### Simple attributes -/

theorem typeOk_conv {m : Mode} {t : AttrType} (hc : t ≠ .complex) (v : Val) :
    TypeOk m t (convVal v) ↔ TypeOk m t v := by
  cases v <;> cases t <;> cases m <;> first | exact absurd rfl hc | simp [TypeOk, convVal]

theorem typeOk_item {m : Mode} {t : AttrType} (hc : t ≠ .complex) (v : Val) :
    TypeOk m t (itemConv v) ↔ TypeOk m t v := by
  cases v <;> cases t <;> cases m <;> first | exact absurd rfl hc | simp [TypeOk, itemConv, Val.toCont]

/-- The checks of one value. -/
theorem processOne_ok {m : Mode} {i : AttrInfo} (hc : i.type ≠ .complex)
    (hcan : i.validateCanon = true → i.type = .string ∧ normCanonical i.caseExact i.canonical = i.canonical)
    {loc : Loc} {v r : Val} {acc is : Issues} (h : i.processOne m loc v acc = .ok (r, is)) :
    is.hasIssues = false ↔ acc.hasIssues = false ∧ OneOk m i v := by
  unfold AttrInfo.processOne at h
  split at h
  · cases h
  · rename_i item j hj
    have ht := conv_typeOk hc hj
    dsimp only at h
    unfold OneOk
    by_cases hv : i.validateCanon = true
    · obtain ⟨hstr, hnorm⟩ := hcan hv
      rw [hstr] at hj ht
      replace hj : stringConv v = .ok (item, j) := by cases m <;> exact hj
      unfold stringConv at hj
      split at hj
      · rename_i s
        cases hj
        have key : i.isCanonical (.str s) = true ↔
            ∀ cs, i.canonical = some cs → ∃ p c, Val.str s = .prim p ∧ c ∈ cs ∧ IsCanonicalValue i.caseExact p c := by
          unfold AttrInfo.isCanonical
          cases hcs : i.canonical with
          | none => simp
          | some cs =>
            rw [hcs] at hnorm
            have hn : cs.map (Prim.normCase i.caseExact) = cs := by simpa [normCanonical] using hnorm
            have := canonical_iff i.caseExact cs (.str s)
            rw [hn] at this
            constructor
            · intro h cs' e
              cases e
              obtain ⟨c, hc1, hc2⟩ := this.mp h
              exact ⟨.str s, c, rfl, hc1, hc2⟩
            · intro h
              obtain ⟨p, c, e, hc1, hc2⟩ := h cs rfl
              cases e
              exact this.mpr ⟨c, hc1, hc2⟩
        rw [hstr]
        by_cases hk : i.isCanonical (.str s) = true
        · rw [hk] at h
          simp only [Bool.not_true, Bool.false_and, Bool.false_eq_true, if_false] at h
          cases h
          rw [hasIssues_merge_false, ht]
          simp only [hv, true_implies]
          exact ⟨fun ⟨h1, h2⟩ => ⟨h1, h2, key.mp hk⟩, fun ⟨h1, h2, _⟩ => ⟨h1, h2⟩⟩
        · have hk' : i.isCanonical (.str s) = false := by simpa using hk
          rw [hk', hv] at h
          simp only [Bool.not_false, Bool.true_and, if_true] at h
          cases h
          rw [hasIssues_add]
          exact ⟨fun h => (by cases h), fun ⟨_, _, h3⟩ => absurd (key.mpr (h3 hv)) hk⟩
      · rename_i hne
        cases hj
        have hbad : ¬ TypeOk m .string v := fun ⟨s, e⟩ => hne s e
        have hcn : i.isCanonical .invalid = true := by unfold AttrInfo.isCanonical; rfl
        rw [hcn] at h
        simp only [Bool.not_true, Bool.false_and, Bool.false_eq_true, if_false] at h
        cases h
        rw [hstr, hasIssues_merge_false]
        exact ⟨fun ⟨_, h2⟩ => (by cases h2), fun ⟨_, h2, _⟩ => absurd h2 hbad⟩
    · have hv' : i.validateCanon = false := by simpa using hv
      rw [hv'] at h
      simp only [Bool.and_false, Bool.false_eq_true, if_false] at h
      cases h
      rw [hasIssues_merge_false, ht]
      simp [hv']

theorem oneOk_conv {m : Mode} {i : AttrInfo} (hc : i.type ≠ .complex) (v : Val) :
    OneOk m i (convVal v) ↔ OneOk m i v := by
  unfold OneOk
  rw [typeOk_conv hc]
  have : ∀ p, convVal v = .prim p ↔ v = .prim p := by intro p; cases v <;> simp [convVal]
  simp only [this]

theorem oneOk_item {m : Mode} {i : AttrInfo} (hc : i.type ≠ .complex) (v : Val) :
    OneOk m i (itemConv v) ↔ OneOk m i v := by
  unfold OneOk
  rw [typeOk_item hc]
  have : ∀ p, itemConv v = .prim p ↔ v = .prim p := by intro p; cases v <;> simp [itemConv, Val.toCont]
  simp only [this]

theorem processItems_ok {m : Mode} {i : AttrInfo} (hc : i.type ≠ .complex)
    (hcan : i.validateCanon = true → i.type = .string ∧ normCanonical i.caseExact i.canonical = i.canonical) :
    ∀ (xs : List Val) (k : Nat) (rs : List Val) (acc is : Issues), i.processItems m k xs acc = .ok (rs, is) →
      (is.hasIssues = false ↔ acc.hasIssues = false ∧ ∀ x ∈ xs, OneOk m i x)
  | [], _, _, _, _, h => by cases h; simp
  | x :: xs, k, rs, acc, is, h => by
    unfold AttrInfo.processItems at h
    split at h
    · cases h
    · rename_i h1
      split at h
      · cases h
      · rename_i h2
        cases h
        rw [processItems_ok hc hcan xs _ _ _ _ h2, processOne_ok hc hcan h1]
        simp [and_assoc]

theorem convItems_eq (xs : List Val) : convItems xs = xs.map itemConv := by
  apply List.ext_getElem?
  intro i
  rw [convItems_get, List.getElem?_map]

/-- The single value of a simple attribute is not changed by conversion unless it is an object or list. -/
theorem isNone_conv (v : Val) : (convVal v).isNone = true ↔ v = .null := by
  cases v with
  | prim p => cases p <;> simp [convVal, Val.isNone]
  | _ => simp [convVal, Val.isNone]

/-- **Simple attributes**. -/
theorem simple_ok {m : Mode} {i : AttrInfo} (hu : Usual m (.simple i)) {v r : Val} {is : Issues}
    (h : (Attr.simple i).process m (convVal v) = .ok (r, is)) : is.hasIssues = false ↔ ValidFor m (.simple i) v := by
  unfold Usual at hu
  obtain ⟨-, hc, hp, hcan⟩ := hu
  unfold Attr.process at h
  rw [info_process_eq] at h
  unfold ValidFor
  by_cases hn : (convVal v).isNone = true
  · rw [if_pos hn] at h
    cases h
    exact ⟨fun _ => .inl ((isNone_conv v).mp hn), fun _ => rfl⟩
  · rw [if_neg hn] at h
    have hv : v ≠ .null := fun e => hn ((isNone_conv v).mpr e)
    unfold AttrInfo.base at h
    by_cases hm : i.multi = true
    · simp only [hm, if_true] at h ⊢
      have hp' : i.procs m = [] := by
        rcases hp with hp | ⟨_, hp, _⟩
        · exact hp
        · rw [hm] at hp; cases hp
      rw [hp'] at h
      cases v with
      | list xs =>
        simp only [convVal] at h
        split at h
        · cases h
        · rename_i e; split at e <;> cases e
        · rename_i q j e
          split at e
          · cases e
          · rename_i items j' hi
            cases e
            simp only [runProcs, ite_self] at h
            cases h
            rw [processItems_ok hc hcan _ _ _ _ _ hi, convItems_eq]
            simp only [List.mem_map, forall_exists_index, and_imp, forall_apply_eq_imp_iff₂, oneOk_item hc]
            constructor
            · rintro ⟨-, h⟩
              exact .inr ⟨xs, rfl, h⟩
            · rintro (e | ⟨ys, e, h⟩)
              · cases e
              · cases e; exact ⟨rfl, h⟩
      | _ =>
        simp only [convVal] at h
        cases h
        refine ⟨fun h => (by cases h), ?_⟩
        rintro (e | ⟨ys, e, h⟩)
        · exact absurd e hv
        · cases e
    · have hm' : i.multi = false := by simpa using hm
      simp only [hm', Bool.false_eq_true, if_false] at h ⊢
      split at h
      · cases h
      · rename_i e; split at e <;> cases e
      · rename_i q j e
        split at e
        · cases e
        · rename_i q' j' hi
          cases e
          have h1 := processOne_ok hc hcan hi
          rw [oneOk_conv hc] at h1
          have h1 : j.hasIssues = false ↔ OneOk m i v := by rw [h1]; exact ⟨fun h => h.2, fun h => ⟨rfl, h⟩⟩
          by_cases hj : j.hasIssues = true
          · rw [if_pos hj] at h
            cases h
            refine ⟨fun h => (by rw [h] at hj; cases hj), ?_⟩
            rintro (e | ⟨h, -⟩)
            · exact absurd e hv
            · rw [h1.mpr h] at hj; cases hj
          · have hj' : j.hasIssues = false := by simpa using hj
            rw [if_neg hj] at h
            have hone := h1.mp hj'
            rcases hp with hp | ⟨hstr, -, hp⟩
            · rw [hp] at h
              cases h
              refine ⟨fun _ => .inr ⟨hone, fun hb => ?_⟩, fun _ => hj'⟩
              rw [hp] at hb; cases hb
            · rw [hp] at h
              obtain ⟨⟨s, rfl⟩, -⟩ : TypeOk m .string v ∧ _ := by
                have := hone.1
                rw [hstr] at this
                exact ⟨this, trivial⟩
              have hq : q = .str s := by
                unfold AttrInfo.processOne at hi
                rw [hstr] at hi
                have : AttrType.conv m .string (convVal (.str s)) = .ok (.str s, {}) := by cases m <;> rfl
                rw [this] at hi
                dsimp only at hi
                split at hi
                · cases hi
                  rw [hasIssues_add] at hj'; cases hj'
                · cases hi; rfl
              subst hq
              simp only [runProcs, bulkIdValidator] at h
              by_cases hinf : isInfix bulkIdWord s = true
              · rw [if_pos hinf] at h
                cases h
                rw [hasIssues_merge_false]
                refine ⟨fun h => (by cases h.2), ?_⟩
                rintro (e | ⟨-, h⟩)
                · cases e
                · exact absurd ((isInfix_iff _ _).mp hinf) (h (by rw [hp]; exact List.mem_singleton.mpr rfl) s rfl)
              · rw [if_neg hinf] at h
                cases h
                rw [hasIssues_merge_false]
                refine ⟨fun _ => .inr ⟨hone, fun _ s' e => ?_⟩, fun _ => ⟨hj', rfl⟩⟩
                cases e
                exact fun hcon => hinf ((isInfix_iff _ _).mpr hcon)

/-! ### Complex attributes -/

omit [PyEnv] in
theorem tameList_iff {xs : List Val} : TameList xs ↔ ∀ x ∈ xs, x.Tame := by
  induction xs with
  | nil => simp [TameList]
  | cons x r ih => simp [TameList, ih]

omit [PyEnv] in
theorem tamePairs_iff {D : List (Str × Val)} : TamePairs D ↔ ∀ p ∈ D, p.2.Tame := by
  induction D with
  | nil => simp [TamePairs]
  | cons x r ih => obtain ⟨k, v⟩ := x; simp [TamePairs, ih]

theorem found_mem {n : Str} {D : List (Str × Val)} {x : Val} (h : found n D = some x) :
    ∃ k, (k, x) ∈ D ∧ lower k = lower n := by
  unfold found at h
  cases hl : ((D.map (·.1)).filter (fun k => lower k = lower n)).getLast? with
  | none => rw [hl] at h; cases h
  | some k =>
    rw [hl] at h
    have hk := List.mem_of_getLast? hl
    simp only [List.mem_filter, decide_eq_true_eq] at hk
    exact ⟨k, mem_of_aget h, hk.2⟩

theorem found_none {n : Str} {D : List (Str × Val)} (h : ∀ k ∈ D.map (·.1), lower k ≠ lower n) : found n D = none := by
  unfold found
  have : (D.map (·.1)).filter (fun k => lower k = lower n) = [] := by
    rw [List.filter_eq_nil_iff]
    intro k hk
    simpa using h k hk
  rw [this]; rfl

theorem found_tame {D : List (Str × Val)} (h : (Val.dict D).Tame) {n : Str} {x : Val} (hx : found n D = some x) : x.Tame := by
  unfold Val.Tame at h
  obtain ⟨k, hk, -⟩ := found_mem hx
  exact tamePairs_iff.mp h.2.2 _ hk

theorem found_nil {D : List (Str × Val)} (h : (Val.dict D).Tame) : found [] D = none := by
  unfold Val.Tame at h
  refine found_none fun k hk e => ?_
  rw [lower_nil] at e
  have : k = [] := (PyEnv.lower_eq_nil k).1 e
  rw [this] at hk
  exact h.2.1 hk

theorem clear_of_tame {D : List (Str × Val)} (h : (Val.dict D).Tame) {r : AttrRep} (hr : r.schema = []) : Clear r D :=
  .inl (by rw [hr]; exact found_nil h)

theorem look_tame {D : List (Str × Val)} (h : (Val.dict D).Tame) {r : AttrRep} {x : Val} (hx : look r D = some x) : x.Tame := by
  unfold look at hx
  split at hx
  · rename_i E hE
    exact found_tame (found_tame h hE) hx
  · exact found_tame h hx

theorem look_plain {D : List (Str × Val)} (h : (Val.dict D).Tame) {r : AttrRep} (hr : r.schema = []) :
    look r D = found r.attr D := by
  unfold look
  rw [hr, found_nil h]

theorem conv_not_missing {v : Val} (h : v.Tame) : convVal v ≠ .missing := by
  cases v <;> simp [convVal, Val.Tame] at h ⊢

/-- One step over a sub-attribute. -/
theorem processSubs_mono {m : Mode} : ∀ (ss : List Attr) {loc : Loc} {item parsed : Val} {acc : Issues} {r : Val} {is : Issues},
    processSubs m ss loc item parsed acc = .ok (r, is) → acc.hasIssues = true → is.hasIssues = true
  | [], _, _, _, _, _, _, h, ha => by unfold processSubs at h; cases h; exact ha
  | s :: ss, loc, item, parsed, acc, r, is, h, ha => by
    unfold processSubs at h
    split at h
    · cases h
    · exact processSubs_mono ss h ha
    · split at h
      · cases h
      · split at h
        · cases h
        · exact processSubs_mono ss h ((hasIssues_merge _ _ _).mpr (.inl ha))

theorem complexItems_mono {m : Mode} {ss : List Attr} : ∀ (xs : List Val) {k : Nat} {acc : Issues} {rs : List Val} {is : Issues},
    complexItems (fun loc item is => processSubs m ss loc item .emptyCont is) k xs acc = .ok (rs, is) →
      acc.hasIssues = true → is.hasIssues = true
  | [], _, _, _, _, h, ha => by cases h; exact ha
  | x :: xs, k, acc, rs, is, h, ha => by
    unfold complexItems at h
    split at h
    · cases h
    · rename_i h1
      split at h
      · cases h
      · rename_i h2
        cases h
        exact complexItems_mono xs h2 (processSubs_mono ss h1 ha)

/-- The items of a complex attribute are objects. -/
theorem complexInfo_items {m : Mode} {i : AttrInfo} (ht : i.type = .complex) (hv : i.validateCanon = false) :
    ∀ (xs : List Val) (k : Nat) (rs : List Val) (acc is : Issues), (∀ x ∈ xs, x.Tame) →
      i.processItems m k (xs.map itemConv) acc = .ok (rs, is) →
      ((is.hasIssues = false ↔ acc.hasIssues = false ∧ ∀ x ∈ xs, ∃ D, x = .dict D) ∧
        ((∀ x ∈ xs, ∃ D, x = .dict D) → rs = xs.map itemConv ∧ is = acc))
  | [], _, _, _, _, _, h => by cases h; simp
  | x :: xs, k, rs, acc, is, htm, h => by
    rw [List.map_cons] at h
    unfold AttrInfo.processItems at h
    split at h
    · cases h
    · rename_i item j h1
      split at h
      · cases h
      · rename_i items j' h2
        cases h
        obtain ⟨e1, e2⟩ := complexInfo_items ht hv xs _ _ _ _ (fun y hy => htm y (List.mem_cons_of_mem _ hy)) h2
        unfold AttrInfo.processOne at h1
        rw [ht, complex_conv] at h1
        by_cases hd : ∃ D, x = .dict D
        · obtain ⟨D, rfl⟩ := hd
          rw [show (itemConv (.dict D)).isCont = true from rfl] at h1
          simp only [if_true, hv, Bool.and_false, Bool.false_eq_true, if_false] at h1
          cases h1
          rw [merge_nil _ _ _ rfl] at e1 e2
          rw [e1]
          refine ⟨by simp, fun h => ?_⟩
          obtain ⟨e3, e4⟩ := e2 fun y hy => h y (List.mem_cons_of_mem _ hy)
          rw [e3, e4]
          exact ⟨rfl, rfl⟩
        · have hc : (itemConv x).isCont = false := by
            have htx := htm x List.mem_cons_self
            cases x <;> simp [Val.Tame] at htx <;> first | rfl | exact absurd ⟨_, rfl⟩ hd
          rw [hc] at h1
          simp only [Bool.false_eq_true, if_false, badType, hv, Bool.and_false] at h1
          cases h1
          have hno : ¬ ∀ y ∈ x :: xs, ∃ D, y = .dict D := fun h => hd (h x List.mem_cons_self)
          rw [e1]
          refine ⟨⟨fun h => ?_, fun h => absurd h.2 hno⟩, fun h => absurd h hno⟩
          have h := h.1
          rw [hasIssues_merge_false] at h
          cases h.2

/-- The loop over the items of a complex attribute. -/
theorem complexItems_ok {m : Mode} {ss : List Attr}
    (hsub : ∀ (D : List (Str × Val)) (loc : Loc) (acc : Issues) (r : Val) (is : Issues), (Val.dict D).Tame →
      processSubs m ss loc (Val.toCont (.dict D)) .emptyCont acc = .ok (r, is) →
      (is.hasIssues = false ↔ acc.hasIssues = false ∧ ValidIn m ss D)) :
    ∀ (Ds : List (List (Str × Val))) (k : Nat) (acc : Issues) (rs : List Val) (is : Issues), (∀ D ∈ Ds, (Val.dict D).Tame) →
      complexItems (fun loc item is => processSubs m ss loc item .emptyCont is) k (Ds.map fun D => Val.toCont (.dict D)) acc =
        .ok (rs, is) →
      (is.hasIssues = false ↔ acc.hasIssues = false ∧ ∀ D ∈ Ds, ValidIn m ss D) ∧
      ∀ (j : Nat) y, rs[j]? = some y → ∃ D loc a b, Ds[j]? = some D ∧
        processSubs m ss loc (Val.toCont (.dict D)) .emptyCont a = .ok (y, b)
  | [], _, _, _, _, _, h => by cases h; simp
  | D :: Ds, k, acc, rs, is, ht, h => by
    rw [List.map_cons] at h
    unfold complexItems at h
    rw [show (Val.toCont (.dict D)).toCont = Val.toCont (.dict D) from rfl] at h
    split at h
    · cases h
    · rename_i h1
      split at h
      · cases h
      · rename_i h2
        cases h
        obtain ⟨e1, e2⟩ := complexItems_ok hsub Ds _ _ _ _ (fun E hE => ht E (List.mem_cons_of_mem _ hE)) h2
        rw [e1, hsub D _ _ _ _ (ht D List.mem_cons_self) h1]
        refine ⟨by simp [and_assoc], fun j y hy => ?_⟩
        cases j with
        | zero => cases hy; exact ⟨D, _, _, _, rfl, h1⟩
        | succ j => exact e2 j y hy

/-- What a processed item says about being primary is what the object said. -/
theorem isPrimary_iff {m : Mode} {ss : List Attr} (hs : PlainSubs ss)
    (hp : ∀ s ∈ ss, lower s.rep.attr = lower "primary".toList → PlainPrimary m s) {D : List (Str × Val)}
    (ht : (Val.dict D).Tame) {loc : Loc} {acc : Issues} {y : Val} {is : Issues}
    (h : processSubs m ss loc (Val.toCont (.dict D)) .emptyCont acc = .ok (y, is)) :
    IsPrimary y ↔ HasPrimary ss ∧ Primary D := by
  have hr := subResult_of_processSubs hs h
  have hname : y.getName "primary".toList = y.getItem { attr := "primary".toList } := by
    have hc := hr.cont
    cases y <;> simp only [Val.isCont, Bool.false_eq_true] at hc
    simp only [Val.getName, primary_parse]
  unfold IsPrimary
  rw [hname]
  by_cases hex : HasPrimary ss
  · have hex' := hex
    obtain ⟨s, hsm, hattr⟩ := hex
    obtain ⟨hrep, i, rfl, hty, hmu, hpr, hvc⟩ := hp s hsm (by rw [hattr])
    have hget := getItem_look (D := D) (r := (Attr.simple i).rep) (clear_of_tame ht (by rw [hrep])) (by rw [hrep])
    rw [look_plain ht (by rw [hrep])] at hget
    rw [← hrep]
    have hattr' : (Attr.simple i).rep.attr = "primary".toList := hattr
    rw [hattr'] at hget
    unfold Primary
    cases hf : found "primary".toList D with
    | none =>
      rw [hf] at hget
      rw [hr.absent _ hsm hget]
      exact ⟨fun h => (by cases h), fun h => (by cases h.2)⟩
    | some x =>
      rw [hf] at hget
      have htx := found_tame ht hf
      obtain ⟨z, j, hz, hy⟩ := hr.present _ hsm _ hget (by
        have := conv_not_missing htx
        show (convVal x).isMissing = false
        generalize convVal x = z at this
        cases z <;> first | rfl | exact absurd rfl this)
      rw [hy]
      unfold Attr.process at hz
      rw [info_process_eq] at hz
      have hconv : ∀ v, AttrType.conv m .boolean v = booleanConv v := by intro v; cases m <;> rfl
      unfold AttrInfo.base AttrInfo.processOne at hz
      rw [hmu, hty, hpr, hvc, hconv] at hz
      simp only [Bool.false_eq_true, if_false, Bool.and_false] at hz
      have : z = .bool true ↔ x = .bool true := by
        cases x with
        | prim p =>
          cases p <;> simp only [convVal, Val.isNone, booleanConv, badType] at hz <;> try simp only [if_true, Bool.false_eq_true, if_false, runProcs, ite_self] at hz
          all_goals cases hz
          all_goals simp
        | list xs => simp only [convVal, Val.isNone, booleanConv, badType, if_true, Bool.false_eq_true, if_false, runProcs, ite_self] at hz; cases hz; simp
        | dict E => simp only [convVal, Val.isNone, booleanConv, badType, if_true, Bool.false_eq_true, if_false, runProcs, ite_self] at hz; cases hz; simp
        | dt d => simp only [convVal, Val.isNone, booleanConv, badType, if_true, Bool.false_eq_true, if_false, runProcs, ite_self] at hz; cases hz; simp
        | _ => simp only [Val.Tame] at htx
      simp only [Except.ok.injEq, Option.some.injEq, this]
      exact ⟨fun h => ⟨hex', h⟩, fun h => h.2⟩
  · refine ⟨fun hg => ?_, fun h => absurd h.1 hex⟩
    have hnone : ∀ n : Str, (∀ s ∈ ss, lower s.rep.attr ≠ lower n) → ∀ k ∈ y.keys, lower k ≠ lower n := by
      intro n hn k hk
      obtain ⟨s, hsm, rfl, -⟩ := hr.declared k hk
      exact hn s hsm
    rw [← mkCont_nil] at h
    obtain ⟨e, -⟩ := processSubs_spec ss loc _ [] acc y is hs.plain (lower_nodup_attr hs.distinct) (by simp) h
    rw [List.nil_append] at e
    rw [e] at hg hnone
    unfold mkCont at hg hnone
    simp only [Val.keys] at hnone
    rw [getItem_noKey (aget_lcOf_none (hnone [] fun s hsm => by
      intro e
      exact hs.named s hsm ((PyEnv.lower_eq_nil _).1 (by rw [e]; exact lower_nil)))) ] at hg
    rw [aget_lcOf_none (hnone _ fun s hsm e => hex ⟨s, hsm, by
      obtain ⟨hrep, -⟩ := hp s hsm e
      rw [hrep]⟩)] at hg
    cases hg

theorem complexItems_length {f : Loc → Val → Issues → PyM (Val × Issues)} : ∀ {xs : List Val} {k : Nat} {acc : Issues}
    {ys : List Val} {is : Issues}, complexItems f k xs acc = .ok (ys, is) → ys.length = xs.length
  | [], _, _, _, _, h => by cases h; rfl
  | x :: xs, _, _, _, _, h => by
    unfold complexItems at h
    split at h
    · cases h
    · split at h
      · cases h
      · rename_i h2
        cases h
        exact congrArg (· + 1) (complexItems_length h2)

mutual
/-- Processing a value reports nothing exactly when the value is valid for the attribute. -/
theorem process_ok {m : Mode} : ∀ (a : Attr), Usual m a → ∀ (v r : Val) (is : Issues), v.Tame →
    a.process m (convVal v) = .ok (r, is) → (is.hasIssues = false ↔ ValidFor m a v)
  | .simple i, hu, v, r, is, _, h => simple_ok hu h
  | .complex i subs ps ds, hu, v, r, is, htv, h => by
    unfold Usual at hu
    obtain ⟨-, hty, hvc, hpr, hcp, hps, hprim, hall⟩ := hu
    have hsub : ∀ (D : List (Str × Val)) (loc : Loc) (acc : Issues) (r : Val) (is : Issues), (Val.dict D).Tame →
        processSubs m subs loc (Val.toCont (.dict D)) .emptyCont acc = .ok (r, is) →
        (is.hasIssues = false ↔ acc.hasIssues = false ∧ ValidIn m subs D) :=
      fun D loc acc r is ht h => processSubs_ok subs hall (fun s hs => (hps.plain s hs).1) D loc .emptyCont acc r is ht h
    rw [complex_process_eq, hcp, info_process_eq, hpr] at h
    unfold ValidFor
    by_cases hn : (convVal v).isNone = true
    · rw [if_pos hn] at h
      dsimp only at h
      rw [hn] at h
      simp only [Bool.or_true, if_true] at h
      cases h
      exact ⟨fun _ => .inl ((isNone_conv v).mp hn), fun _ => rfl⟩
    · rw [if_neg hn] at h
      have hv : v ≠ .null := fun e => hn ((isNone_conv v).mpr e)
      unfold AttrInfo.base at h
      by_cases hm : i.multi = true
      · simp only [hm, if_true] at h ⊢
        cases v with
        | list xs =>
          unfold Val.Tame at htv
          rw [tameList_iff] at htv
          simp only [convVal, runProcs, ite_self, convItems_eq] at h
          cases hit : i.processItems m 0 (xs.map itemConv) {} with
          | error e => rw [hit] at h; cases h
          | ok p =>
            obtain ⟨items, j⟩ := p
            obtain ⟨e1, e2⟩ := complexInfo_items hty hvc xs 0 items {} j htv hit
            rw [hit] at h
            dsimp only at h
            have hroot : j.canProceed = true := by
              rw [canProceed_nil_iff, processItems_root _ _ _ _ _ hit]; rfl
            rw [hroot] at h
            simp only [Bool.not_true, Val.isNone, Bool.or_self, Bool.false_eq_true, if_false, complexBody, hm, if_true] at h
            by_cases hd : ∀ x ∈ xs, ∃ D, x = .dict D
            · obtain ⟨rfl, rfl⟩ := e2 hd
              obtain ⟨Ds, rfl⟩ : ∃ Ds : List (List (Str × Val)), xs = Ds.map Val.dict := by
                clear hit h e1 e2 hroot htv hn hv
                induction xs with
                | nil => exact ⟨[], rfl⟩
                | cons x xs ih =>
                  obtain ⟨D, rfl⟩ := hd x List.mem_cons_self
                  obtain ⟨Ds, rfl⟩ := ih fun y hy => hd y (List.mem_cons_of_mem _ hy)
                  exact ⟨D :: Ds, rfl⟩
              have hmap : (Ds.map Val.dict).map itemConv = Ds.map fun D => Val.toCont (.dict D) := by
                rw [List.map_map]; rfl
              rw [hmap] at h
              cases hci : complexItems (fun loc item is => processSubs m subs loc item .emptyCont is) 0
                  (Ds.map fun D => Val.toCont (.dict D)) {} with
              | error e => rw [hci] at h; cases h
              | ok p =>
                obtain ⟨ys, j2⟩ := p
                have htD : ∀ D ∈ Ds, (Val.dict D).Tame := fun D hD => htv _ (List.mem_map.mpr ⟨D, hD, rfl⟩)
                obtain ⟨f1, f2⟩ := complexItems_ok hsub Ds 0 {} ys j2 htD hci
                rw [hci] at h
                dsimp only at h
                have hval : (∀ x ∈ Ds.map Val.dict, ∃ D, x = .dict D ∧ ValidIn m subs D) ↔ ∀ D ∈ Ds, ValidIn m subs D := by
                  constructor
                  · intro hh D hD
                    obtain ⟨D', e, hv'⟩ := hh _ (List.mem_map.mpr ⟨D, hD, rfl⟩)
                    cases e; exact hv'
                  · intro hh x hx
                    obtain ⟨D, hD, rfl⟩ := List.mem_map.mp hx
                    exact ⟨D, rfl, hh D hD⟩
                by_cases hj : j2.hasIssues = true
                · rw [if_pos hj] at h
                  cases h
                  refine ⟨fun h => (by rw [h] at hj; cases hj), ?_⟩
                  rintro (e | ⟨zs, e, hh, -⟩)
                  · cases e
                  · cases e
                    rw [f1.mpr ⟨rfl, hval.mp hh⟩] at hj; cases hj
                · have hj' : j2.hasIssues = false := by simpa using hj
                  rw [if_neg hj] at h
                  cases hsp : validateSinglePrimary (.list ys) with
                  | error e => rw [hsp] at h; cases h
                  | ok p =>
                    obtain ⟨w, j3⟩ := p
                    rw [hsp] at h
                    dsimp only at h
                    cases h
                    obtain ⟨-, hpri⟩ := C26_single_primary ys _ _ hsp
                    rw [hasIssues_merge_false]
                    have hlen : ∀ (n : Nat) D, Ds[n]? = some D → ∃ y, ys[n]? = some y := by
                      intro n D hn'
                      have hl : ys.length = Ds.length := by
                        have := complexItems_length hci
                        rw [this, List.length_map]
                      obtain ⟨hlt, -⟩ := List.getElem?_eq_some_iff.mp hn'
                      exact ⟨ys[n]'(by omega), List.getElem?_eq_getElem (by omega)⟩
                    have hone : j3.hasIssues = false ↔ (HasPrimary subs → OnePrimary (Ds.map Val.dict)) := by
                      rw [← Bool.not_eq_true, hpri]
                      constructor
                      · intro hno hhas a b D E hab hD hE hDE
                        rw [List.getElem?_map] at hD hE
                        obtain ⟨D', hD', e⟩ := Option.map_eq_some_iff.mp hD
                        cases e
                        obtain ⟨E', hE', e⟩ := Option.map_eq_some_iff.mp hE
                        cases e
                        obtain ⟨y, hy⟩ := hlen a D hD'
                        obtain ⟨z, hz⟩ := hlen b E hE'
                        obtain ⟨D2, _, _, _, g1, g2⟩ := f2 a y hy
                        obtain ⟨E2, _, _, _, g3, g4⟩ := f2 b z hz
                        rw [hD'] at g1; cases g1
                        rw [hE'] at g3; cases g3
                        exact hno ⟨a, b, y, z, hab, hy, hz,
                          (isPrimary_iff hps hprim (htD _ (List.mem_of_getElem? hD')) g2).mpr ⟨hhas, hDE.1⟩,
                          (isPrimary_iff hps hprim (htD _ (List.mem_of_getElem? hE')) g4).mpr ⟨hhas, hDE.2⟩⟩
                      · rintro hone ⟨a, b, y, z, hab, hy, hz, py, pz⟩
                        obtain ⟨D2, _, _, _, g1, g2⟩ := f2 a y hy
                        obtain ⟨E2, _, _, _, g3, g4⟩ := f2 b z hz
                        have p1 := (isPrimary_iff hps hprim (htD _ (List.mem_of_getElem? g1)) g2).mp py
                        have p2 := (isPrimary_iff hps hprim (htD _ (List.mem_of_getElem? g3)) g4).mp pz
                        exact hone p1.1 a b D2 E2 hab (by rw [List.getElem?_map, g1]; rfl) (by rw [List.getElem?_map, g3]; rfl)
                          ⟨p1.2, p2.2⟩
                    rw [hone]
                    constructor
                    · rintro ⟨h1, h2⟩
                      exact .inr ⟨_, rfl, hval.mpr (f1.mp h1).2, h2⟩
                    · rintro (e | ⟨zs, e, -, h2⟩)
                      · cases e
                      · cases e; exact ⟨hj', h2⟩
            · have hji : j.hasIssues = true := by
                cases hj : j.hasIssues with
                | true => rfl
                | false => exact absurd (e1.mp hj).2 hd
              cases hci : complexItems (fun loc item is => processSubs m subs loc item .emptyCont is) 0 items j with
              | error e => rw [hci] at h; cases h
              | ok p =>
                obtain ⟨ys, j2⟩ := p
                rw [hci] at h
                have hj2 := complexItems_mono items hci hji
                dsimp only at h
                rw [if_pos hj2] at h
                cases h
                refine ⟨fun h => (by rw [h] at hj2; cases hj2), ?_⟩
                rintro (e | ⟨zs, e, hh, -⟩)
                · cases e
                · cases e
                  exact absurd (fun x hx => (hh x hx).imp fun D hD => hD.1) hd
        | _ =>
          simp only [convVal, runProcs, ite_self] at h
          cases h
          refine ⟨fun h => (by cases h), ?_⟩
          rintro (e | ⟨ys, e, h⟩)
          · exact absurd e hv
          · cases e
      · have hm' : i.multi = false := by simpa using hm
        simp only [hm', Bool.false_eq_true, if_false] at h ⊢
        unfold AttrInfo.processOne at h
        rw [hty, complex_conv] at h
        by_cases hd : ∃ D, v = .dict D
        · obtain ⟨D, rfl⟩ := hd
          have hc : convVal (.dict D) = Val.toCont (.dict D) := by simp only [convVal, Val.toCont]
          rw [hc, show (Val.toCont (.dict D)).isCont = true from rfl] at h
          simp only [if_true, hvc, Bool.and_false, Bool.false_eq_true, if_false, runProcs, ite_self] at h
          have hemp : (Issues.merge {} {} [] : Issues) = {} := rfl
          have hnn : (Val.toCont (.dict D)).isNone = false := rfl
          simp only [hemp, hnn, show (({} : Issues).canProceed) = true from rfl, Bool.not_true, Bool.or_self,
            Bool.false_eq_true, if_false, complexBody, hm'] at h
          rw [show (Val.toCont (.dict D)).toCont = Val.toCont (.dict D) from rfl] at h
          cases hps' : processSubs m subs [] (Val.toCont (.dict D)) .emptyCont {} with
          | error e => rw [hps'] at h; cases h
          | ok p =>
            obtain ⟨w, j⟩ := p
            rw [hps'] at h
            cases h
            rw [hsub D [] {} _ _ htv hps']
            constructor
            · rintro ⟨-, h⟩
              exact .inr ⟨D, rfl, h⟩
            · rintro (e | ⟨E, e, h⟩)
              · cases e
              · cases e; exact ⟨rfl, h⟩
        · have hc : (convVal v).isCont = false := by
            cases v <;> simp [Val.Tame] at htv <;> first | rfl | exact absurd ⟨_, rfl⟩ hd
          rw [hc] at h
          simp only [Bool.false_eq_true, if_false, badType, hvc, Bool.and_false, runProcs, ite_self] at h
          rw [show ((Issues.merge {} (blocking 2) [] : Issues).canProceed) = false from rfl] at h
          simp only [Bool.not_false, Bool.true_or, if_true] at h
          cases h
          refine ⟨fun h => (by cases h), ?_⟩
          rintro (e | ⟨E, e, h⟩)
          · exact absurd e hv
          · exact absurd ⟨E, e⟩ hd
/-- Going over the sub-attributes of an object reports nothing new exactly when what it holds for them is valid. -/
theorem processSubs_ok {m : Mode} : ∀ (ss : List Attr), UsualAll m ss → (∀ s ∈ ss, s.rep.schema = []) →
    ∀ (D : List (Str × Val)) (loc : Loc) (parsed : Val) (acc : Issues) (r : Val) (is : Issues), (Val.dict D).Tame →
    processSubs m ss loc (Val.toCont (.dict D)) parsed acc = .ok (r, is) →
    (is.hasIssues = false ↔ acc.hasIssues = false ∧ ValidIn m ss D)
  | [], _, _, D, loc, parsed, acc, r, is, _, h => by
    unfold processSubs at h
    cases h
    simp [ValidIn]
  | s :: ss, hu, hsch, D, loc, parsed, acc, r, is, ht, h => by
    unfold UsualAll at hu
    have hsub0 : s.rep.sub = [] := by
      have := hu.1
      cases s <;> unfold Usual at this <;> exact this.1
    unfold processSubs at h
    unfold ValidIn
    rw [getItem_look (clear_of_tame ht (hsch s List.mem_cons_self)) hsub0] at h
    have hrest := fun t ht' => hsch t (List.mem_cons_of_mem _ ht')
    cases hl : look s.rep D with
    | none =>
      rw [hl] at h
      dsimp only at h
      rw [processSubs_ok ss hu.2 hrest D loc parsed acc r is ht h]
      simp
    | some x =>
      rw [hl] at h
      dsimp only at h
      have htx := look_tame ht hl
      have hnm := conv_not_missing htx
      have h' : (after m s parsed (fun parsed' is1 => processSubs m ss loc (Val.toCont (.dict D)) parsed'
          (acc.merge is1 (loc ++ [.name s.rep.attr]))) (convVal x)) = .ok (r, is) := by
        rw [← h]
        generalize convVal x = z at hnm
        cases z <;> first | rfl | exact absurd rfl hnm
      unfold after at h'
      split at h'
      · cases h'
      · rename_i hp
        split at h'
        · cases h'
        · rw [processSubs_ok ss hu.2 hrest D loc _ _ r is ht h', hasIssues_merge_false,
            process_ok s hu.1 x _ _ htx hp]
          simp [and_assoc]
end

end Scim.Valid
