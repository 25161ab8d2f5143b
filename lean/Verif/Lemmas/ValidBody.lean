import Verif.Lemmas.Valid
import Verif.Lemmas.RequestTotality
import Verif.Props.Schemas

/-! A document is processed without issues exactly when it is valid. -/

namespace Scim.Valid
variable [PyEnv]
open Declared Issues

/-! ### The attributes -/

theorem clear_of_ordinary {s : Schema} {D : List (Str × Val)} (hD : Ordinary s D) {r : AttrRep} (hr : r.schema ∈ s.schemas) :
    Clear r D := by
  cases hf : found r.schema D with
  | none => exact .inl hf
  | some v =>
    obtain ⟨k, hk, e⟩ := found_mem hf
    have hd := hD.urns k v hk _ hr e
    cases v <;> simp only [Val.isDict, Bool.false_eq_true] at hd
    exact .inr ⟨_, hf, found_nil (found_tame hD.tame hf)⟩

theorem Usual.sub {m : Mode} {a : Attr} (h : Usual m a) : a.rep.sub = [] := by
  cases a <;> unfold Usual at h <;> exact h.1

/-- The attribute reads the value without issues. -/
def Reads (m : Mode) (a : Attr) (v : Val) : Prop := ∃ r is, a.process m (convVal v) = .ok (r, is) ∧ is.hasIssues = false

/-- The loop over the attributes reports nothing new exactly when what the document holds for them is read without issues. -/
theorem processTop_reads {m : Mode} {s : Schema} {D : List (Str × Val)} (hD : Ordinary s D) : ∀ (as : List Attr),
    (∀ a ∈ as, a.rep.sub = []) → (∀ a ∈ as, a.rep.schema ∈ s.schemas) →
    ∀ (parsed : Val) (acc : Issues) (r : Val) (is : Issues),
    processTop m as (Val.toCont (.dict D)) parsed acc = .ok (r, is) →
    (is.hasIssues = false ↔ acc.hasIssues = false ∧ ∀ a ∈ as, ∀ x, look a.rep D = some x → Reads m a x)
  | [], _, _, parsed, acc, r, is, h => by
    unfold processTop at h
    cases h
    simp
  | a :: as, hu, hsch, parsed, acc, r, is, h => by
    unfold processTop at h
    rw [getItem_look (clear_of_ordinary hD (hsch a List.mem_cons_self)) (hu a List.mem_cons_self)] at h
    have hrest := fun t ht' => hsch t (List.mem_cons_of_mem _ ht')
    have hu' := fun t ht' => hu t (List.mem_cons_of_mem _ ht')
    cases hl : look a.rep D with
    | none =>
      rw [hl] at h
      dsimp only at h
      rw [processTop_reads hD as hu' hrest parsed acc r is h]
      simp [hl]
    | some x =>
      rw [hl] at h
      dsimp only at h
      have htx := look_tame hD.tame hl
      have hnm := conv_not_missing htx
      have h' : (after m a parsed (fun parsed' is1 => processTop m as (Val.toCont (.dict D)) parsed'
          (acc.merge is1 a.topLoc)) (convVal x)) = .ok (r, is) := by
        rw [← h]
        generalize convVal x = z at hnm
        cases z <;> first | rfl | exact absurd rfl hnm
      unfold after at h'
      split at h'
      · cases h'
      · rename_i y1 is1 hp
        split at h'
        · cases h'
        · have hr : Reads m a x ↔ is1.hasIssues = false := by
            unfold Reads
            rw [hp]
            exact ⟨fun ⟨_, _, e, hn⟩ => (by cases e; exact hn), fun h => ⟨_, _, rfl, h⟩⟩
          rw [processTop_reads hD as hu' hrest _ _ r is h', hasIssues_merge_false, List.forall_mem_cons, hl]
          simp [and_assoc, hr]

/-! ### The list of schemas -/

/-- The URNs under which something was stored are those of the extensions in use. -/
theorem stored_urns {m : Mode} {s : Schema} (hs : s.WF) {D : List (Str × Val)} (hD : Ordinary s D) {r : Val} {is : Issues}
    (h : s.process m (.dict D) = .ok (r, is)) (u : Str) :
    (∃ k ∈ r.keys, k ∈ s.exts.map (·.1) ∧ k = u) ↔ Uses s D u := by
  unfold Schema.process at h
  simp only [Val.isNone, Val.isDict, Val.isCont, Bool.or_true, Bool.not_true, Bool.false_eq_true, if_false] at h
  split at h
  · cases h
  · rename_i r0 is0 hpt
    obtain ⟨⟨d', lc', rfl, hinv⟩, h2, h3⟩ := processTop_spec s.attrs.top (Val.toCont (.dict D)) [] [] [] {} r0 is0 PInv.nil hs.sub
      hs.compat (by simp) hpt
    rw [List.nil_append] at hinv
    have hr : r = .cont d' lc' := by
      repeat' split at h
      all_goals first
        | (cases h; done)
        | (cases h; rfl)
    subst hr
    have hlook : ∀ a ∈ s.attrs.top, (∃ x, (Val.toCont (.dict D)).getItem a.rep = .ok x ∧ x.isMissing = false) ↔ look a.rep D ≠ none := by
      intro a ha
      rw [getItem_look (clear_of_ordinary hD (hs.allSchema a (hs.top_all a ha))) (hs.sub a ha)]
      cases hl : look a.rep D with
      | none => simp [Val.isMissing]
      | some x =>
        have hnm := conv_not_missing (look_tame hD.tame hl)
        refine ⟨fun _ => by simp, fun _ => ⟨convVal x, rfl, ?_⟩⟩
        generalize convVal x = z at hnm
        cases z <;> first | rfl | exact absurd rfl hnm
    have hmem : ∀ p ∈ (s.attrs.top.filterMap (topOut m (Val.toCont (.dict D)))).map (fun o => (o.1, o.2.1)),
        p.1 ∈ s.attrs.top ∧ look p.1.rep D ≠ none := by
      intro p hp
      simp only [List.mem_map, List.mem_filterMap] at hp
      obtain ⟨o, ⟨a, ha, ho⟩, rfl⟩ := hp
      obtain ⟨h1, x, h2, h3, _⟩ := topOut_spec ho
      simp only [h1]
      exact ⟨ha, (hlook a ha).mp ⟨x, h2, h3⟩⟩
    constructor
    · rintro ⟨k, hk, hku, rfl⟩
      rcases hinv.key_class (k := k) hk with ⟨p, hp, e1, e2⟩ | ⟨p, hp, e1, e2⟩
      · exact absurd (by rw [e2]) (hs.noClash p.1 (hs.top_all _ (hmem p hp).1) k (List.mem_cons_of_mem _ hku))
      · exact ⟨p.1, (hmem p hp).1, e1, e2, (hmem p hp).2⟩
    · rintro ⟨a, ha, he, rfl, hl⟩
      obtain ⟨x, hx, hxm⟩ := (hlook a ha).mpr hl
      obtain ⟨x', hx', hp⟩ := h3 a ha
      rw [hx] at hx'; cases hx'
      obtain ⟨⟨y, i⟩, hy⟩ := hp hxm
      obtain ⟨d2, l2, hg, -⟩ := hinv.ext (a, y) (by
        simp only [List.mem_map, List.mem_filterMap]
        exact ⟨(a, y, i), ⟨a, ha, topOut_of hx hxm hy⟩, rfl⟩) he
      exact ⟨a.rep.schema, aget_isSome_iff.mp (by simp only at hg; rw [hg]; rfl), hs.ext a ha he, rfl⟩

theorem validIn_iff {m : Mode} {D : List (Str × Val)} : ∀ {as : List Attr},
    ValidIn m as D ↔ ∀ a ∈ as, ∀ x, look a.rep D = some x → ValidFor m a x
  | [] => by simp [ValidIn]
  | a :: as => by
    unfold ValidIn
    rw [validIn_iff (as := as)]
    simp

omit [PyEnv] in
theorem strs_of {xs : List Val} (h : ∀ x ∈ xs, ∃ s, x = .str s) : ∃ strs : List Str, xs = strs.map Val.str := by
  induction xs with
  | nil => exact ⟨[], rfl⟩
  | cons x xs ih =>
    obtain ⟨s, rfl⟩ := h x List.mem_cons_self
    obtain ⟨strs, rfl⟩ := ih (fun y hy => h y (List.mem_cons_of_mem _ hy))
    exact ⟨s :: strs, rfl⟩

theorem conv_strs (strs : List Str) : convVal (.list (strs.map Val.str)) = .list (strs.map Val.str) := by
  simp only [convVal]
  congr 1
  induction strs with
  | nil => rfl
  | cons s strs ih =>
    rw [List.map_cons, convItems_eq] at *
    rw [List.map_cons, ih]
    rfl

/-- What the attribute `schemas` accepts. -/
theorem schemas_valid {m : Mode} {rep : AttrRep} {x : Val} :
    ValidFor m (bindAttr schemasAttr rep) x ↔ x = .null ∨ ∃ strs : List Str, x = .list (strs.map Val.str) := by
  obtain ⟨i, hi, ht, hmu, hcan, hv⟩ : ∃ i, bindAttr schemasAttr rep = .simple i ∧ i.type = .uriRef ∧ i.multi = true ∧
      i.canonical = none ∧ i.validateCanon = false :=
    ⟨_, rfl, rfl, rfl, rfl, rfl⟩
  rw [hi]
  unfold ValidFor
  simp only [hmu, if_true, OneOk, ht, TypeOk, hv, Bool.false_eq_true, false_imp_iff, and_true]
  constructor
  · rintro (h | ⟨xs, rfl, h⟩)
    · exact .inl h
    · obtain ⟨strs, rfl⟩ := strs_of h
      exact .inr ⟨strs, rfl⟩
  · rintro (h | ⟨strs, rfl⟩)
    · exact .inl h
    · exact .inr ⟨_, rfl, by simp⟩

/-- No complaint about the list of schemas, in terms of the keys of the data. -/
theorem schemaFieldErrors_nil {keys strs : List Str} {main : Str} {known : List Str} :
    schemaFieldErrors keys strs main known = [] ↔
      (∀ t ∈ strs, ∃ u ∈ known, lower t = lower u) ∧ (∃ t ∈ strs, lower t = lower main) ∧
      ∀ k ∈ keys, (∃ u ∈ known, lower k = lower u) → ∃ t ∈ strs, lower t = lower k := by
  unfold schemaFieldErrors
  simp only [List.append_eq_nil_iff, List.map_eq_nil_iff, List.filter_eq_nil_iff, decide_eq_true_eq, not_and, and_assoc]
  refine and_congr ?_ (and_congr ?_ ?_)
  · split
    · rename_i h
      obtain ⟨x, hx, hn⟩ := h
      exact ⟨fun h => (by cases h), fun h => (by obtain ⟨u, hu, e⟩ := h x hx; exact absurd e (hn u hu))⟩
    · rename_i h
      refine ⟨fun _ t ht => ?_, fun _ => rfl⟩
      exact Classical.byContradiction fun hn => h ⟨t, ht, fun u hu e => hn ⟨u, hu, e⟩⟩
  · split
    · rename_i h
      exact ⟨fun _ => h, fun _ => rfl⟩
    · rename_i h
      exact ⟨fun h => (by cases h), fun h' => absurd h' h⟩
  · constructor
    · intro h k hk hu
      exact Classical.byContradiction fun hn => h k hk hu (fun x hx e => hn ⟨x, hx, e.symm⟩)
    · intro h k hk hu hx
      obtain ⟨t, ht, e⟩ := h k hk hu
      exact hx t ht e.symm

theorem usualAll_iff {m : Mode} {as : List Attr} : UsualAll m as ↔ ∀ a ∈ as, Usual m a := by
  induction as with
  | nil => simp [UsualAll]
  | cons a as ih => unfold UsualAll; simp [ih]

/-- The attribute `schemas` is a usual one. -/
theorem schemas_usual {m : Mode} (rep : AttrRep) (hr : rep.sub = []) : Usual m (bindAttr schemasAttr rep) := by
  refine ⟨hr, (fun h => by cases h), .inl (by cases m <;> rfl), fun h => ?_⟩
  cases h

/-- A document is processed without issues exactly when what it holds is read without issues, and the list of schemas is
right. -/
theorem process_reads {m : Mode} {s : Schema} (hs : s.WF) (hsane : SaneAll s.attrs.top)
    {D : List (Str × Val)} (hD : Ordinary s D) {r : Val} {is : Issues} (h : s.process m (.dict D) = .ok (r, is)) :
    is.hasIssues = false ↔ (∀ a ∈ s.attrs.top, ∀ x, look a.rep D = some x → Reads m a x) ∧ SchemasListed s D := by
  obtain ⟨htr, ⟨d, lc, hr, hnk⟩, is1, his1, sv, hsv, hcase⟩ := process_spec hs (by rfl) h
  have hkeys := stored_urns hs hD h
  -- the attributes
  have h1 : is1.hasIssues = false ↔ ∀ a ∈ s.attrs.top, ∀ x, look a.rep D = some x → Reads m a x := by
    unfold Schema.process at h
    simp only [Val.isNone, Val.isDict, Val.isCont, Bool.or_true, Bool.not_true, Bool.false_eq_true, if_false] at h
    split at h
    · cases h
    · rename_i r0 is0 hpt
      obtain ⟨-, h2, -⟩ := processTop_spec s.attrs.top (Val.toCont (.dict D)) [] [] [] {} r0 is0 PInv.nil hs.sub
        hs.compat (by simp) hpt
      have h4 := processTop_reads hD s.attrs.top hs.sub (fun a ha => hs.allSchema a (hs.top_all a ha)) _ _ _ _ hpt
      rw [h2] at h4
      rw [his1, hasIssues_merge_false]
      show _ ∧ _ ↔ _
      rw [h4]
      exact ⟨fun h => h.2.2, fun h => ⟨rfl, rfl, h⟩⟩
  have hw1 : is1.WF := by
    rw [his1]
    exact WF.empty.merge (mergeTop_errors (m := m) hs.compat hsane (Val.toCont (.dict D))).2.2 []
  have hmem := hs.schemas_mem
  by_cases hv : ∀ a ∈ s.attrs.top, ∀ x, look a.rep D = some x → Reads m a x
  · have hn1 := h1.mpr hv
    have hcp : is1.canProceed [schemasLoc] = true := by
      rw [eq_empty_of_noIssues hw1 hn1]; rfl
    rw [hcp, Bool.true_and] at hcase
    -- what is stored for `schemas`
    have hread := getItem_look (r := { schema := s.urn, attr := "schemas".toList })
      (clear_of_ordinary hD (by simp [Schema.schemas])) rfl
    have hval := hv _ hmem
    have hpres := htr.present _ hmem
    have habs := htr.absent _ hmem (by rw [bindAttr_rep])
    rw [bindAttr_rep] at hval hpres habs
    rw [and_iff_right hv]
    unfold SchemasListed
    cases hl : look { schema := s.urn, attr := "schemas".toList } D with
    | none =>
      rw [hl] at hread
      have := habs hread
      rw [hsv] at this
      cases this
      rcases hcase with ⟨e, _⟩ | ⟨_, rfl⟩
      · cases e
      · simp [hn1]
    | some x =>
      rw [hl] at hread
      dsimp only at hread
      have hval' : ValidFor m (bindAttr schemasAttr { schema := s.urn, attr := "schemas".toList }) x := by
        obtain ⟨y, i, e, hn⟩ := hval x hl
        exact (process_ok _ (schemas_usual _ rfl) x y i (look_tame hD.tame hl) e).mp hn
      rcases schemas_valid.mp hval' with rfl | ⟨strs, rfl⟩
      · obtain ⟨y, i, e1, e2⟩ := hpres _ hread rfl
        rw [hsv] at e2
        cases e2
        have : sv = .null := by
          have e3 : (bindAttr schemasAttr { schema := s.urn, attr := "schemas".toList }).process m .null = .ok (.null, {}) := by
            cases m <;> rfl
          have e4 := e3.symm.trans e1
          cases e4; rfl
        subst this
        rcases hcase with ⟨e, _⟩ | ⟨_, rfl⟩
        · cases e
        · simp only [hn1, true_iff]
          intro strs _ e
          cases e
      · rw [conv_strs] at hread
        obtain ⟨y, i, e1, e2⟩ := hpres _ hread rfl
        rw [hsv] at e2
        cases e2
        rw [schemas_process] at e1
        cases e1
        by_cases hne : strs = []
        · subst hne
          rcases hcase with ⟨e, _⟩ | ⟨_, rfl⟩
          · cases e
          · simp only [hn1, true_iff]
            intro strs hne e
            cases strs with
            | nil => exact absurd rfl hne
            | cons _ _ => cases e
        · have ht : (Val.list (strs.map Val.str)).truthy = true := by
            cases strs with
            | nil => exact absurd rfl hne
            | cons _ _ => rfl
          rw [ht] at hcase
          rcases hcase with ⟨_, xs, is2, e, hvf, rfl⟩ | ⟨e, _⟩
          · cases e
            obtain ⟨strs', e, hw2, he1, he2⟩ := validate_wf (by simp [Schema.schemas]) hvf
            have : strs = strs' := by
              have hinj : Function.Injective Val.str := fun a b h => by cases h; rfl
              exact (List.map_inj_right (fun a b h => hinj h)).mp e
            subst this
            have h2 : is2.hasIssues = false ↔ schemaFieldErrors r.keys strs s.urn s.schemas = [] := by
              constructor
              · intro hn
                rw [← he1, eq_empty_of_noIssues hw2 hn]; rfl
              · intro hn
                rw [noIssues_of_errors hw2 (fun l => by
                  by_cases hl : l = schemasLoc
                  · subst hl; rw [he1, hn]
                  · exact he2 l hl)]
                rfl
            rw [hasIssues_merge_false, hn1, h2, schemaFieldErrors_nil]
            simp only [true_and]
            have hk : (∀ k ∈ r.keys, (∃ u ∈ s.schemas, lower k = lower u) → ∃ t ∈ strs, lower t = lower k) ↔
                ∀ u, Uses s D u → ∃ t ∈ strs, lower t = lower u := by
              constructor
              · intro h u hu
                obtain ⟨k, hk, hke, rfl⟩ := (hkeys u).mpr hu
                exact h k hk ⟨k, List.mem_cons_of_mem _ hke, rfl⟩
              · rintro h k hk ⟨u, hu, e⟩
                rcases htr.declared k hk with ⟨a, ha, e1, rfl⟩ | ⟨a, ha, e1, rfl⟩
                · exact absurd e (hs.noClash a (hs.top_all a ha) u hu)
                · exact h _ ((hkeys _).mp ⟨_, hk, hs.ext a ha e1, rfl⟩)
            rw [hk]
            constructor
            · intro h strs' _ e
              have : strs = strs' := by
                have e' : List.map Val.str strs = List.map Val.str strs' := by injection e with e; injection e
                exact (List.map_inj_right (fun a b h => by cases h; rfl)).mp e'
              subst this
              exact h
            · intro h
              exact h strs hne rfl
          · cases e
  · have hn1 : is1.hasIssues = true := by
      cases e : is1.hasIssues with
      | false => exact absurd (h1.mp e) hv
      | true => rfl
    refine ⟨fun hn => ?_, fun h => absurd h.1 hv⟩
    rcases hcase with ⟨_, xs, is2, _, _, rfl⟩ | ⟨_, rfl⟩
    · rw [hasIssues_merge_false, hn1] at hn
      cases hn.1
    · rw [hn1] at hn; cases hn

/-- A document is processed without issues exactly when it is valid. -/
theorem process_valid {m : Mode} {s : Schema} (hs : s.WF) (hsane : SaneAll s.attrs.top) (hu : UsualAll m s.attrs.top)
    {D : List (Str × Val)} (hD : Ordinary s D) {r : Val} {is : Issues} (h : s.process m (.dict D) = .ok (r, is)) :
    is.hasIssues = false ↔ ValidDoc m s D := by
  rw [process_reads hs hsane hD h]
  unfold ValidDoc
  rw [validIn_iff]
  have htr := (process_spec hs (by rfl) h).1
  refine and_congr_left fun _ => ⟨fun hv a ha x hl => ?_, fun hv a ha x hl => ?_⟩
  · obtain ⟨y, i, e, hn⟩ := hv a ha x hl
    exact (process_ok a (usualAll_iff.mp hu a ha) x y i (look_tame hD.tame hl) e).mp hn
  · have hread := getItem_look (clear_of_ordinary hD (hs.allSchema a (hs.top_all a ha))) (hs.sub a ha)
    rw [hl] at hread
    dsimp only at hread
    have hnm := conv_not_missing (look_tame hD.tame hl)
    obtain ⟨y, i, e1, -⟩ := htr.present a ha _ hread (by
      generalize convVal x = z at hnm
      cases z <;> first | rfl | exact absurd rfl hnm)
    exact ⟨y, i, e1, (process_ok a (usualAll_iff.mp hu a ha) x y i (look_tame hD.tame hl) e1).mpr (hv a ha x hl)⟩

end Scim.Valid
