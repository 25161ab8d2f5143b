import Verif.Lemmas.Deletion
import Verif.Lemmas.RoundTripAssets
import Verif.Spec.Validators
import Verif.Props.Bodies

/-! Helper lemmas for C96: reading and deleting declared attributes of parsed bodies does not raise. -/

namespace Scim
open Issues V
variable [PyEnv]

/-- The values a complex attribute can have in a parsed body: an object, or a list of objects when it is
multi-valued; `Invalid`, `Missing` or null otherwise. -/
def Val.Fit (multi : Bool) (v : Val) : Prop :=
  v = .invalid ∨ v = .missing ∨ v = .null ∨ (multi = false ∧ v.Plainly) ∨ (multi = true ∧ ∃ xs, v = .list xs ∧ ∀ x ∈ xs, x.Plainly)

theorem processOne_stop {m : Mode} {info : AttrInfo} {k : Nat} {v r : Val} {s is : Issues}
    (h : info.processOne m [.idx k] v s = .ok (r, is)) (hs : aget [] s.stop = none) : aget [] is.stop = none := by
  have key : ∀ (s o : Issues), aget [] s.stop = none → aget [] (s.merge o [.idx k]).stop = none := by
    intro s o hs
    rw [← Option.not_isSome_iff_eq_none, stop_merge_isSome]
    rintro (h | ⟨m, _, e⟩)
    · rw [hs] at h; cases h
    · cases e
  unfold AttrInfo.processOne at h
  split at h
  · cases h
  · rename_i item i hc
    split at h
    · cases h
      rw [← Option.not_isSome_iff_eq_none, stop_add_isSome]
      have := key s i hs
      simp [this]
    · cases h
      exact key s i hs

theorem processItems_stop {m : Mode} {info : AttrInfo} : ∀ {k : Nat} {xs ys : List Val} {s is : Issues},
    info.processItems m k xs s = .ok (ys, is) → aget [] s.stop = none → aget [] is.stop = none
  | _, [], _, _, _, h, hs => by rw [AttrInfo.processItems] at h; cases h; exact hs
  | k, x :: xs, ys, s, is, h, hs => by
    rw [AttrInfo.processItems] at h
    split at h
    · cases h
    · rename_i item i1 ho
      split at h
      · cases h
      · rename_i items i2 hr
        cases h
        exact processItems_stop hr (processOne_stop ho hs)

/-- Whatever the input, a complex attribute gives a value of the right shape. -/
theorem complex_fit {m : Mode} {info : AttrInfo} {subs : List Attr} {ps ds : List Proc}
    (hstd : (Attr.complex info subs ps ds).Standard m) {v r : Val} {is : Issues}
    (h : (Attr.complex info subs ps ds).process m v = .ok (r, is)) : r.Fit info.multi := by
  obtain ⟨ht, hvc, hs1, hs2, hs3, _⟩ := hstd
  rw [complex_process_eq] at h
  split at h
  · cases h
  · rename_i value issues hi
    split at h
    · rename_i hc
      cases h
      unfold AttrInfo.process at hi
      split at hi
      · rename_i hvn
        cases hi
        cases v with
        | prim p => cases p <;> simp [Val.isNone] at hvn; exact .inr (.inr (.inl rfl))
        | _ => simp [Val.isNone] at hvn
      · simp only [hs1, runProcs, ite_self] at hi
        cases hm : info.multi with
        | true =>
          rw [hm] at hi
          simp only [if_true] at hi
          cases v with
          | list xs =>
            simp only at hi
            split at hi
            · cases hi
            · rename_i hh; split at hh <;> cases hh
            · rename_i p i hh
              split at hh
              · cases hh
              · rename_i items i' hit
                cases hh; cases hi
                have := processItems_stop hit rfl
                rw [(canProceed_nil_iff _).2 this] at hc
                simp [Val.isNone] at hc
          | _ => simp only at hi; cases hi; exact .inl rfl
        | false =>
          rw [hm] at hi
          simp only [Bool.false_eq_true, if_false] at hi
          unfold AttrInfo.processOne at hi
          rw [ht, complex_conv] at hi
          by_cases hcont : v.isCont = true
          · simp only [hcont, if_true, hvc, Bool.and_false, Bool.false_eq_true, if_false] at hi
            cases hi
            cases v <;> simp [Val.isCont] at hcont
            exact absurd hc (by rw [(canProceed_nil_iff _).2 (by rfl)]; simp [Val.isNone])
          · simp only [hcont, if_false, hvc, Bool.and_false, Bool.false_eq_true, badType] at hi
            cases hi
            exact .inl rfl
    · split at h
      · cases h
      · rename_i parsed issues2 hb
        have hok : parsed.Fit info.multi := by
          unfold complexBody at hb
          split at hb
          · rename_i hm
            split at hb
            · split at hb
              · cases hb
              · rename_i hc
                cases hb
                exact .inr (.inr (.inr (.inr ⟨hm, _, rfl, complexItems_plainly hs3 hc⟩)))
            · cases hb
          · rename_i hm
            obtain ⟨d, l, rfl, hv⟩ := processSubs_view hs3 hb
            exact .inr (.inr (.inr (.inl ⟨by simpa using hm, hv.plainly hs3⟩)))
        split at h
        · cases h; exact hok
        · have hps : ∀ p ∈ (Attr.complex info subs ps ds).cprocs m, ∀ v r i, p v = .ok (r, i) → r = v := by
            intro p hp v r i hv
            rw [(hs2 p hp).1] at hv
            unfold validateSinglePrimary at hv
            split at hv
            · split at hv
              · cases hv
              · cases hv; rfl
            · cases hv
          have key : ∀ (ps : List Proc), (∀ p ∈ ps, ∀ v r i, p v = .ok (r, i) → r = v) → ∀ v s r is,
              runProcs ps v s = .ok (r, is) → r = v := by
            intro ps
            induction ps with
            | nil => intro _ v s r is h; simp only [runProcs] at h; cases h; rfl
            | cons p ps ih =>
              intro hps v s r is h
              simp only [runProcs] at h
              split at h
              · cases h
              · rename_i v' i hp
                have := hps p (by simp) _ _ _ hp
                subst this
                exact ih (fun q hq => hps q (List.mem_cons_of_mem _ hq)) _ _ _ _ h
          have := key _ hps _ _ _ _ h
          rw [this]; exact hok

/-! ### Reading and deleting in values -/

theorem Plainly.get {v : Val} (h : v.Plainly) (q : Str) : ∃ x, v.getItem { attr := q } = .ok x := by
  obtain ⟨d, l, rfl, hi, h0⟩ := h
  rw [getItem_noKey (r := { attr := q }) h0]
  cases hk : aget (lower q) l with
  | none => exact ⟨_, rfl⟩
  | some k =>
    have := (hi.sound _ _ hk).2
    rw [← aget_isSome_iff, Option.isSome_iff_exists] at this
    obtain ⟨w, hw⟩ := this
    exact ⟨w, by simp [hw]⟩

theorem Plainly.delOk {v : Val} (h : v.Plainly) (q : Str) (b : Bool) (hq : isAttrName q = true) :
    ∃ v', Val.delX b v { attr := q } = .ok v' := by
  obtain ⟨d, l, rfl, hi, h0⟩ := h
  simp only [Val.delX, hq, Bool.not_true, Bool.and_false, Bool.false_eq_true, if_false, h0]
  cases hk : aget (lower q) l with
  | none => exact ⟨_, rfl⟩
  | some k =>
    have := (hi.sound _ _ hk).2
    rw [← aget_isSome_iff, Option.isSome_iff_exists] at this
    obtain ⟨w, hw⟩ := this
    exact ⟨_, by simp [hw]; rfl⟩

theorem delMap_total {q : Str} (hq : isAttrName q = true) : ∀ (xs : List Val), (∀ x ∈ xs, x.Plainly) →
    ∃ ys, delMap xs { attr := q } = .ok ys ∧ ∀ y ∈ ys, y.Plainly
  | [], _ => ⟨[], by rw [delMap], by simp⟩
  | x :: xs, h => by
    obtain ⟨y, hy⟩ := Plainly.delOk (h x (by simp)) q false hq
    obtain ⟨ys, h1, h2⟩ := delMap_total hq xs (fun z hz => h z (List.mem_cons_of_mem _ hz))
    refine ⟨y :: ys, by rw [delMap, hy]; simp only [h1], ?_⟩
    intro z hz
    rcases List.mem_cons.mp hz with rfl | hz
    · exact (Plainly.del (h x (by simp)) hy).1
    · exact h2 z hz

theorem getMap_total {q : Str} : ∀ (xs : List Val), (∀ x ∈ xs, x.Plainly) → ∃ ys, getMap xs { attr := q } = .ok ys
  | [], _ => ⟨[], by rw [getMap]⟩
  | x :: xs, h => by
    obtain ⟨y, hy⟩ := Plainly.get (h x (by simp)) q
    obtain ⟨ys, h1⟩ := getMap_total (q := q) xs (fun z hz => h z (List.mem_cons_of_mem _ hz))
    rw [Val.getItem] at hy
    exact ⟨y :: ys, by rw [getMap, hy]; simp only [h1]⟩

theorem Fit.get {m : Bool} {v : Val} (h : v.Fit m) (q : Str) (hq : isAttrName q = true) :
    ∃ x, Val.getX true v { attr := q } = .ok x := by
  rcases h with rfl | rfl | rfl | ⟨_, h⟩ | ⟨_, xs, rfl, h⟩
  · exact ⟨.missing, by simp [Val.getX]⟩
  · exact ⟨.missing, by simp [Val.getX]⟩
  · exact ⟨.missing, by simp [Val.getX]⟩
  · obtain ⟨x, hx⟩ := Plainly.get h q
    obtain ⟨d, l, rfl, _⟩ := h
    exact ⟨x, by rw [getX_true_getItem rfl hq, hx]⟩
  · obtain ⟨ys, hy⟩ := getMap_total (q := q) xs h
    exact ⟨.list ys, by simp only [Val.getX, hq, Bool.not_true, Bool.and_false, Bool.false_eq_true, if_false, hy]⟩

theorem Fit.del {m : Bool} {v : Val} (h : v.Fit m) (q : Str) (hq : isAttrName q = true) :
    ∃ v', Val.delX true v { attr := q } = .ok v' ∧ v'.Fit m := by
  rcases h with rfl | rfl | rfl | ⟨rfl, h⟩ | ⟨rfl, xs, rfl, h⟩
  · exact ⟨_, by simp only [Val.delX], .inl rfl⟩
  · exact ⟨_, by simp only [Val.delX], .inr (.inl rfl)⟩
  · exact ⟨.null, by simp only [Val.delX, Val.null], .inr (.inr (.inl rfl))⟩
  · obtain ⟨v', hv⟩ := Plainly.delOk h q true hq
    exact ⟨v', hv, .inr (.inr (.inr (.inl ⟨rfl, (Plainly.del h hv).1⟩)))⟩
  · obtain ⟨ys, h1, h2⟩ := delMap_total hq xs h
    exact ⟨.list ys, by simp only [Val.delX, hq, Bool.not_true, Bool.and_false, Bool.false_eq_true, if_false, h1],
      .inr (.inr (.inr (.inr ⟨rfl, ys, rfl, h2⟩)))⟩

/-! ### Containers whose complex attributes have fitting values -/

/-- The attributes `ts`, read by name, have values of their shapes. -/
def Fits (ts : List Attr) (d : List (Str × Val)) (lc : List (Str × Str)) : Prop :=
  ∀ t ∈ ts, t.isComplex = true → ∀ k v, aget (lower t.rep.attr) lc = some k → aget k d = some v → v.Fit t.info.multi

omit [PyEnv] in
theorem aget_of_adel {κ β : Type} [DecidableEq κ] {k k' : κ} {m : List (κ × β)} {v : β} (hn : (m.map (·.1)).Nodup)
    (h : aget k' (adel k m) = some v) : k ≠ k' ∧ aget k' m = some v := by
  by_cases e : k = k'
  · subst e; rw [aget_adel_self hn] at h; cases h
  · rw [aget_adel_ne e] at h; exact ⟨e, h⟩

/-- Deleting an attribute, or a sub-attribute of a complex attribute, from one container. -/
theorem Fits.del {ts : List Attr} {d lc} (h : Fits ts d lc) (hi : CInv d lc) {r : AttrRep}
    (hn : aget (lower r.schema) lc = none)
    (hsub : r.sub ≠ [] → isAttrName r.sub = true ∧
      (aget (lower r.attr) lc = none ∨ ∃ t ∈ ts, t.isComplex = true ∧ lower t.rep.attr = lower r.attr)) :
    ∃ d' lc', (Val.cont d lc).delItem r = .ok (.cont d' lc') ∧ Fits ts d' lc' := by
  simp only [Val.delItem, Val.delX, Bool.false_and, Bool.false_eq_true, if_false, hn]
  cases hk : aget (lower r.attr) lc with
  | none => exact ⟨d, lc, rfl, h⟩
  | some k =>
    have hkk := hi.sound _ _ hk
    have := hkk.2
    rw [← aget_isSome_iff, Option.isSome_iff_exists] at this
    obtain ⟨w, hw⟩ := this
    by_cases hs : r.sub = []
    · simp only [hs, List.isEmpty_nil, if_true, hw]
      refine ⟨_, _, rfl, ?_⟩
      intro t ht hc k' v' h1 h2
      exact h t ht hc k' v' (aget_of_adel hi.lcKeys h1).2 (aget_of_adel hi.dataKeys h2).2
    · obtain ⟨hq, ho⟩ := hsub hs
      obtain ⟨t, ht, hc, e⟩ : ∃ t ∈ ts, t.isComplex = true ∧ lower t.rep.attr = lower r.attr := by
        rcases ho with ho | ho
        · rw [hk] at ho; cases ho
        · exact ho
      have hf := h t ht hc k w (by rw [e]; exact hk) hw
      obtain ⟨w', h1, _⟩ := Fit.del hf r.sub hq
      simp only [List.isEmpty_iff, hs, if_false, delAt_eq, hw, h1]
      refine ⟨_, _, rfl, ?_⟩
      intro t' ht' hc' k' v' g1 g2
      by_cases ek : k = k'
      · subst ek
        rw [aget_aset_self] at g2; cases g2
        obtain ⟨w2, h2, h3⟩ := Fit.del (h t' ht' hc' k w g1 hw) r.sub hq
        rw [h1] at h2; cases h2
        exact h3
      · rw [aget_aset_ne ek] at g2
        exact h t' ht' hc' k' v' g1 g2

/-! ### Parsed bodies -/

/-- What a parsed body and everything made from it by deletions satisfies. -/
structure FineBody (s : Schema) (d : List (Str × Val)) (lc : List (Str × Str)) : Prop extends BodyInv s d lc where
  noShadow : ∀ t ∈ s.attrs.top, t.rep.ext = true → aget (lower t.rep.attr) lc = none
  core : Fits (s.attrs.top.filter (fun t => !t.rep.ext)) d lc
  extFits : ∀ u ∈ s.exts.map (·.1), ∀ k d' l', aget (lower u) lc = some k → aget k d = some (.cont d' l') →
    Fits (s.attrs.top.filter (fun t => t.rep.ext && (t.rep.schema == u))) d' l'

/-- the same of a value -/
def IsFine (s : Schema) (b : Val) : Prop := ∃ d lc, b = .cont d lc ∧ FineBody s d lc

theorem process_fine {m : Mode} {s : Schema} (hs : s.WF) (hns : s.NoShadow)
    (hstd : ∀ a ∈ s.attrs.top, a.isComplex = true → a.Standard m) {data r : Val} {is : Issues}
    (hobj : (data.isCont || data.isDict) = true) (h : s.process m data = .ok (r, is)) : IsFine s r := by
  obtain ⟨d, lc, rfl, hb⟩ := process_body hs hobj h
  have hnone : data.isNone = false := by
    cases data <;> simp [Val.isCont, Val.isDict] at hobj <;> rfl
  unfold Schema.process at h
  rw [hnone, hobj] at h
  simp only [Bool.false_eq_true, if_false, Bool.not_true] at h
  split at h
  · cases h
  · rename_i r0 is0 hpt
    obtain ⟨⟨d', lc', rfl, hinv⟩, h2, h3⟩ := processTop_spec s.attrs.top data.toCont [] [] [] {} r0 is0 PInv.nil hs.sub
      hs.compat (by simp) hpt
    rw [List.nil_append] at hinv
    have hr : Val.cont d lc = .cont d' lc' := by
      repeat' split at h
      all_goals first
        | (cases h; done)
        | (cases h; rfl)
    cases hr
    have hmem : ∀ p ∈ (s.attrs.top.filterMap (topOut m data.toCont)).map (fun o => (o.1, o.2.1)), p.1 ∈ s.attrs.top ∧
        (p.1.isComplex = true → p.2.Fit p.1.info.multi) := by
      intro p hp
      simp only [List.mem_map, List.mem_filterMap] at hp
      obtain ⟨o, ⟨a, ha, ho⟩, rfl⟩ := hp
      obtain ⟨q1, x, q2, q3, q4⟩ := topOut_spec ho
      simp only
      rw [q1]
      refine ⟨ha, ?_⟩
      intro hc
      have hst := hstd a ha hc
      cases a with
      | simple i => cases hc
      | complex i subs ps ds => exact complex_fit hst q4
    refine ⟨d, lc, rfl, hb, ?_, ?_, ?_⟩
    · intro t ht he
      apply hinv.lc_none
      intro k hk e
      rcases hinv.key_class hk with ⟨p, hp, h1, rfl⟩ | ⟨p, hp, h1, rfl⟩
      · exact hns p.1 (hmem p hp).1 t ht h1 he e
      · exact hs.noClash t (hs.top_all _ ht) p.1.rep.schema (List.mem_cons_of_mem _ (hs.ext p.1 (hmem p hp).1 h1)) e.symm
    · intro t ht hc k v hk hv
      obtain ⟨ht, he⟩ := List.mem_filter.mp ht
      have he : t.rep.ext = false := by simpa using he
      have hl := (hb.sound _ _ hk).1
      rcases hinv.keys _ _ hv with ⟨p, hp, h1, rfl, rfl⟩ | ⟨_, _, _, _, ⟨p, hp, h1, rfl⟩, _⟩
      · have : p.1 = t := eq_of_map_nodup hs.distinct (hmem p hp).1 ht (by
          rw [hs.core _ (hmem p hp).1 h1, hs.core t ht he, hl])
        rw [← this] at hc ⊢
        exact (hmem p hp).2 hc
      · exact absurd hl (hs.noClash t (hs.top_all _ ht) p.1.rep.schema (List.mem_cons_of_mem _ (hs.ext p.1 (hmem p hp).1 h1)))
    · intro u hu k d1 l1 hk hv t ht hc k' v' hk' hv'
      obtain ⟨htm, he⟩ := List.mem_filter.mp ht
      obtain ⟨he, rfl⟩ : t.rep.ext = true ∧ t.rep.schema = u := by simpa using he
      have hl := (hb.sound _ _ hk).1
      rcases hinv.keys _ _ hv with ⟨p, hp, h1, rfl, _⟩ | ⟨_, _, e, hd, _, hkk⟩
      · exact absurd hl.symm (hs.noClash p.1 (hs.top_all _ (hmem p hp).1) t.rep.schema (List.mem_cons_of_mem _ hu))
      · cases e
        have hl' := (hd.sound _ _ hk').1
        obtain ⟨p, hp, p1, p2, p3, rfl⟩ := hkk k' v' hv'
        have hsch : p.1.rep.schema = t.rep.schema := eq_of_map_nodup hs.urns
          (List.mem_cons_of_mem _ (hs.ext p.1 (hmem p hp).1 p1)) (List.mem_cons_of_mem _ hu) (by rw [p2, hl])
        have : p.1 = t := eq_of_map_nodup hs.distinct (hmem p hp).1 htm (by rw [hsch, p3, hl'])
        rw [← this] at hc ⊢
        exact (hmem p hp).2 hc

/-! ### Declarations -/

/-- The parent of a sub-attribute. -/
theorem Schema.Owned.parent {s : Schema} (hs : s.WF) (ho : s.Owned) {a : Attr} (ha : a ∈ s.attrs.all) (hsub : a.rep.sub ≠ []) :
    ∃ t ∈ s.attrs.top, t.isComplex = true ∧ t.rep.schema = a.rep.schema ∧ t.rep.attr = a.rep.attr ∧
      t.rep.ext = a.rep.ext ∧ s.attrs.get { schema := a.rep.schema, attr := a.rep.attr } = some t := by
  obtain ⟨_, t, ht, h1, h2, h3, h4⟩ := ho.owner a ha hsub
  refine ⟨t, ht, h1, h2, h3, h4, ?_⟩
  exact C32_full s hs t (hs.top_all t ht) _ (by rw [h2]) ⟨by rw [h3], by rw [hs.sub t ht]⟩

/-- The extension an attribute belongs to. -/
theorem Schema.WF.ext_all {s : Schema} (hs : s.WF) {a : Attr} (ha : a ∈ s.attrs.all) :
    (a.rep.ext = false ∧ a.rep.schema = s.urn) ∨ (a.rep.ext = true ∧ a.rep.schema ∈ s.exts.map (·.1)) := by
  obtain ⟨cs, es, e, h1, h2⟩ := hs.order
  rw [e] at ha
  rcases List.mem_append.mp ha with h | h
  · exact .inl (h1 a h)
  · exact .inr (h2 a h)

/-! ### Reading a parsed body -/

/-- Reading from one container. -/
theorem Fits.get {ts : List Attr} {d lc} (h : Fits ts d lc) (hi : CInv d lc) {r : AttrRep}
    (hn : aget (lower r.schema) lc = none)
    (hsub : r.sub ≠ [] → isAttrName r.sub = true ∧
      (aget (lower r.attr) lc = none ∨ ∃ t ∈ ts, t.isComplex = true ∧ lower t.rep.attr = lower r.attr)) :
    ∃ x, (Val.cont d lc).getItem r = .ok x := by
  rw [getItem_noKey hn]
  cases hk : aget (lower r.attr) lc with
  | none => exact ⟨_, rfl⟩
  | some k =>
    have := (hi.sound _ _ hk).2
    rw [← aget_isSome_iff, Option.isSome_iff_exists] at this
    obtain ⟨w, hw⟩ := this
    by_cases hs : r.sub = []
    · exact ⟨w, by simp [hw, hs]⟩
    · obtain ⟨hq, ho⟩ := hsub hs
      rcases ho with ho | ⟨t, ht, hc, e⟩
      · rw [hk] at ho; cases ho
      · have hf := h t ht hc k w (by rw [e]; exact hk) hw
        obtain ⟨x, hx⟩ := Fit.get hf r.sub hq
        exact ⟨x, by simp [hw, hs, hx]⟩

/-- A declared attribute can be read. -/
theorem FineBody.get {s : Schema} (hs : s.WF) (ho : s.Owned) {d lc} (h : FineBody s d lc) {a : Attr} (ha : a ∈ s.attrs.all) :
    ∃ x, (Val.cont d lc).getItem a.rep = .ok x := by
  rcases hs.ext_all ha with ⟨he, hu⟩ | ⟨he, hu⟩
  · apply h.core.get h.toCInv (by rw [hu]; exact h.noUrn)
    intro hsub
    obtain ⟨t, ht, h1, h2, h3, h4, h5⟩ := ho.parent hs ha hsub
    exact ⟨(ho.owner a ha hsub).1, .inr ⟨t, List.mem_filter.mpr ⟨ht, by simp [h4, he]⟩, h1, by rw [h3]⟩⟩
  · obtain ⟨t0, ht0, e0, es0, ea0⟩ : ∃ t ∈ s.attrs.top, t.rep.ext = true ∧ t.rep.schema = a.rep.schema ∧ t.rep.attr = a.rep.attr := by
      by_cases hsub : a.rep.sub = []
      · exact ⟨a, by rw [hs.topAll]; exact List.mem_filter.mpr ⟨ha, by simp [hsub]⟩, he, rfl, rfl⟩
      · obtain ⟨t, ht, h1, h2, h3, h4, h5⟩ := ho.parent hs ha hsub
        exact ⟨t, ht, by rw [h4, he], h2, h3⟩
    cases hk : aget (lower a.rep.schema) lc with
    | none =>
      apply h.core.get h.toCInv hk
      intro hsub
      exact ⟨(ho.owner a ha hsub).1, .inl (by rw [← ea0]; exact h.noShadow t0 ht0 e0)⟩
    | some k =>
      have := (h.sound _ _ hk).2
      rw [← aget_isSome_iff, Option.isSome_iff_exists] at this
      obtain ⟨w, hw⟩ := this
      obtain ⟨d', l', rfl, hi, h0⟩ := h.ext t0 ht0 e0 k w (by rw [es0]; exact hk) hw
      have hf := h.extFits _ hu k d' l' hk hw
      obtain ⟨x, hx⟩ := hf.get hi (r := { attr := a.rep.attr, sub := a.rep.sub }) h0 (by
        intro hsub
        obtain ⟨t, ht, h1, h2, h3, h4, h5⟩ := ho.parent hs ha hsub
        exact ⟨(ho.owner a ha hsub).1, .inr ⟨t, List.mem_filter.mpr ⟨ht, by simp [h4, he, h2]⟩, h1, by rw [h3]⟩⟩)
      refine ⟨x, ?_⟩
      rw [← hx]
      simp only [Val.getItem]
      rw [Val.getX]
      simp only [Bool.false_and, Bool.false_eq_true, if_false, hk]
      rw [getAt_eq, hw]

/-- The value of a declared complex attribute. -/
theorem FineBody.fit {s : Schema} (hs : s.WF) {d lc} (h : FineBody s d lc) {t : Attr} (ht : t ∈ s.attrs.top)
    (hc : t.isComplex = true) {x : Val} (hx : (Val.cont d lc).getItem t.rep = .ok x) : x.Fit t.info.multi := by
  have key : ∀ {ts : List Attr} {d lc} {r : AttrRep}, Fits ts d lc → aget (lower r.schema) lc = none → r.sub = [] →
      lower r.attr = lower t.rep.attr → (t ∈ ts ∨ aget (lower r.attr) lc = none) → (Val.cont d lc).getItem r = .ok x →
      x.Fit t.info.multi := by
    intro ts d lc r hf hn hsub e hor hx
    rw [getItem_noKey hn] at hx
    cases hk : aget (lower r.attr) lc with
    | none => simp only [hk] at hx; cases hx; exact .inr (.inl rfl)
    | some k =>
      rcases hor with hor | hor
      · simp only [hk] at hx
        cases hw : aget k d with
        | none => simp [hw] at hx
        | some w =>
          simp only [hw, hsub, List.isEmpty_nil, if_true] at hx
          cases hx
          exact hf t hor hc k x (by rw [← e]; exact hk) hw
      · rw [hk] at hor; cases hor
  cases he : t.rep.ext with
  | false =>
    exact key h.core (by rw [hs.core t ht he]; exact h.noUrn) (hs.sub t ht) rfl
      (.inl (List.mem_filter.mpr ⟨ht, by simp [he]⟩)) hx
  | true =>
    cases hk : aget (lower t.rep.schema) lc with
    | none => exact key h.core hk (hs.sub t ht) rfl (.inr (h.noShadow t ht he)) hx
    | some k =>
      have := (h.sound _ _ hk).2
      rw [← aget_isSome_iff, Option.isSome_iff_exists] at this
      obtain ⟨w, hw⟩ := this
      obtain ⟨d', l', rfl, hi, h0⟩ := h.ext t ht he k w hk hw
      have hf := h.extFits _ (hs.ext t ht he) k d' l' hk hw
      refine key hf (r := { attr := t.rep.attr, sub := t.rep.sub }) h0 (hs.sub t ht) rfl
        (.inl (List.mem_filter.mpr ⟨ht, by simp [he]⟩)) ?_
      rw [← hx]
      simp only [Val.getItem]
      conv => rhs; rw [Val.getX]
      simp only [Bool.false_and, Bool.false_eq_true, if_false, hk]
      rw [getAt_eq, hw]

/-! ### The presence checks -/

theorem checkItems_total (c : Checker) (d : Direction) (a : Attr) (ha : isAttrName a.rep.sub = true) :
    ∀ (k : Nat) (xs : List Val) (is : Issues), (∀ x ∈ xs, x.Plainly) → ∃ o, c.checkItems d a k xs is = .ok o
  | _, [], is, _ => ⟨is, by rw [Checker.checkItems]⟩
  | k, x :: xs, is, h => by
    obtain ⟨v, hv⟩ := Plainly.get (h x (by simp)) a.rep.sub
    have ih := fun is => checkItems_total c d a ha (k + 1) xs is (fun z hz => h z (List.mem_cons_of_mem _ hz))
    rw [Checker.checkItems]
    simp only [ha, Bool.not_true, Bool.false_eq_true, if_false, hv]
    cases v <;> exact ih _

theorem checkAttr_total {s : Schema} (hs : s.WF) (ho : s.Owned) {b : Val}
    (hget : ∀ a ∈ s.attrs.all, ∃ x, b.getItem a.rep = .ok x)
    (hfit : ∀ t ∈ s.attrs.top, t.isComplex = true → ∀ x, b.getItem t.rep = .ok x → x.Fit t.info.multi) (c : Checker) (d : Direction)
    {a : Attr} (ha : a ∈ s.attrs.all) (is : Issues) : ∃ o, c.checkAttr b s.attrs d a is = .ok o := by
  have single : ∃ o, (match b.getItem a.rep with
        | .error e => .error e
        | .ok .invalid => .ok is
        | .ok v => .ok (is.merge (c.checkPresence v d a) a.rep.loc) : PyM Issues) = .ok o := by
    obtain ⟨x, hx⟩ := hget a ha
    rw [hx]
    cases x <;> exact ⟨_, rfl⟩
  unfold Checker.checkAttr
  simp only [ho.named a ha, Bool.not_true, Bool.false_eq_true, if_false]
  by_cases hsub : a.rep.sub = []
  · simp only [hsub, List.isEmpty_nil, if_true]
    exact single
  · obtain ⟨t, ht, h1, h2, h3, h4, h5⟩ := ho.parent hs ha hsub
    simp only [List.isEmpty_iff, hsub, if_false, h5]
    cases hm : t.info.multi with
    | false =>
      simp only [Bool.not_false, if_true]
      exact single
    | true =>
      simp only [Bool.not_true, Bool.false_eq_true, if_false]
      obtain ⟨x, hx⟩ := hget t (hs.top_all t ht)
      have hf := hfit t ht h1 x hx
      have hx' : b.getItem { schema := a.rep.schema, attr := a.rep.attr } = .ok x := by
        rw [← hx, ← h2, ← h3]
        cases b <;> simp only [Val.getItem, Val.getX, hs.sub t ht]
      rw [hx']
      rw [hm] at hf
      rcases hf with rfl | rfl | rfl | ⟨hf, _⟩ | ⟨_, xs, rfl, hp⟩
      · exact ⟨_, rfl⟩
      · exact ⟨_, rfl⟩
      · exact ⟨_, rfl⟩
      · cases hf
      · exact checkItems_total c d a (ho.owner a ha hsub).1 0 xs is hp

/-- The presence checks do not raise when the attributes can be read and have fitting values. -/
theorem checker_total_of {s : Schema} (hs : s.WF) (ho : s.Owned) {b : Val}
    (hget : ∀ a ∈ s.attrs.all, ∃ x, b.getItem a.rep = .ok x)
    (hfit : ∀ t ∈ s.attrs.top, t.isComplex = true → ∀ x, b.getItem t.rep = .ok x → x.Fit t.info.multi) (c : Checker) (d : Direction) :
    ∃ o, c.call b s.attrs d = .ok o := by
  have key : ∀ (as : List Attr), (∀ a ∈ as, a ∈ s.attrs.all) → ∀ is, ∃ o, c.checkAll b s.attrs d as is = .ok o := by
    intro as
    induction as with
    | nil => intro _ is; exact ⟨is, by rw [Checker.checkAll]⟩
    | cons a as ih =>
      intro h is
      obtain ⟨o, h1⟩ := checkAttr_total hs ho hget hfit c d (h a (by simp)) is
      rw [Checker.checkAll, h1]
      exact ih (fun x hx => h x (List.mem_cons_of_mem _ hx)) o
  exact key _ (fun _ h => h) _

/-- The presence checks of a parsed body do not raise. -/
theorem checker_total {s : Schema} (hs : s.WF) (ho : s.Owned) {b : Val} (hb : IsFine s b) (c : Checker) (d : Direction) :
    ∃ o, c.call b s.attrs d = .ok o := by
  obtain ⟨dd, lc, rfl, hb⟩ := hb
  exact checker_total_of hs ho (fun a ha => hb.get hs ho ha) (fun t ht hc x hx => hb.fit hs ht hc hx) c d

/-! ### Deleting read-only attributes -/

theorem FineBody.del {s : Schema} (hs : s.WF) (ho : s.Owned) {d lc} (h : FineBody s d lc) {a : Attr} (ha : a ∈ s.attrs.all) :
    ∃ b, (Val.cont d lc).delItem a.rep = .ok b ∧ IsFine s b := by
  have hnames : ∀ {b : Val}, (Val.cont d lc).delItem a.rep = .ok b → IsBody s b ∧
      ∃ d' lc', b = .cont d' lc' ∧ ∀ l, aget l lc = none → aget l lc' = none := by
    intro b hd
    have hd := delItem_cases hd
    obtain ⟨d', lc', rfl, _, hk⟩ := hd.inv h.toCInv
    exact ⟨h.toBodyInv.del hs ha hd, d', lc', rfl, hk⟩
  have hextKeep : ∀ {d' lc'}, (Val.cont d lc).delItem a.rep = .ok (.cont d' lc') → aget (lower a.rep.schema) lc = none →
      ∀ u ∈ s.exts.map (·.1), ∀ k d1 l1, aget (lower u) lc' = some k → aget k d' = some (.cont d1 l1) →
        Fits (s.attrs.top.filter (fun t => t.rep.ext && (t.rep.schema == u))) d1 l1 := by
    intro d' lc' hd hno u hu k d1 l1 hk hv
    have hne : lower a.rep.attr ≠ lower u := hs.noClash a ha u (List.mem_cons_of_mem _ hu)
    cases delItem_cases hd with
    | inner hx _ _ => rw [hno] at hx; cases hx
    | absent _ _ => exact h.extFits u hu k d1 l1 hk hv
    | @top k1 _ hk1 _ =>
      rw [aget_adel_ne hne] at hk
      exact h.extFits u hu k d1 l1 hk (aget_of_adel h.dataKeys hv).2
    | @sub k1 w w' _ hk1 _ hw hx =>
      have : k1 ≠ k := by
        intro e
        subst e
        exact hne ((h.sound _ _ hk1).1.trans (h.sound _ _ hk).1.symm)
      rw [aget_aset_ne this] at hv
      exact h.extFits u hu k d1 l1 hk hv
  have finish : ∀ {d' lc'}, (Val.cont d lc).delItem a.rep = .ok (.cont d' lc') → aget (lower a.rep.schema) lc = none →
      Fits (s.attrs.top.filter (fun t => !t.rep.ext)) d' lc' → ∃ b, (Val.cont d lc).delItem a.rep = .ok b ∧ IsFine s b := by
    intro d' lc' hd hno hf
    obtain ⟨⟨_, _, e, hb⟩, _, _, e2, hk⟩ := hnames hd
    cases e; cases e2
    exact ⟨_, hd, d', lc', rfl, hb, fun t ht he => hk _ (h.noShadow t ht he), hf, hextKeep hd hno⟩
  rcases hs.ext_all ha with ⟨he, hu⟩ | ⟨he, hu⟩
  · obtain ⟨d', lc', hd, hf⟩ := h.core.del h.toCInv (r := a.rep) (by rw [hu]; exact h.noUrn) (by
      intro hsub
      obtain ⟨t, ht, h1, h2, h3, h4, h5⟩ := ho.parent hs ha hsub
      exact ⟨(ho.owner a ha hsub).1, .inr ⟨t, List.mem_filter.mpr ⟨ht, by simp [h4, he]⟩, h1, by rw [h3]⟩⟩)
    exact finish hd (by rw [hu]; exact h.noUrn) hf
  · obtain ⟨t0, ht0, e0, es0, ea0⟩ : ∃ t ∈ s.attrs.top, t.rep.ext = true ∧ t.rep.schema = a.rep.schema ∧ t.rep.attr = a.rep.attr := by
      by_cases hsub : a.rep.sub = []
      · exact ⟨a, by rw [hs.topAll]; exact List.mem_filter.mpr ⟨ha, by simp [hsub]⟩, he, rfl, rfl⟩
      · obtain ⟨t, ht, h1, h2, h3, h4, h5⟩ := ho.parent hs ha hsub
        exact ⟨t, ht, by rw [h4, he], h2, h3⟩
    cases hk : aget (lower a.rep.schema) lc with
    | none =>
      obtain ⟨d', lc', hd, hf⟩ := h.core.del h.toCInv (r := a.rep) hk (by
        intro hsub
        exact ⟨(ho.owner a ha hsub).1, .inl (by rw [← ea0]; exact h.noShadow t0 ht0 e0)⟩)
      exact finish hd hk hf
    | some k =>
      have := (h.sound _ _ hk).2
      rw [← aget_isSome_iff, Option.isSome_iff_exists] at this
      obtain ⟨w, hw⟩ := this
      obtain ⟨d', l', rfl, hi, h0⟩ := h.ext t0 ht0 e0 k w (by rw [es0]; exact hk) hw
      have hf := h.extFits _ hu k d' l' hk hw
      obtain ⟨d2, l2, hd2, hf2⟩ := hf.del hi (r := { attr := a.rep.attr, sub := a.rep.sub }) h0 (by
        intro hsub
        obtain ⟨t, ht, h1, h2, h3, h4, h5⟩ := ho.parent hs ha hsub
        exact ⟨(ho.owner a ha hsub).1, .inr ⟨t, List.mem_filter.mpr ⟨ht, by simp [h4, he, h2]⟩, h1, by rw [h3]⟩⟩)
      have hd : (Val.cont d lc).delItem a.rep = .ok (.cont (aset k (.cont d2 l2) d) lc) := by
        rw [Val.delItem] at hd2 ⊢
        rw [Val.delX]
        simp only [Bool.false_and, Bool.false_eq_true, if_false, hk]
        rw [delAt_eq, hw]
        simp only [hd2]
      obtain ⟨⟨_, _, e, hb⟩, _, _, e2, hkk⟩ := hnames hd
      cases e; cases e2
      refine ⟨_, hd, _, _, rfl, hb, h.noShadow, ?_, ?_⟩
      · intro t ht hc k' v' hk' hv'
        have htm := (List.mem_filter.mp ht).1
        have : k ≠ k' := by
          intro e
          subst e
          exact hs.noClash t (hs.top_all t htm) a.rep.schema (List.mem_cons_of_mem _ hu)
            ((h.sound _ _ hk').1.trans (h.sound _ _ hk).1.symm)
        rw [aget_aset_ne this] at hv'
        exact h.core t ht hc k' v' hk' hv'
      · intro u hu' k' d1 l1 hk' hv'
        by_cases e : k = k'
        · subst e
          rw [aget_aset_self] at hv'
          cases hv'
          have : u = a.rep.schema := eq_of_map_nodup hs.urns (List.mem_cons_of_mem _ hu') (List.mem_cons_of_mem _ hu)
            ((h.sound _ _ hk').1.trans (h.sound _ _ hk).1.symm)
          rw [this]; exact hf2
        · rw [aget_aset_ne e] at hv'
          exact h.extFits u hu' k' d1 l1 hk' hv'

/-- Removing the read-only attributes of a parsed body does not raise. -/
theorem dropReadOnly_total {s : Schema} (hs : s.WF) (ho : s.Owned) : ∀ (as : List Attr), (∀ a ∈ as, a ∈ s.attrs.all) →
    ∀ {b : Val}, IsFine s b → ∃ r, dropReadOnly as b = .ok r
  | [], _, b, _ => ⟨b, by rw [dropReadOnly]⟩
  | a :: as, h, b, hb => by
    have ih := @dropReadOnly_total s hs ho as (fun x hx => h x (List.mem_cons_of_mem _ hx))
    rw [dropReadOnly]
    split
    · obtain ⟨d, lc, rfl, hb⟩ := hb
      obtain ⟨b', h1, h2⟩ := hb.del hs ho (h a (by simp))
      rw [h1]
      exact ih h2
    · exact ih hb

/-! ### The shipped schemas -/

/-- ASCII words and `$ref`. -/
def okName (s : Str) : Bool := (!s.isEmpty && s.all (fun c => decide (c.toNat < 128) && asciiWord c)) || s == "$ref".toList

/-- The check of declared names. -/
def checkNames (ns : List (AttrRep × List AttrRep)) : Bool :=
  ns.all (fun n => okName n.1.attr && n.2.all (fun r => okName r.attr))

theorem okName_isAttrName {s : Str} (h : okName s = true) : isAttrName s = true := by
  rw [isAttrName_iff]
  simp only [okName, Bool.or_eq_true, Bool.and_eq_true, List.all_eq_true, decide_eq_true_eq, beq_iff_eq] at h
  rcases h with ⟨h1, h2⟩ | h
  · left
    refine ⟨by rintro rfl; simp at h1, ?_⟩
    intro c hc
    rw [PyEnv.isWord_ascii c (h2 c hc).1]; exact (h2 c hc).2
  · exact .inr h

theorem named_of {attrs : List Attr} {ns : List (AttrRep × List AttrRep)} (h : declNames attrs = ns)
    (hk : checkNames ns = true) :
    ∀ d ∈ attrs, isAttrName d.rep.attr = true ∧ ∀ t ∈ d.subs, isAttrName t.rep.attr = true := by
  subst h
  intro d hd
  have := List.all_eq_true.mp hk (d.rep, d.subs.map (·.rep)) (List.mem_map.mpr ⟨d, hd, rfl⟩)
  simp only [Bool.and_eq_true, List.all_map, List.all_eq_true, Function.comp] at this
  exact ⟨okName_isAttrName this.1, fun t ht => okName_isAttrName (this.2 t ht)⟩

/-- The attributes a list of declarations is turned into. -/
theorem owned_bind {ds : List Attr} {urn : Str} {ext : Bool}
    (hn : ∀ d ∈ ds, isAttrName d.rep.attr = true ∧ ∀ t ∈ d.subs, isAttrName t.rep.attr = true) :
    ∀ a ∈ ds.flatMap (bindWithSubs urn ext), isAttrName a.rep.attr = true ∧ (a.rep.sub ≠ [] → isAttrName a.rep.sub = true ∧
      ∃ t ∈ ds.flatMap (bindWithSubs urn ext), t.rep.sub = [] ∧ t.isComplex = true ∧ t.rep.schema = a.rep.schema ∧
        t.rep.attr = a.rep.attr ∧ t.rep.ext = a.rep.ext) := by
  intro a ha
  obtain ⟨d, hd, hm⟩ := List.mem_flatMap.mp ha
  rcases mem_bindWithSubs.mp hm with rfl | ⟨t, ht, rfl⟩
  · rw [bindAttr_rep]
    exact ⟨(hn d hd).1, fun h => absurd rfl h⟩
  · rw [bindAttr_rep]
    refine ⟨(hn d hd).1, fun _ => ⟨(hn d hd).2 t ht, bindAttr d { schema := urn, attr := d.rep.attr, ext := ext }, ?_, ?_⟩⟩
    · exact List.mem_flatMap.mpr ⟨d, hd, mem_bindWithSubs.mpr (.inl rfl)⟩
    · rw [bindAttr_rep]
      refine ⟨rfl, ?_, rfl, rfl, rfl⟩
      cases d with
      | simple i => simp [Attr.subs] at ht
      | complex i subs ps ds => rfl

theorem owned_of {s : Schema} (hs : s.WF) (h : ∀ a ∈ s.attrs.all, isAttrName a.rep.attr = true ∧ (a.rep.sub ≠ [] →
      isAttrName a.rep.sub = true ∧ ∃ t ∈ s.attrs.all, t.rep.sub = [] ∧ t.isComplex = true ∧ t.rep.schema = a.rep.schema ∧
        t.rep.attr = a.rep.attr ∧ t.rep.ext = a.rep.ext)) : s.Owned := by
  refine ⟨fun a ha => (h a ha).1, fun a ha hsub => ?_⟩
  obtain ⟨h1, t, ht, h2, h3⟩ := (h a ha).2 hsub
  exact ⟨h1, t, by rw [hs.topAll]; exact List.mem_filter.mpr ⟨ht, by simp [h2]⟩, h3⟩

theorem user_owned : userSchema.Owned := by
  apply owned_of user_wf
  rw [user_all, user_core_all]
  have h1 := owned_bind (urn := UserA.urn) (ext := false) (named_of userNames_eq (by decide +kernel))
  have h2 := owned_bind (urn := UserA.enterpriseUrn) (ext := true) (named_of enterpriseNames_eq (by decide +kernel))
  intro a ha
  rcases List.mem_append.mp ha with ha | ha
  · refine ⟨(h1 a ha).1, fun hsub => ?_⟩
    obtain ⟨g1, t, ht, g2⟩ := (h1 a ha).2 hsub
    exact ⟨g1, t, List.mem_append_left _ ht, g2⟩
  · refine ⟨(h2 a ha).1, fun hsub => ?_⟩
    obtain ⟨g1, t, ht, g2⟩ := (h2 a ha).2 hsub
    exact ⟨g1, t, List.mem_append_right _ ht, g2⟩

theorem group_owned : GroupA.schema.Owned := by
  apply owned_of group_wf
  have hall : GroupA.schema.attrs.all = (schemasAttr :: idAttr :: externalIdAttr :: metaAttr ::
      [GroupA.displayNameA, GroupA.membersA]).flatMap (bindWithSubs GroupA.urn false) := by
    obtain ⟨_, h2⟩ := bind_facts (urn := GroupA.urn) (ext := false) group_decl
    exact ofList_all (keys_of_lnames h2)
  rw [hall]
  exact owned_bind (named_of groupNames_eq (by decide +kernel))

/-! ### The query string -/

theorem strings_total : ∀ (xs : List Val), (∀ x ∈ xs, ∃ t, x = Val.str t) → ∃ ss, strings xs = .ok ss
  | [], _ => ⟨[], rfl⟩
  | x :: xs, h => by
    obtain ⟨t, rfl⟩ := h x (by simp)
    obtain ⟨ss, hs⟩ := strings_total xs (fun z hz => h z (List.mem_cons_of_mem _ hz))
    exact ⟨t :: ss, by simp only [Val.str, strings, hs]⟩

theorem requested_total (a b : Val) (ha : ∀ xs, a = .list xs → ∀ x ∈ xs, ∃ t, x = Val.str t)
    (hb : ∀ xs, b = .list xs → ∀ x ∈ xs, ∃ t, x = Val.str t) : ∃ o, requested a b = .ok o := by
  have key : ∀ xs i, (∀ x ∈ xs, ∃ t, x = Val.str t) → ∃ o, parseNamesAs xs i = .ok o := by
    intro xs i h
    obtain ⟨ss, hs⟩ := strings_total xs h
    exact ⟨_, by rw [parseNamesAs, hs]⟩
  unfold requested
  split
  · exact ⟨_, rfl⟩
  · exact key _ _ (ha _ rfl)
  · exact key _ _ (hb _ rfl)
  · exact ⟨_, rfl⟩
  · exact ⟨_, rfl⟩

theorem splitNames_strings {v : Val} (h : ∀ xs, v = .list xs → ∀ x ∈ xs, ∃ t, x = Val.str t) :
    ∀ xs, splitNames v = .list xs → ∀ x ∈ xs, ∃ t, x = Val.str t := by
  intro xs e x hx
  unfold splitNames at e
  split at e
  · cases e
    obtain ⟨t, _, rfl⟩ := List.mem_map.mp hx
    exact ⟨t, rfl⟩
  · exact h xs e x hx

/-- The requested attributes. -/
theorem parseRequested_total {q : List (Str × Val)}
    (h : ∀ incl xs, aget (namesParam incl) q = some (.list xs) → ∀ x ∈ xs, ∃ t, x = Val.str t) :
    ∃ o, parseRequested q = .ok o := by
  have key : ∀ incl, ∀ xs, (aget (namesParam incl) q).getD (.list []) = .list xs → ∀ x ∈ xs, ∃ t, x = Val.str t := by
    intro incl xs e
    cases hg : aget (namesParam incl) q with
    | none => rw [hg] at e; cases e; simp
    | some v => rw [hg] at e; exact h incl xs (hg.trans (congrArg some e))
  exact requested_total _ _ (splitNames_strings (key true)) (splitNames_strings (key false))

theorem parseQuery_total {query : Val} (h : QueryOk query) : ∃ o, parseQuery query = .ok o := by
  unfold parseQuery
  split
  · rename_i q
    obtain ⟨o, ho⟩ := parseRequested_total (h q rfl)
    rw [ho]
    exact ⟨_, rfl⟩
  · exact ⟨_, rfl⟩

theorem parseNumber_total (name : Str) {q : List (Str × Val)} (is : Issues)
    (h : ∀ v, aget name q = some v → v = .null ∨ ∃ t, v = .str t) : ∃ o, parseNumber name q is = .ok o := by
  unfold parseNumber
  cases hg : aget name q with
  | none => exact ⟨_, rfl⟩
  | some v =>
    rcases h v hg with rfl | ⟨t, rfl⟩
    · exact ⟨_, rfl⟩
    · simp only [Option.getD_some, Val.str, Val.pyInt]
      cases PyEnv.parseInt t <;> exact ⟨_, rfl⟩

theorem parseNumber_other {name other : Str} (hne : name ≠ other) {q q' : List (Str × Val)} {is is' : Issues}
    (h : parseNumber name q is = .ok (q', is')) : aget other q' = aget other q := by
  unfold parseNumber at h
  split at h
  · cases h; rfl
  · split at h
    · cases h; rw [aget_aset]; simp [hne]
    · split at h
      · cases h; rfl
      · cases h

/-- The query string of a request for many resources. -/
theorem parseListQuery_total {q : List (Str × Val)}
    (ht : ∀ k v, k ≠ filterWord → aget k q = some v → ∃ t, v = .str t)
    (hf : ∀ t, aget filterWord q = some (.str t) → ∃ o, Filter.parse t = .ok o) : ∃ o, parseListQuery q = .ok o := by
  have hfil : ∃ o, parseFiltering q = .ok o := by
    unfold parseFiltering
    cases hg : aget filterWord q with
    | none => exact ⟨_, rfl⟩
    | some v =>
      simp only [Option.getD_some]
      split
      · obtain ⟨⟨o, i⟩, ho⟩ := hf _ hg
        rw [ho]
        cases o <;> exact ⟨_, rfl⟩
      · exact ⟨_, rfl⟩
      · exact ⟨_, rfl⟩
  obtain ⟨⟨f, i1⟩, h1⟩ := hfil
  unfold parseListQuery
  rw [h1]
  simp only
  generalize hsrt : parseSorting (aset filterWord f q) = so
  obtain ⟨srt, i2⟩ := so
  simp only
  have hq : ∀ k, k ≠ filterWord → k ≠ sorterWord → aget k (aset sorterWord srt (aset filterWord f q)) = aget k q := by
    intro k h1 h2
    rw [aget_aset, if_neg h2.symm, aget_aset, if_neg h1.symm]
  obtain ⟨⟨c, i3⟩, h3⟩ := parseRequested_total (q := aset sorterWord srt (aset filterWord f q)) (by
    intro incl xs hx
    rw [hq _ (by cases incl <;> decide +kernel) (by cases incl <;> decide +kernel)] at hx
    obtain ⟨t, h⟩ := ht _ _ (by cases incl <;> decide +kernel) hx
    cases h)
  rw [h3]
  simp only
  have hq' : ∀ k, k ≠ filterWord → k ≠ sorterWord → k ≠ checkerWord →
      aget k (if i3.hasIssues = true then aset sorterWord srt (aset filterWord f q) else
        aset checkerWord c (aset sorterWord srt (aset filterWord f q))) = aget k q := by
    intro k h1 h2 h3
    split
    · exact hq k h1 h2
    · rw [aget_aset, if_neg h3.symm]; exact hq k h1 h2
  generalize (if i3.hasIssues = true then aset sorterWord srt (aset filterWord f q) else
        aset checkerWord c (aset sorterWord srt (aset filterWord f q))) = q4 at hq' ⊢
  obtain ⟨⟨q5, i5⟩, h5⟩ := parseNumber_total countWord (q := q4)
    (((Issues.empty.merge i1 (queryLoc ++ [.name filterWord])).merge i2 (queryLoc ++ [.name "sortby".toList])).merge i3 queryLoc)
    (by
      intro v hv
      rw [hq' _ (by decide +kernel) (by decide +kernel) (by decide +kernel)] at hv
      exact .inr (ht _ _ (by decide +kernel) hv))
  rw [h5]
  simp only
  exact parseNumber_total startWord i5 (by
    intro v hv
    rw [parseNumber_other (by decide +kernel) h5, hq' _ (by decide +kernel) (by decide +kernel) (by decide +kernel)] at hv
    exact .inr (ht _ _ (by decide +kernel) hv))

end Scim
