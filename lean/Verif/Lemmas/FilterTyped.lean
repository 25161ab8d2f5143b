import Verif.Lemmas.FilterTypes
import Verif.Props.ListTotality

/-! Helper lemmas for C107: resources written without issues hold values of the declared types. -/

namespace Scim
open Issues
variable [PyEnv]

/-- No condition on dates. -/
abbrev anyDate : DateTime → Prop := fun _ => True

omit [PyEnv] in
theorem isNone_eq {v : Val} (h : v.isNone = true) : v = .null := by
  cases v with
  | prim p => cases p <;> simp [Val.isNone] at h; rfl
  | _ => simp [Val.isNone] at h

theorem merge_self_clean {s o : Issues} {loc : Loc} (h : (s.merge o loc).hasIssues = false) : s.hasIssues = false ∧ o.hasIssues = false :=
  (hasIssues_merge_false _ _ _).mp h

/-! ### One attribute -/

theorem processOne_held {i : AttrInfo} (ht : i.type ≠ .unknown) {loc : Loc} {v r : Val} {s is : Issues}
    (h : i.processOne .dump loc v s = .ok (r, is)) (hn : is.hasIssues = false) :
    s.hasIssues = false ∧ i.HoldsOne anyDate r := by
  unfold AttrInfo.processOne at h
  split at h
  · cases h
  · rename_i item i1 hc
    dsimp only at h
    split at h
    · cases h
      rw [hasIssues_add] at hn; cases hn
    · cases h
      obtain ⟨h1, h2⟩ := merge_self_clean hn
      rcases C19_dump_dichotomy i.type ht v r i1 hc with ⟨-, hb⟩ | ⟨-, hw, -⟩
      · rw [hb.1] at h2; cases h2
      · exact ⟨h1, hw, fun _ _ _ _ _ => trivial⟩

theorem processItems_held {i : AttrInfo} (ht : i.type ≠ .unknown) : ∀ {k : Nat} {xs ys : List Val} {s is : Issues},
    i.processItems .dump k xs s = .ok (ys, is) → is.hasIssues = false → s.hasIssues = false ∧ ∀ y ∈ ys, i.HoldsOne anyDate y
  | _, [], _, _, _, h, hn => by rw [AttrInfo.processItems] at h; cases h; exact ⟨hn, fun y hy => absurd hy List.not_mem_nil⟩
  | k, x :: xs, ys, s, is, h, hn => by
    rw [AttrInfo.processItems] at h
    split at h
    · cases h
    · rename_i item i1 ho
      split at h
      · cases h
      · rename_i items i2 hr
        cases h
        obtain ⟨h1, h2⟩ := processItems_held ht hr hn
        obtain ⟨h3, h4⟩ := processOne_held ht ho h1
        refine ⟨h3, fun y hy => ?_⟩
        rcases List.mem_cons.mp hy with rfl | hy
        · exact h4
        · exact h2 y hy

/-- An attribute that is not complex. -/
theorem simple_held {i : AttrInfo} (hstd : (Attr.simple i).Standard .dump) (ht : i.type ≠ .unknown) {v r : Val} {is : Issues}
    (h : i.process .dump v = .ok (r, is)) (hn : is.hasIssues = false) : r = .null ∨ i.HoldsVal anyDate r := by
  rw [info_process_eq] at h
  split at h
  · rename_i hv; cases h; exact .inl (isNone_eq hv)
  right
  split at h
  · cases h
  · rename_i issues hb
    cases h
    unfold AttrInfo.base at hb
    split at hb
    · split at hb
      · split at hb <;> cases hb
      · cases hb; cases hn
    · split at hb <;> cases hb
  · rename_i p issues hb
    have hp : issues.hasIssues = false → i.HoldsVal anyDate p := by
      intro hi
      unfold AttrInfo.base at hb
      unfold AttrInfo.HoldsVal
      split at hb
      · rename_i hm
        rw [if_pos hm]
        split at hb
        · split at hb
          · cases hb
          · rename_i items i1 hit
            cases hb
            exact ⟨_, rfl, (processItems_held ht hit hi).2⟩
        · cases hb
      · rename_i hm
        rw [if_neg hm]
        split at hb
        · cases hb
        · rename_i ho
          cases hb
          exact (processOne_held ht ho hi).2
    split at h
    · rename_i hi; cases h; rw [hi] at hn; cases hn
    · rename_i hi
      have hi : issues.hasIssues = false := by simpa using hi
      have hp1 := hp hi
      clear hp
      rcases hstd with he | ⟨hty, hm, he⟩
      · rw [he, runProcs] at h; cases h; exact hp1
      · rw [he, runProcs] at h
        split at h
        · cases h
        · rename_i v' i1 hb1
          rw [runProcs] at h
          cases h
          unfold bulkIdValidator at hb1
          split at hb1
          · split at hb1
            · cases hb1
              exact absurd (merge_self_clean hn).2 (by decide)
            · cases hb1; exact hp1
          · cases hb1

/-! ### Stored values -/

/-- A container with declared attributes only, which hold nothing or values of their types. -/
structure Held (ts : List Attr) (d : List (Str × Val)) (lc : List (Str × Str)) : Prop extends DInv d lc where
  typed : ∀ k v, aget k d = some v → ∃ t ∈ ts, t.rep.attr = k ∧ (v = .null ∨ t.HoldsVal anyDate v)

/-- An attribute without complex sub-attributes, as standard attributes are. -/
structure Attr.Even (a : Attr) : Prop where
  typed : a.typed = true
  complex : a.isComplex = true → a.info.type = .complex
  plain : PlainSubs a.subs
  subs : ∀ q ∈ a.subs, q.isComplex = false ∧ q.typed = true

omit [PyEnv] in
/-- Values of attributes that are not complex are neither lists nor objects. -/
theorem wire_prim {t : AttrType} (h1 : t ≠ .unknown) (h2 : t ≠ .complex) {x : Val} (h : t.Wire x) : ∃ p, x = .prim p := by
  cases t <;> first
    | exact absurd rfl h1
    | exact absurd rfl h2
    | (simp only [AttrType.Wire, AttrType.Holds, Val.str, Val.bool, Val.int] at h
       first
         | (rcases h with ⟨_, rfl⟩ | ⟨_, rfl⟩ <;> exact ⟨_, rfl⟩)
         | (obtain ⟨_, rfl⟩ := h; exact ⟨_, rfl⟩))

/-- What is found in a container under a name. -/
theorem Held.find {ts : List Attr} {d lc} (h : Held ts d lc) {r : AttrRep}
    (hn : aget (lower r.schema) lc = none) :
    (Val.cont d lc).getItem r = .ok .missing ∨ ∃ t ∈ ts, lower t.rep.attr = lower r.attr ∧
      ∃ v, (v = .null ∨ t.HoldsVal anyDate v) ∧
        (Val.cont d lc).getItem r = if r.sub.isEmpty then .ok v else Val.getX true v { attr := r.sub } := by
  rw [getItem_noKey hn]
  cases hk : aget (lower r.attr) lc with
  | none => exact .inl rfl
  | some k =>
    obtain ⟨h1, h2⟩ := h.sound _ _ hk
    rw [← aget_isSome_iff, Option.isSome_iff_exists] at h2
    obtain ⟨v, hv⟩ := h2
    obtain ⟨t, ht, rfl, hh⟩ := h.typed k v hv
    exact .inr ⟨t, ht, h1.symm, v, hh, by simp [hv]⟩

theorem Held.noKey {ts : List Attr} (hnm : ∀ t ∈ ts, t.rep.attr ≠ []) {d lc} (h : Held ts d lc) {u : Str}
    (hu : u = [] ∨ ∀ t ∈ ts, lower t.rep.attr ≠ lower u) : aget (lower u) lc = none := by
  apply h.lc_none
  intro k hk
  rw [← aget_isSome_iff, Option.isSome_iff_exists] at hk
  obtain ⟨v, hv⟩ := hk
  obtain ⟨t, ht, rfl, -⟩ := h.typed k v hv
  rcases hu with rfl | hu
  · exact lower_ne_nil (hnm t ht)
  · exact hu t ht

theorem findAttr_names {attrs : List Attr} {r : AttrRep} {a : Attr} (h : findAttr attrs r = some a) : a ∈ attrs ∧
    (a.rep.schema = [] ∨ r.schema = [] ∨ lower a.rep.schema = lower r.schema) ∧ lower a.rep.attr = lower r.attr ∧
      lower a.rep.sub = lower r.sub := by
  have h1 : a.rep.eqv r = true := List.find?_some (p := fun a : Attr => a.rep.eqv r) h
  exact ⟨List.mem_of_find?_eq_some h, (eqv_iff a.rep r).mp h1⟩

/-- An item of a complex attribute. -/
theorem Held.item {subs : List Attr} (hp : PlainSubs subs) (hf : ∀ q ∈ subs, q.isComplex = false ∧ q.typed = true) {d lc}
    (h : Held subs d lc) : HoldsItem anyDate subs (.cont d lc) := by
  have key : ∀ r, ReadableName subs r → (Val.cont d lc).getItem r = .ok .missing ∨ ∃ q ∈ subs, lower q.rep.attr = lower r.attr ∧
      ∃ v, (v = .null ∨ q.HoldsVal anyDate v) ∧
        (Val.cont d lc).getItem r = if r.sub.isEmpty then .ok v else Val.getX true v { attr := r.sub } :=
    fun r hr => h.find (h.noKey hp.named hr.schema)
  refine ⟨rfl, ?_, ?_⟩
  · intro r hr
    rcases key r hr with e | ⟨q, hq, hl, v, hv, e⟩
    · exact ⟨_, e⟩
    · rw [e]
      cases hs : r.sub.isEmpty with
      | true => exact ⟨_, rfl⟩
      | false =>
        rw [if_neg (by simp)]
        rcases hr.sub with h0 | ⟨-, h0⟩
        · rw [h0] at hs; cases hs
        have hsc := hf q hq
        have hm := (h0 q hq (hp.plain q hq).2.1 hl).resolve_left (by rw [hsc.1]; simp)
        rcases hv with rfl | hv
        · exact ⟨_, rfl⟩
        · cases q with
          | complex => cases hsc.1
          | simple i =>
            have hty := hsc.2
            simp only [Attr.typed, Bool.and_eq_true, bne_iff_ne, ne_eq] at hty
            have hv : i.HoldsVal anyDate v := hv
            unfold AttrInfo.HoldsVal at hv
            rw [if_neg (by rw [show i.multi = false from hm]; simp)] at hv
            obtain ⟨p, rfl⟩ := wire_prim hty.1 hty.2 hv.1
            exact ⟨_, rfl⟩
  · intro r s y hr hfind hy
    obtain ⟨hs, he⟩ := findAttr_names hfind
    have hsub : r.sub = [] := by
      have := he.2.2
      rw [(hp.plain s hs).2.1] at this
      exact Classical.byContradiction fun hc => lower_ne_nil hc this.symm
    rcases key r hr with e | ⟨q, hq, hl, v, hv, e⟩
    · rw [e] at hy; cases hy; exact .inl (.inr rfl)
    · have : q = s := eq_of_map_nodup hp.distinct hq hs (by rw [hl, he.2.1])
      subst this
      rw [e, if_pos (by rw [hsub]; rfl)] at hy
      cases hy
      rcases hv with rfl | hv
      · exact .inl (.inl rfl)
      · right
        cases q with
        | simple i => exact hv
        | complex => cases (hf _ hq).1

/-- The object made from the sub-attributes. -/
theorem processSubs_held {subs : List Attr} (hp : PlainSubs subs) (hstd : StandardAll .dump subs)
    (hf : ∀ q ∈ subs, q.isComplex = false ∧ q.typed = true) {loc : Loc} {item : Val} {acc : Issues} {r : Val} {is : Issues}
    (h : processSubs .dump subs loc item .emptyCont acc = .ok (r, is)) (hn : is.hasIssues = false) :
    acc.hasIssues = false ∧ ∃ d lc, r = .cont d lc ∧ Held subs d lc := by
  obtain ⟨d, lc, rfl, hv⟩ := processSubs_view hp h
  rw [← mkCont_nil] at h
  obtain ⟨h1, h2, h3⟩ := processSubs_spec subs loc item [] acc _ is hp.plain (lower_nodup_attr hp.distinct) (by simp) h
  rw [h2] at hn
  obtain ⟨h4, -, h5⟩ := mergeSubs_clean hn
  refine ⟨h4, d, lc, rfl, hv.toDInv, ?_⟩
  intro k v hkv
  unfold mkCont at h1
  cases h1
  have := mem_of_aget hkv
  simp only [List.nil_append, List.mem_map, List.mem_filterMap] at this
  obtain ⟨o, ⟨q, hq, ho⟩, e⟩ := this
  have hi := h5 o (List.mem_filterMap.mpr ⟨q, hq, ho⟩)
  unfold subOut at ho
  split at ho
  · cases ho
  · cases ho
  · split at ho
    · cases ho
    · rename_i x _ _ y i1 hpr
      cases ho
      cases e
      refine ⟨q, hq, rfl, ?_⟩
      obtain ⟨f1, f2⟩ := hf q hq
      cases q with
      | complex => cases f1
      | simple i =>
        simp only [Attr.typed, Bool.and_eq_true, bne_iff_ne, ne_eq] at f2
        rw [Attr.process] at hpr
        exact simple_held (standardAll_iff.mp hstd _ hq) f2.1 hpr hi

theorem complexItems_held {subs : List Attr} (hp : PlainSubs subs) (hstd : StandardAll .dump subs)
    (hf : ∀ q ∈ subs, q.isComplex = false ∧ q.typed = true) : ∀ {k : Nat} {xs ys : List Val} {s is : Issues},
    complexItems (fun loc item is => processSubs .dump subs loc item .emptyCont is) k xs s = .ok (ys, is) → is.hasIssues = false →
    s.hasIssues = false ∧ ∀ y ∈ ys, HoldsItem anyDate subs y
  | _, [], ys, s, is, h, hn => by simp only [complexItems] at h; cases h; exact ⟨hn, by simp⟩
  | k, x :: xs, ys, s, is, h, hn => by
    simp only [complexItems] at h
    split at h
    · cases h
    · rename_i item s1 hx
      split at h
      · cases h
      · rename_i items s2 hr
        cases h
        obtain ⟨h1, h2⟩ := complexItems_held hp hstd hf hr hn
        obtain ⟨h3, d, lc, rfl, h4⟩ := processSubs_held hp hstd hf hx h1
        refine ⟨h3, fun y hy => ?_⟩
        rcases List.mem_cons.mp hy with rfl | hy
        · exact h4.item hp hf
        · exact h2 y hy

/-- Any attribute. -/
theorem process_held {a : Attr} (hstd : a.Standard .dump) (he : a.Even) {v r : Val} {is : Issues}
    (h : a.process .dump v = .ok (r, is)) (hn : is.hasIssues = false) : r = .null ∨ a.HoldsVal anyDate r := by
  cases a with
  | simple i =>
    have := he.typed
    simp only [Attr.typed, Bool.and_eq_true, bne_iff_ne, ne_eq] at this
    rw [Attr.process] at h
    exact simple_held hstd this.1 h hn
  | complex info subs ps ds =>
    have hps : PlainSubs subs := he.plain
    have hf : ∀ q ∈ subs, q.isComplex = false ∧ q.typed = true := he.subs
    obtain ⟨ht, hvc, hs1, hs2, hs3, hs4⟩ := hstd
    have hpr : ∀ p ∈ (Attr.complex info subs ps ds).cprocs .dump, ∀ v r i, p v = .ok (r, i) → r = v := by
      intro p hp v r i hv
      rw [(hs2 p hp).1] at hv
      unfold validateSinglePrimary at hv
      split at hv
      · split at hv
        · cases hv
        · cases hv; rfl
      · cases hv
    have key : ∀ (ps : List Proc), (∀ p ∈ ps, ∀ v r i, p v = .ok (r, i) → r = v) → ∀ v s r is,
        runProcs ps v s = .ok (r, is) → is.hasIssues = false → r = v ∧ s.hasIssues = false := by
      intro ps
      induction ps with
      | nil => intro _ v s r is h hn; simp only [runProcs] at h; cases h; exact ⟨rfl, hn⟩
      | cons p ps ih =>
        intro hps v s r is h hn
        simp only [runProcs] at h
        split at h
        · cases h
        · rename_i v' i hp
          have := hps p (by simp) _ _ _ hp
          subst this
          obtain ⟨h1, h2⟩ := ih (fun q hq => hps q (List.mem_cons_of_mem _ hq)) _ _ _ _ h hn
          exact ⟨h1, (merge_self_clean h2).1⟩
    rw [complex_process_eq] at h
    split at h
    · cases h
    · rename_i value issues hi
      split at h
      · rename_i hc
        cases h
        have hw := info_process_wf (by rw [hs1]; exact fun p hp => absurd hp List.not_mem_nil) hi
        have := eq_empty_of_noIssues hw hn
        subst this
        rw [show Issues.canProceed {} = true from rfl] at hc
        exact .inl (isNone_eq (by simpa using hc))
      · split at h
        · cases h
        · rename_i parsed issues2 hb
          have hok : issues2.hasIssues = false → (Attr.complex info subs ps ds).HoldsVal anyDate parsed := by
            intro hq
            refine ⟨ht, ?_⟩
            unfold complexBody at hb
            split at hb
            · rename_i hm
              rw [if_pos hm]
              split at hb
              · split at hb
                · cases hb
                · rename_i hc
                  cases hb
                  exact ⟨_, rfl, (complexItems_held hps hs4 hf hc hq).2⟩
              · cases hb
            · rename_i hm
              rw [if_neg hm]
              obtain ⟨-, d, lc, rfl, hh⟩ := processSubs_held hps hs4 hf hb hq
              exact hh.item hps hf
          split at h
          · rename_i hq
            cases h; rw [hn] at hq; cases hq
          · rename_i hq
            obtain ⟨rfl, -⟩ := key _ hpr _ _ _ _ h hn
            exact .inr (hok (by simpa using hq))

/-! ### A resource -/

theorem Schema.Listable.even {s : Schema} (hs : s.Listable) (hf : s.Flat) {t : Attr} (ht : t ∈ s.attrs.top) : t.Even := by
  have hty := typedAll_all.mp hs.typed t ht
  have hst := standardAll_iff.mp hs.standard t ht
  cases t with
  | simple i => exact ⟨hty, (fun h => absurd h (by simp [Attr.isComplex])), ⟨by simp [Attr.subs], by simp [Attr.subs], by simp [Attr.subs]⟩, by simp [Attr.subs]⟩
  | complex i subs ps ds =>
    exact ⟨hty, fun _ => hst.1, hst.2.2.2.2.1, fun q hq => ⟨hf.subs _ ht q hq, typedAll_all.mp hty q hq⟩⟩

theorem underMulti_eq {s : Schema} (hs : s.WF) {a t : Attr} (hsub : a.rep.sub ≠ []) (ht : t ∈ s.attrs.top)
    (h1 : t.rep.schema = a.rep.schema) (h2 : t.rep.attr = a.rep.attr) : a.underMulti s.attrs.all = t.info.multi := by
  have huniq : ∀ x ∈ s.attrs.all, x.rep.sub = [] → x.rep.schema = a.rep.schema → x.rep.attr = a.rep.attr → x = t := by
    intro x hx hxs e1 e2
    have hx : x ∈ s.attrs.top := by rw [hs.topAll]; exact List.mem_filter.mpr ⟨hx, by simp [hxs]⟩
    exact eq_of_map_nodup hs.distinct hx ht (by simp only [e1, e2, h1, h2])
  unfold Attr.underMulti
  cases hm : t.info.multi with
  | true =>
    simp only [Bool.and_eq_true, Bool.not_eq_true', List.any_eq_true, beq_iff_eq]
    refine ⟨by simpa using hsub, t, hs.top_all t ht, ⟨⟨?_, h1⟩, h2⟩, hm⟩
    rw [hs.sub t ht]; rfl
  | false =>
    simp only [Bool.and_eq_false_iff]
    right
    rw [List.any_eq_false]
    intro x hx hc
    simp only [Bool.and_eq_true, beq_iff_eq, List.isEmpty_iff] at hc
    obtain ⟨⟨⟨c1, c2⟩, c3⟩, c4⟩ := hc
    rw [huniq x hx c1 c2 c3, hm] at c4
    cases c4

theorem AttrInfo.HoldsVal.cast {P : DateTime → Prop} {i j : AttrInfo} (h1 : i.type = j.type) (h2 : i.multi = j.multi) {x : Val}
    (h : i.HoldsVal P x) : j.HoldsVal P x := by
  unfold AttrInfo.HoldsVal AttrInfo.HoldsOne at h ⊢
  rw [← h1, ← h2]; exact h

theorem readable_plain (subs : List Attr) (w : Str) : ReadableName subs { attr := w } := ⟨.inl rfl, .inl rfl⟩

theorem getX_item {d : List (Str × Val)} {lc : List (Str × Str)} {w : Str} (hw : isAttrName w = true) :
    Val.getX true (.cont d lc) { attr := w } = (Val.cont d lc).getItem { attr := w } := by
  simp [Val.getItem, Val.getX, hw]

/-- The sub-attribute of an item. -/
theorem HoldsItem.sub {subs : List Attr} (hp : PlainSubs subs) {x : Val} (h : HoldsItem anyDate subs x) {w : Str} {y : Val}
    (hy : x.getItem { attr := w } = .ok y) {q : Attr} (hq : q ∈ subs) (hl : lower q.rep.attr = lower w) :
    y.Absent ∨ q.info.HoldsVal anyDate y := by
  cases hf : findAttr subs { attr := w } with
  | none =>
    have := List.find?_eq_none.mp hf q hq
    exact absurd ((eqv_iff q.rep { attr := w }).mpr ⟨.inl (hp.plain q hq).1, hl, by rw [(hp.plain q hq).2.1]⟩) this
  | some q' =>
    obtain ⟨h1, -, h2, -⟩ := findAttr_names hf
    have : q' = q := eq_of_map_nodup hp.distinct h1 hq (by rw [h2, hl])
    subst this
    exact h.2.2 _ _ _ (readable_plain subs w) hf hy

theorem getMap_items {subs : List Attr} {w : Str} : ∀ {xs : List Val}, (∀ x ∈ xs, HoldsItem anyDate subs x) →
    ∃ ys, getMap xs { attr := w } = .ok ys ∧ ∀ y ∈ ys, ∃ x ∈ xs, x.getItem { attr := w } = .ok y
  | [], _ => ⟨[], by rw [getMap], by simp⟩
  | x :: xs, h => by
    obtain ⟨y, hy⟩ := (h x (by simp)).2.1 _ (readable_plain subs w)
    obtain ⟨ys, h1, h2⟩ := getMap_items (w := w) (xs := xs) (fun z hz => h z (List.mem_cons_of_mem _ hz))
    have hy' := hy
    rw [Val.getItem] at hy
    refine ⟨y :: ys, by rw [getMap, hy]; simp only [h1], ?_⟩
    intro z hz
    rcases List.mem_cons.mp hz with rfl | hz
    · exact ⟨x, by simp, hy'⟩
    · obtain ⟨x', hx', e⟩ := h2 z hz
      exact ⟨x', List.mem_cons_of_mem _ hx', e⟩

/-- What is read through a top-level attribute. -/
theorem value_reads {s : Schema} (hs : s.Listable) (hf : s.Flat) {t : Attr} (ht : t ∈ s.attrs.top) {v : Val}
    (hv : v = .null ∨ t.HoldsVal anyDate v) {r : AttrRep} (hr : ReadableName s.attrs.all r) (hl : lower t.rep.attr = lower r.attr) :
    ∃ y, (if r.sub.isEmpty then .ok v else Val.getX true v { attr := r.sub } : PyM Val) = .ok y ∧
      ∀ a ∈ s.attrs.all, a.rep.schema = t.rep.schema → lower a.rep.attr = lower r.attr → lower a.rep.sub = lower r.sub →
        a.Reads anyDate s.attrs.all y := by
  have hev := hs.even hf ht
  by_cases hsub : r.sub = []
  · rw [if_pos (by rw [hsub]; rfl)]
    refine ⟨v, rfl, ?_⟩
    intro a ha e1 e2 e3
    have has : a.rep.sub = [] := by
      rw [hsub] at e3
      exact Classical.byContradiction fun hc => lower_ne_nil hc e3
    have hat : a ∈ s.attrs.top := by rw [hs.wf.topAll]; exact List.mem_filter.mpr ⟨ha, by simp [has]⟩
    have : a = t := eq_of_map_nodup hs.wf.distinct hat ht (by simp only [e1, e2, hl])
    subst this
    rcases hv with rfl | hv
    · exact .inl (.inl rfl)
    · refine .inr ?_
      rw [if_pos has]; exact hv
  · rw [if_neg (by simpa using hsub)]
    obtain ⟨hw, hsr⟩ := hr.sub.resolve_left hsub
    have hcm := hsr t (hs.wf.top_all t ht) (hs.wf.sub t ht) hl
    -- the sub-attribute asked for
    have hent : ∀ a ∈ s.attrs.all, a.rep.schema = t.rep.schema → lower a.rep.attr = lower r.attr → lower a.rep.sub = lower r.sub →
        ∃ i, a = .simple i ∧ a.rep.sub ≠ [] ∧ a.underMulti s.attrs.all = t.info.multi ∧
          ∃ q ∈ t.subs, lower q.rep.attr = lower r.sub ∧ q.info.type = i.type ∧ q.info.multi = i.multi := by
      intro a ha e1 e2 e3
      have has : a.rep.sub ≠ [] := by
        intro h0
        rw [h0] at e3
        exact lower_ne_nil hsub e3.symm
      obtain ⟨hc, t', ht', g1, g2, q, hq1, hq2, hq3, hq4⟩ := hf.entries a ha has
      have : t' = t := eq_of_map_nodup hs.wf.distinct ht' ht (by simp only [g1, g2, e1, e2, hl])
      subst this
      cases a with
      | complex => cases hc
      | simple i => exact ⟨i, rfl, has, underMulti_eq hs.wf has ht' g1 g2, q, hq1, by rw [hq2, e3], hq3, hq4⟩
    rcases hv with rfl | hv
    · exact ⟨.missing, by simp [Val.getX], fun a _ _ _ _ => .inl (.inr rfl)⟩
    cases t with
    | simple i =>
      have hty := hev.typed
      simp only [Attr.typed, Bool.and_eq_true, bne_iff_ne, ne_eq] at hty
      have hm : i.multi = false := hcm.resolve_left (by simp [Attr.isComplex])
      have hv : i.HoldsVal anyDate v := hv
      unfold AttrInfo.HoldsVal at hv
      rw [if_neg (by rw [hm]; simp)] at hv
      obtain ⟨p, rfl⟩ := wire_prim hty.1 hty.2 hv.1
      exact ⟨.missing, by simp [Val.getX], fun a _ _ _ _ => .inl (.inr rfl)⟩
    | complex i subs ps ds =>
      obtain ⟨-, hv⟩ := hv
      have hp : PlainSubs subs := hev.plain
      cases hm : i.multi with
      | false =>
        rw [if_neg (by rw [hm]; simp)] at hv
        obtain ⟨y, hy⟩ := hv.2.1 _ (readable_plain subs r.sub)
        have hc := hv.1
        cases v <;> simp [Val.isCont] at hc
        rw [getX_item hw]
        refine ⟨y, hy, ?_⟩
        intro a ha e1 e2 e3
        obtain ⟨j, rfl, has, hu, q, hq, hq1, hq2, hq3⟩ := hent a ha e1 e2 e3
        rcases hv.sub hp hy hq hq1 with h | h
        · exact .inl h
        · refine .inr ?_
          rw [if_neg has]
          refine ⟨j, rfl, ?_⟩
          rw [hu, show (Attr.complex i subs ps ds).info.multi = false from hm]
          exact h.cast hq2 hq3
      | true =>
        rw [if_pos hm] at hv
        obtain ⟨xs, rfl, hxs⟩ := hv
        obtain ⟨ys, hys, hmem⟩ := getMap_items (w := r.sub) hxs
        refine ⟨.list ys, by rw [Val.getX]; simp [hw, hys], ?_⟩
        intro a ha e1 e2 e3
        obtain ⟨j, rfl, has, hu, q, hq, hq1, hq2, hq3⟩ := hent a ha e1 e2 e3
        refine .inr ?_
        rw [if_neg has]
        refine ⟨j, rfl, ?_⟩
        rw [hu, show (Attr.complex i subs ps ds).info.multi = true from hm]
        refine ⟨ys, rfl, fun y hy => ?_⟩
        obtain ⟨x, hx, hxy⟩ := hmem y hy
        rcases (hxs x hx).sub hp hxy hq hq1 with h | h
        · exact .inl h
        · exact .inr (h.cast hq2 hq3)

/-- **Resources written without issues hold values of the declared types.** -/
theorem process_conforms {s : Schema} (hs : s.Listable) (hf : s.Flat) {data r : Val} {is : Issues}
    (hobj : (data.isCont || data.isDict) = true) (h : s.process .dump data = .ok (r, is)) (hn : is.hasIssues = false) :
    Conforms anyDate s.attrs.all r := by
  have hwf := hs.wf
  obtain ⟨d, lc, rfl, hb⟩ := process_body hwf hobj h
  have hnone : data.isNone = false := by
    cases data <;> simp [Val.isCont, Val.isDict] at hobj <;> rfl
  unfold Schema.process at h
  rw [hnone, hobj] at h
  simp only [Bool.false_eq_true, if_false, Bool.not_true] at h
  split at h
  · cases h
  · rename_i r0 is0 hpt
    obtain ⟨⟨d', lc', rfl, hinv⟩, h2, h3⟩ := processTop_spec s.attrs.top data.toCont [] [] [] {} r0 is0 PInv.nil hwf.sub
      hwf.compat (by simp) hpt
    rw [List.nil_append] at hinv
    have hr : Val.cont d lc = .cont d' lc' ∧ is0.hasIssues = false := by
      repeat' split at h
      all_goals first
        | (cases h; done)
        | (cases h; simp only [hasIssues_merge_false] at hn; exact ⟨rfl, by first | exact hn.2 | exact hn.1.2⟩)
    obtain ⟨hr, hn0⟩ := hr
    cases hr
    rw [h2] at hn0
    have hclean : ∀ o ∈ s.attrs.top.filterMap (topOut .dump data.toCont), o.2.2.hasIssues = false := by
      intro o ho
      cases hi : o.2.2.hasIssues with
      | false => rfl
      | true =>
        have := (mergeAll_hasIssues ((s.attrs.top.filterMap (topOut .dump data.toCont)).map
          (fun o => (o.1.topLoc, o.2.2))) {}).mpr (.inr ⟨(o.1.topLoc, o.2.2), List.mem_map.mpr ⟨o, ho, rfl⟩, hi⟩)
        rw [this] at hn0; cases hn0
    have hmem : ∀ p ∈ (s.attrs.top.filterMap (topOut .dump data.toCont)).map (fun o => (o.1, o.2.1)), p.1 ∈ s.attrs.top ∧
        (p.2 = .null ∨ p.1.HoldsVal anyDate p.2) := by
      intro p hp
      simp only [List.mem_map, List.mem_filterMap] at hp
      obtain ⟨o, ⟨a, ha, ho⟩, rfl⟩ := hp
      obtain ⟨q1, x, q2, q3, q4⟩ := topOut_spec ho
      simp only
      rw [q1]
      exact ⟨ha, process_held (standardAll_iff.mp hs.standard a ha) (hs.even hf ha) q4
        (hclean o (List.mem_filterMap.mpr ⟨a, ha, ho⟩))⟩
    have key : ∀ r, ReadableName s.attrs.all r → ∃ y, (Val.cont d lc).getItem r = .ok y ∧
        ∀ a, findAttr s.attrs.all r = some a → a.Reads anyDate s.attrs.all y := by
      intro r hr
      cases hk : aget (lower r.schema) lc with
      | none =>
        rw [getItem_noKey hk]
        cases hka : aget (lower r.attr) lc with
        | none => exact ⟨.missing, rfl, fun a _ => .inl (.inr rfl)⟩
        | some k =>
          obtain ⟨g1, g2⟩ := hinv.sound _ _ hka
          rw [← aget_isSome_iff, Option.isSome_iff_exists] at g2
          obtain ⟨v, hv⟩ := g2
          dsimp only
          rw [hv]
          dsimp only
          rcases hinv.keys k v hv with ⟨p, hp, p1, rfl, rfl⟩ | ⟨e, l, rfl, he, ⟨p, hp, p1, rfl⟩, hq⟩
          · obtain ⟨y, hy, hread⟩ := value_reads hs hf (hmem p hp).1 (hmem p hp).2 hr g1.symm
            refine ⟨y, hy, fun a ha => ?_⟩
            obtain ⟨a1, a2, a3, a4⟩ := findAttr_names ha
            refine hread a a1 ?_ a3 a4
            rcases hwf.ext_all a1 with ⟨-, hu⟩ | ⟨hx, hu⟩
            · rw [hu, hwf.core _ (hmem p hp).1 p1]
            · exfalso
              obtain ⟨t, ht, t1, t2⟩ : ∃ t ∈ s.attrs.top, t.rep.ext = true ∧ t.rep.attr = a.rep.attr := by
                by_cases has : a.rep.sub = []
                · exact ⟨a, by rw [hwf.topAll]; exact List.mem_filter.mpr ⟨a1, by simp [has]⟩, hx, rfl⟩
                · obtain ⟨t, ht, -, -, h3, h4, -⟩ := hs.owned.parent hwf a1 has
                  exact ⟨t, ht, by rw [h4, hx], h3⟩
              exact hs.noShadow p.1 (hmem p hp).1 t ht p1 t1 (by rw [t2, a3, g1])
          · have hno : ∀ a, findAttr s.attrs.all r ≠ some a := by
              intro a ha
              obtain ⟨a1, a2, a3, a4⟩ := findAttr_names ha
              exact hwf.noClash a a1 p.1.rep.schema (List.mem_cons_of_mem _ (hwf.ext p.1 (hmem p hp).1 p1)) (by rw [a3, g1])
            by_cases hsub : r.sub = []
            · exact ⟨_, by rw [hsub]; rfl, fun a ha => absurd ha (hno a)⟩
            · rw [if_neg (by simpa using hsub)]
              obtain ⟨hw, -⟩ := hr.sub.resolve_left hsub
              have h0 : aget (lower []) l = none := by
                apply he.lc_none
                intro k hk
                rw [← aget_isSome_iff, Option.isSome_iff_exists] at hk
                obtain ⟨v', hv'⟩ := hk
                obtain ⟨p', hp', -, -, rfl, -⟩ := hq k v' hv'
                exact lower_ne_nil (hwf.named _ (hwf.top_all _ (hmem p' hp').1))
              rw [getX_true_cont hw h0]
              cases hk' : aget (lower r.sub) l with
              | none => exact ⟨_, rfl, fun a ha => absurd ha (hno a)⟩
              | some k' =>
                obtain ⟨-, g4⟩ := he.sound _ _ hk'
                rw [← aget_isSome_iff, Option.isSome_iff_exists] at g4
                obtain ⟨v', hv'⟩ := g4
                exact ⟨v', by simp [hv'], fun a ha => absurd ha (hno a)⟩
      | some k =>
        obtain ⟨g1, g2⟩ := hinv.sound _ _ hk
        rw [← aget_isSome_iff, Option.isSome_iff_exists] at g2
        obtain ⟨v, hv⟩ := g2
        rcases hinv.keys k v hv with ⟨p, hp, p1, rfl, rfl⟩ | ⟨e, l, rfl, he, ⟨p, hp, p1, rfl⟩, hq⟩
        · exfalso
          rcases hr.schema with h0 | h0
          · rw [h0] at g1
            exact lower_ne_nil (hwf.named _ (hwf.top_all _ (hmem p hp).1)) g1.symm
          · exact h0 p.1 (hwf.top_all _ (hmem p hp).1) g1.symm
        · have hsch : ∀ a, findAttr s.attrs.all r = some a → a.rep.schema = p.1.rep.schema := by
            intro a ha
            obtain ⟨a1, a2, -⟩ := findAttr_names ha
            have m1 := hwf.allSchema a a1
            have m2 : p.1.rep.schema ∈ s.schemas := List.mem_cons_of_mem _ (hwf.ext p.1 (hmem p hp).1 p1)
            refine eq_of_map_nodup hwf.urns m1 m2 ?_
            rcases a2 with a2 | a2 | a2
            · exact absurd a2 (hwf.urnNe _ m1)
            · rw [a2] at g1
              exact absurd g1.symm (lower_ne_nil (hwf.urnNe _ m2))
            · rw [a2, g1]
          have hget : (Val.cont d lc).getItem r = (Val.cont e l).getItem { attr := r.attr, sub := r.sub } := by
            rw [Val.getItem, Val.getX, Val.getItem]
            simp only [Bool.false_and, Bool.false_eq_true, if_false, hk, getAt_eq, hv]
          rw [hget]
          have h0 : aget (lower []) l = none := by
            apply he.lc_none
            intro k hk
            rw [← aget_isSome_iff, Option.isSome_iff_exists] at hk
            obtain ⟨v', hv'⟩ := hk
            obtain ⟨p', hp', -, -, rfl, -⟩ := hq k v' hv'
            exact lower_ne_nil (hwf.named _ (hwf.top_all _ (hmem p' hp').1))
          rw [getItem_noKey (r := { attr := r.attr, sub := r.sub }) h0]
          dsimp only
          cases hka : aget (lower r.attr) l with
          | none => exact ⟨.missing, rfl, fun a _ => .inl (.inr rfl)⟩
          | some k' =>
            obtain ⟨g3, g4⟩ := he.sound _ _ hka
            rw [← aget_isSome_iff, Option.isSome_iff_exists] at g4
            obtain ⟨v', hv'⟩ := g4
            dsimp only
            rw [hv']
            obtain ⟨p', hp', p2, p3, rfl, rfl⟩ := hq k' v' hv'
            obtain ⟨y, hy, hread⟩ := value_reads hs hf (hmem p' hp').1 (hmem p' hp').2 hr g3.symm
            refine ⟨y, hy, fun a ha => ?_⟩
            obtain ⟨a1, a2, a3, a4⟩ := findAttr_names ha
            exact hread a a1 (by rw [hsch a ha, p3]) a3 a4
    refine ⟨rfl, fun r hr => ?_, fun r a y hr ha hy => ?_⟩
    · obtain ⟨y, hy, -⟩ := key r hr; exact ⟨y, hy⟩
    · obtain ⟨y', hy', hread⟩ := key r hr
      rw [hy] at hy'; cases hy'
      exact hread a ha

/-! ### The dates -/

theorem AttrInfo.DatesIn.list {P : DateTime → Prop} {i : AttrInfo} {xs : List Val} (h : i.DatesIn P (.list xs)) : ∀ x ∈ xs, i.DatesIn P x :=
  fun _ hx ht s hs d hd => h ht s (.item hx hs) d hd

theorem AttrInfo.HoldsOne.dated {P : DateTime → Prop} {i : AttrInfo} {x : Val} (h : i.HoldsOne anyDate x) (hd : i.DatesIn P x) :
    i.HoldsOne P x := by
  refine ⟨h.1, fun ht s e d he => hd ht s ?_ d he⟩
  rw [e]; exact .here s

theorem AttrInfo.HoldsVal.dated {P : DateTime → Prop} {i : AttrInfo} {x : Val} (h : i.HoldsVal anyDate x) (hd : i.DatesIn P x) :
    i.HoldsVal P x := by
  unfold AttrInfo.HoldsVal at h ⊢
  split
  · rename_i hm
    rw [if_pos hm] at h
    obtain ⟨xs, rfl, hx⟩ := h
    exact ⟨xs, rfl, fun y hy => (hx y hy).dated (hd.list y hy)⟩
  · rename_i hm
    rw [if_neg hm] at h
    exact h.dated hd

theorem HoldsItem.dated {P : DateTime → Prop} {subs : List Attr} {x : Val} (h : HoldsItem anyDate subs x)
    (hd : ∀ r s y, findAttr subs r = some s → x.getItem r = .ok y → s.info.DatesIn P y) : HoldsItem P subs x :=
  ⟨h.1, h.2.1, fun r s y hr hf hy => (h.2.2 r s y hr hf hy).imp id (fun h => h.dated (hd r s y hf hy))⟩

/-- Values of the declared types, with dates as described. -/
theorem Conforms.dated {P : DateTime → Prop} {attrs : List Attr} {x : Val} (h : Conforms anyDate attrs x) (hd : Dated P attrs x) :
    Conforms P attrs x := by
  refine ⟨h.cont, h.read, fun r a y hr ha hy => ?_⟩
  have hdy := hd r a y ha hy
  rcases h.typed r a y hr ha hy with h | h
  · exact .inl h
  · refine .inr ?_
    split
    · rename_i hs
      rw [if_pos hs] at h
      cases a with
      | simple i => exact AttrInfo.HoldsVal.dated h hdy
      | complex i subs ps ds =>
        refine ⟨h.1, ?_⟩
        have h2 := h.2
        split
        · rename_i hm
          rw [if_pos hm] at h2
          obtain ⟨xs, rfl, hx⟩ := h2
          exact ⟨xs, rfl, fun z hz => (hx z hz).dated (hdy z hz)⟩
        · rename_i hm
          rw [if_neg hm] at h2
          refine h2.dated (hdy y ?_)
          have := h2.1
          cases y <;> simp [Val.isCont] at this
          simp [Val.asList]
    · rename_i hs
      rw [if_neg hs] at h
      obtain ⟨i, rfl, h⟩ := h
      refine ⟨i, rfl, ?_⟩
      split
      · rename_i hu
        rw [if_pos hu] at h
        obtain ⟨xs, rfl, hx⟩ := h
        exact ⟨xs, rfl, fun z hz => (hx z hz).imp id (fun h => h.dated (AttrInfo.DatesIn.list hdy z hz))⟩
      · rename_i hu
        rw [if_neg hu] at h
        exact h.dated hdy

theorem dated_any (attrs : List Attr) (x : Val) : Dated anyDate attrs x := by
  intro r a y _ _
  cases a with
  | simple i => exact fun _ _ _ _ _ => trivial
  | complex i subs ps ds => exact fun _ _ _ _ _ _ _ _ _ _ _ _ => trivial

/-! ### The schemas of the library -/

theorem flatSchema_bind {ds : List Attr} {urn : Str} {ext : Bool} (hc : ds.all (fun d => d.subs.all (fun q => !q.isComplex)) = true) :
    ∀ a ∈ ds.flatMap (bindWithSubs urn ext),
      (a.rep.sub = [] → ∀ q ∈ a.subs, q.isComplex = false) ∧
      (a.rep.sub ≠ [] → a.isComplex = false ∧ ∃ t ∈ ds.flatMap (bindWithSubs urn ext), t.rep.sub = [] ∧ t.rep.schema = a.rep.schema ∧
        t.rep.attr = a.rep.attr ∧ ∃ q ∈ t.subs, q.rep.attr = a.rep.sub ∧ q.info.type = a.info.type ∧ q.info.multi = a.info.multi) := by
  intro a ha
  obtain ⟨d, hd, hm⟩ := List.mem_flatMap.mp ha
  have hcd := List.all_eq_true.mp hc d hd
  rw [List.all_eq_true] at hcd
  have hsubs : ∀ r, (bindAttr d r).subs = d.subs := by intro r; cases d <;> rfl
  rcases mem_bindWithSubs.mp hm with rfl | ⟨t, ht, rfl⟩
  · rw [bindAttr_rep]
    refine ⟨fun _ q hq => ?_, fun h => absurd rfl h⟩
    rw [hsubs] at hq
    simpa using hcd q hq
  · have hct : t.isComplex = false := by simpa using hcd t ht
    cases t with
    | complex => cases hct
    | simple i =>
      refine ⟨fun _ q hq => absurd hq List.not_mem_nil, fun _ => ⟨rfl, bindAttr d { schema := urn, attr := d.rep.attr, ext := ext }, ?_, ?_⟩⟩
      · exact List.mem_flatMap.mpr ⟨d, hd, mem_bindWithSubs.mpr (.inl rfl)⟩
      · rw [bindAttr_rep, bindAttr_rep]
        refine ⟨rfl, rfl, rfl, .simple i, ?_, rfl, rfl, rfl⟩
        rw [hsubs]; exact ht

theorem flatSchema_of {s : Schema} (hs : s.WF) (h : ∀ a ∈ s.attrs.all, (a.rep.sub = [] → ∀ q ∈ a.subs, q.isComplex = false) ∧
      (a.rep.sub ≠ [] → a.isComplex = false ∧ ∃ t ∈ s.attrs.all, t.rep.sub = [] ∧ t.rep.schema = a.rep.schema ∧
        t.rep.attr = a.rep.attr ∧ ∃ q ∈ t.subs, q.rep.attr = a.rep.sub ∧ q.info.type = a.info.type ∧ q.info.multi = a.info.multi)) :
    s.Flat := by
  refine ⟨fun t ht => (h t (hs.top_all t ht)).1 (hs.sub t ht), fun a ha hsub => ?_⟩
  obtain ⟨h1, t, ht, h2, h3⟩ := (h a ha).2 hsub
  exact ⟨h1, t, by rw [hs.topAll]; exact List.mem_filter.mpr ⟨ht, by simp [h2]⟩, h3⟩

theorem user_flatSchema : userSchema.Flat := by
  apply flatSchema_of user_wf
  rw [user_all, user_core_all]
  have h1 := flatSchema_bind (ds := schemasAttr :: idAttr :: externalIdAttr :: metaAttr :: UserA.attrs) (urn := UserA.urn) (ext := false) (by rfl)
  have h2 := flatSchema_bind (ds := UserA.enterprise.attrs.all) (urn := UserA.enterpriseUrn) (ext := true) (by rfl)
  intro a ha
  rcases List.mem_append.mp ha with ha | ha
  · refine ⟨(h1 a ha).1, fun hsub => ?_⟩
    obtain ⟨g1, t, ht, g2⟩ := (h1 a ha).2 hsub
    exact ⟨g1, t, List.mem_append_left _ ht, g2⟩
  · refine ⟨(h2 a ha).1, fun hsub => ?_⟩
    obtain ⟨g1, t, ht, g2⟩ := (h2 a ha).2 hsub
    exact ⟨g1, t, List.mem_append_right _ ht, g2⟩

theorem group_flatSchema : GroupA.schema.Flat := by
  apply flatSchema_of group_wf
  have hall : GroupA.schema.attrs.all = (schemasAttr :: idAttr :: externalIdAttr :: metaAttr ::
      [GroupA.displayNameA, GroupA.membersA]).flatMap (bindWithSubs GroupA.urn false) := by
    obtain ⟨_, h2⟩ := bind_facts (urn := GroupA.urn) (ext := false) group_decl
    exact ofList_all (keys_of_lnames h2)
  rw [hall]
  exact flatSchema_bind (by rfl)

end Scim
