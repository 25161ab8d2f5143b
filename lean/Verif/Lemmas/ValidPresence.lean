import Verif.Lemmas.ValidBody
import Verif.Props.Bodies

/-! Required attributes are reported missing exactly when the document does not give them. -/

namespace Scim.Valid
variable [PyEnv]
open Declared Issues

/-- nothing, or something empty -/
def Bare (o : Option Val) : Prop := ∀ x, o = some x → x.Empty

theorem not_bare {o : Option Val} : ¬ Bare o ↔ ∃ x, o = some x ∧ ¬ x.Empty := by
  unfold Bare
  simp only [Classical.not_forall, Classical.not_imp]
  constructor
  · rintro ⟨x, h1, h2⟩; exact ⟨x, h1, h2⟩
  · rintro ⟨x, h1, h2⟩; exact ⟨x, h1, h2⟩

/-! ### Processing does not make values empty -/

theorem conv_empty {m : Mode} {t : AttrType} (hc : t ≠ .complex) {v r : Val} {i : Issues} (hu : v.isInvalid = false)
    (h : t.conv m v = .ok (r, i)) (hn : i.hasIssues = false) : (r.Empty ↔ v.Empty) ∧ r.isInvalid = false := by
  have bad : badType.2.hasIssues = true := rfl
  have bad3 : (blocking 3).hasIssues = true := rfl
  have bad8 : (Issues.empty.merge (blocking 8)).hasIssues = true := rfl
  by_cases hd : t = .dateTime
  · subst hd
    cases m
    · unfold AttrType.conv AttrType.parse at h
      dsimp only at h
      split at h
      · rename_i s
        split at h
        · rename_i d hf
          cases h
          refine ⟨?_, rfl⟩
          have : s ≠ [] := fun e => by rw [e, PyEnv.fromIso_nil] at hf; cases hf
          simp [Val.Empty, Val.null, Val.str, this]
        · cases h; cases hn
      · cases h; cases hn
    · unfold AttrType.conv AttrType.dump at h
      dsimp only at h
      split at h
      · cases h
        refine ⟨?_, rfl⟩
        simp [Val.Empty, Val.null, Val.str, PyEnv.isoFormat_ne_nil]
      · cases h; cases hn
  have key : t.parse v = .ok (r, i) := by cases m <;> cases t <;> first | exact absurd rfl hd | exact h
  cases t with
  | unknown => cases key; exact ⟨Iff.rfl, hu⟩
  | complex => exact absurd rfl hc
  | dateTime => exact absurd rfl hd
  | boolean | decimal | integer | string | uriRef | scimRef | binary | extRef =>
    simp only [AttrType.parse, booleanConv, decimalConv, integerConv, stringConv, binaryConv, extRefConv] at key
    repeat' split at key
    all_goals first
      | (cases key; done)
      | (cases key; simp [Val.Empty, Val.isInvalid, badType, blocking, Issues.hasIssues_add, bad3, bad8] at *; done)
      | (cases key; rw [bad8] at hn; cases hn)
      | (rename_i p _ hp _ _ _
         cases key
         cases p <;> first | (simp [Val.isPyInt] at hp; done) | simp [Val.Empty, Val.isInvalid])

theorem convVal_empty {v : Val} (h : v.Tame) : (convVal v).Empty ↔ v.Empty := by
  cases v with
  | list xs =>
    simp only [convVal, Val.Empty, convItems_eq]
    simp
  | missing => simp [Val.Tame] at h
  | _ => simp [convVal, Val.Empty]

theorem simple_empty {m : Mode} {i : AttrInfo} (hu : Usual m (.simple i)) {v r : Val} (ht : v.Tame)
    {is : Issues} (h : (Attr.simple i).process m (convVal v) = .ok (r, is)) (hn : is.hasIssues = false) :
    (r.Empty ↔ v.Empty) ∧ r.isInvalid = false := by
  rw [← convVal_empty ht]
  unfold Usual at hu
  obtain ⟨-, hc, hp, hcan⟩ := hu
  unfold Attr.process at h
  rw [info_process_eq] at h
  have hw : (convVal v).isInvalid = false := by
    cases v <;> first | rfl | simp [Val.Tame] at ht
  generalize convVal v = w at h hw
  split at h
  · rename_i hw
    cases h
    cases r with
    | prim p => cases p <;> simp [Val.isNone] at hw; simp [Val.isInvalid]
    | _ => simp [Val.isNone] at hw
  · unfold AttrInfo.base at h
    by_cases hm : i.multi = true
    · have hp' : i.procs m = [] := by
        rcases hp with hp | ⟨_, hp, _⟩
        · exact hp
        · rw [hm] at hp; cases hp
      simp only [hm, if_true, hp', runProcs, ite_self] at h
      cases w with
      | list xs =>
        dsimp only at h
        split at h
        · cases h
        · rename_i e; split at e <;> cases e
        · rename_i q j e
          split at e
          · cases e
          · rename_i items j' hi
            cases e
            cases h
            have := processItems_length hi
            refine ⟨?_, rfl⟩
            simp [Val.Empty, ← List.length_eq_zero_iff, this]
      | _ => cases h; cases hn
    · have hm' : i.multi = false := by simpa using hm
      simp only [hm', Bool.false_eq_true, if_false] at h
      split at h
      · cases h
      · rename_i e; split at e <;> cases e
      · rename_i q j e
        split at e
        · cases e
        · rename_i q' j' hi
          cases e
          have hq : j.hasIssues = false → (q.Empty ↔ w.Empty) ∧ q.isInvalid = false := by
            intro hj
            unfold AttrInfo.processOne at hi
            split at hi
            · cases hi
            · rename_i item is' hcv
              dsimp only at hi
              split at hi
              · cases hi; rw [hasIssues_add] at hj; cases hj
              · cases hi
                rw [hasIssues_merge_false] at hj
                exact conv_empty hc hw hcv hj.2
          by_cases hj : j.hasIssues = true
          · rw [if_pos hj] at h
            cases h
            rw [hj] at hn; cases hn
          · rw [if_neg hj] at h
            replace hq := hq (by simpa using hj)
            rcases hp with hp | ⟨hstr, -, hp⟩
            · rw [hp] at h
              cases h
              exact hq
            · rw [hp] at h
              simp only [runProcs] at h
              split at h
              · cases h
              · rename_i q2 i2 hb
                cases h
                rw [hasIssues_merge_false] at hn
                unfold bulkIdValidator at hb
                split at hb
                · split at hb
                  · cases hb; cases hn.2
                  · cases hb; exact hq
                · cases hb

/-! ### Objects -/

/-- The parts of a usual complex attribute that are needed below. -/
theorem Usual.complex {m : Mode} {i : AttrInfo} {subs : List Attr} {ps ds : List Proc} (hu : Usual m (.complex i subs ps ds)) :
    ComplexDecl m i ∧ PlainSubs subs ∧ UsualAll m subs ∧ ∀ p ∈ (Attr.complex i subs ps ds).cprocs m, ValidatesOnly p := by
  unfold Usual at hu
  obtain ⟨-, hty, hvc, hpr, hcp, hps, -, hall⟩ := hu
  refine ⟨⟨hty, hvc, hpr⟩, hps, hall, ?_⟩
  rw [hcp]
  intro p hp
  split at hp
  · rw [List.mem_singleton.mp hp]; exact validateSinglePrimary_validates
  · cases hp

/-- A valid object keeps its parts. -/
theorem complex_single {m : Mode} {i : AttrInfo} {subs : List Attr} {ps ds : List Proc} (hu : Usual m (.complex i subs ps ds))
    (hs : SaneAll subs) (hm : i.multi = false) {E : List (Str × Val)} {r : Val} {is : Issues}
    (h : (Attr.complex i subs ps ds).process m (convVal (.dict E)) = .ok (r, is)) :
    SubResult m subs (Val.toCont (.dict E)) r := by
  obtain ⟨hd, hp, -, hc⟩ := hu.complex
  exact ((C27_single m i subs ps ds hd hm hp hs hc (Val.toCont (.dict E)) rfl r is h).2 rfl).1

/-- A valid list of objects keeps them. -/
theorem complex_multi {m : Mode} {i : AttrInfo} {subs : List Attr} {ps ds : List Proc} (hu : Usual m (.complex i subs ps ds))
    (hs : SaneAll subs) (hm : i.multi = true) {xs : List Val} {r : Val} {is : Issues}
    (h : (Attr.complex i subs ps ds).process m (convVal (.list xs)) = .ok (r, is)) :
    ∃ ys, r = .list ys ∧ ys.length = xs.length ∧ ∀ (k : Nat) E, xs[k]? = some (Val.dict E) →
      ∃ y, ys[k]? = some y ∧ SubResult m subs (Val.toCont (.dict E)) y := by
  obtain ⟨hd, hp, -, hc⟩ := hu.complex
  obtain ⟨ys, h1, h2, -, h3, -⟩ := C27_multi m i subs ps ds hd hm hp hs hc (convItems xs) r is h
  refine ⟨ys, h1, by rw [h2, convItems_eq, List.length_map], fun k E hk => ?_⟩
  obtain ⟨y, hy, hr, -⟩ := h3 k (itemConv (.dict E)) (by rw [convItems_eq, List.getElem?_map, hk]; rfl) rfl
  exact ⟨y, hy, hr⟩

/-- Processing an acceptable value neither makes it empty nor fills it. -/
theorem process_empty {m : Mode} {a : Attr} (hu : Usual m a) (hs : a.Sane) {v r : Val}
    (ht : v.Tame) {is : Issues} (h : a.process m (convVal v) = .ok (r, is)) (hn : is.hasIssues = false) :
    (r.Empty ↔ v.Empty) ∧ r.isInvalid = false := by
  cases a with
  | simple i => exact simple_empty hu ht h hn
  | complex i subs ps ds =>
    have hv := (process_ok _ hu v r is ht h).mp hn
    unfold Attr.Sane at hs
    unfold ValidFor at hv
    rcases hv with rfl | hv
    · rw [show convVal Val.null = .null from rfl, C25_null] at h
      cases h
      exact ⟨Iff.rfl, rfl⟩
    · by_cases hm : i.multi = true
      · rw [if_pos hm] at hv
        obtain ⟨xs, rfl, -⟩ := hv
        obtain ⟨ys, rfl, hlen, -⟩ := complex_multi hu hs.2 hm h
        refine ⟨?_, rfl⟩
        simp [Val.Empty, ← List.length_eq_zero_iff, hlen]
      · rw [if_neg hm] at hv
        obtain ⟨D, rfl, -⟩ := hv
        have hr := (complex_single hu hs.2 (by simpa using hm) h).cont
        cases r <;> simp [Val.isCont] at hr
        simp [Val.Empty, Val.isInvalid]

/-- What an object has for a sub-attribute is there after processing. -/
theorem sub_given {m : Mode} {subs : List Attr} (hp : PlainSubs subs) (hu : UsualAll m subs) (hs : SaneAll subs)
    {E : List (Str × Val)} (ht : (Val.dict E).Tame) (hv : ValidIn m subs E) {out : Val}
    (hr : SubResult m subs (Val.toCont (.dict E)) out) {b : Attr} (hb : b ∈ subs) :
    ∃ z, out.getItem { attr := b.rep.attr } = .ok z ∧ z.isInvalid = false ∧
      (z.Empty ↔ Bare (found b.rep.attr E)) := by
  have hpl := hp.plain b hb
  have hrep : b.rep = { attr := b.rep.attr } := by
    obtain ⟨h1, h2, h3⟩ := hpl
    cases hb' : b.rep
    rw [hb'] at h1 h2 h3
    simp only at h1 h2 h3
    subst h1; subst h2; subst h3; rfl
  have hread := getItem_look (clear_of_tame ht hpl.1) hpl.2.1
  rw [look_plain ht hpl.1] at hread
  have hval := validIn_iff.mp hv b hb
  rw [look_plain ht hpl.1] at hval
  rw [← hrep]
  cases hf : found b.rep.attr E with
  | none =>
    rw [hf] at hread
    exact ⟨.missing, hr.absent b hb hread, rfl, by simp [Val.Empty, Bare]⟩
  | some w =>
    rw [hf] at hread
    dsimp only at hread
    have htw := found_tame ht hf
    have hnm := conv_not_missing htw
    obtain ⟨y, i, hy, hg⟩ := hr.present b hb _ hread (by
      generalize convVal w = z at hnm
      cases z <;> first | rfl | exact absurd rfl hnm)
    have hub := usualAll_iff.mp hu b hb
    have hn := (process_ok b hub w y i htw hy).mpr (hval w hf)
    obtain ⟨he, hi⟩ := process_empty hub (saneAll_iff.mp hs b hb) htw hy hn
    refine ⟨y, hg, hi, ?_⟩
    rw [he]
    simp [Bare]

/-! ### Reading sub-attributes -/

mutual
/-- Reading a sub-attribute is reading the attribute first. -/
theorem getX_split (v : Val) (r : AttrRep) (hr : r.sub ≠ []) :
    Val.getX false v r = match Val.getX false v { r with sub := [] } with
      | .error e => .error e
      | .ok w => Val.getX true w { attr := r.sub } := by
  match v with
  | .cont data lc =>
    rw [Val.getX, Val.getX]
    simp only [Bool.false_and, Bool.false_eq_true, if_false]
    split
    · rename_i k hk
      exact getAt_split data k { attr := r.attr, sub := r.sub } hr
    · rename_i hk
      split
      · simp only [Val.getX]
      · rename_i k hk'
        simp only [show r.sub.isEmpty = false by simpa using hr, Bool.false_eq_true, if_false, List.isEmpty_nil, if_true]
        rw [getAt_eq]
        cases aget k data <;> rfl
  | .prim _ => simp [Val.getX]
  | .list _ => simp [Val.getX]
  | .dict _ => simp [Val.getX]
  | .dt _ => simp [Val.getX]
  | .missing => simp [Val.getX]
  | .invalid => simp [Val.getX]
  | .obj _ => simp [Val.getX]
theorem getAt_split (data : List (Str × Val)) (k : Str) (r : AttrRep) (hr : r.sub ≠ []) :
    getAt false k data r = match getAt false k data { r with sub := [] } with
      | .error e => .error e
      | .ok w => Val.getX true w { attr := r.sub } := by
  match data with
  | [] => simp [getAt]
  | (k', v) :: rest =>
    rw [getAt, getAt]
    split
    · exact getX_split v r hr
    · exact getAt_split rest k r hr
end

/-! ### The presence checks -/

/-- What the document does not hold is not there after processing. -/
theorem process_absent {m : Mode} {s : Schema} (hs : s.WF) (hns : s.NoShadow) {D : List (Str × Val)} {r : Val} {is : Issues}
    (h : s.process m (.dict D) = .ok (r, is)) {a : Attr} (ha : a ∈ s.attrs.top)
    (hx : (Val.toCont (.dict D)).getItem a.rep = .ok .missing) : r.getItem a.rep = .ok .missing := by
  have htr := (process_spec hs (by rfl) h).1
  unfold Schema.process at h
  simp only [Val.isNone, Val.isDict, Val.isCont, Bool.or_true, Bool.not_true, Bool.false_eq_true, if_false] at h
  split at h
  · cases h
  · rename_i r0 is0 hpt
    obtain ⟨⟨d', lc', rfl, hinv⟩, h2, h3⟩ := processTop_spec s.attrs.top (Val.toCont (.dict D)) [] [] [] {} r0 is0 PInv.nil hs.sub
      hs.compat (by simp) hpt
    rw [List.nil_append] at hinv
    have hr : r = .cont d' lc' := by
      repeat' split at h
      all_goals first
        | (cases h; done)
        | (cases h; rfl)
    subst hr
    exact top_absent hs hns hinv htr ha hx

/-- What a valid document holds for an attribute is there after processing. -/
theorem top_given {m : Mode} {s : Schema} (hs : s.WF) (hns : s.NoShadow) (hsane : SaneAll s.attrs.top)
    (hu : UsualAll m s.attrs.top) {D : List (Str × Val)} (hD : Ordinary s D) (hv : ValidIn m s.attrs.top D) {r : Val}
    {is : Issues} (h : s.process m (.dict D) = .ok (r, is)) {t : Attr} (ht : t ∈ s.attrs.top) :
    (look t.rep D = none ∧ r.getItem t.rep = .ok .missing) ∨
    ∃ w y i, look t.rep D = some w ∧ w.Tame ∧ ValidFor m t w ∧ t.process m (convVal w) = .ok (y, i) ∧ i.hasIssues = false ∧
      r.getItem t.rep = .ok y := by
  have htr := (process_spec hs (by rfl) h).1
  have hread := getItem_look (clear_of_ordinary hD (hs.allSchema t (hs.top_all t ht))) (hs.sub t ht)
  cases hl : look t.rep D with
  | none =>
    rw [hl] at hread
    exact .inl ⟨rfl, process_absent hs hns h ht hread⟩
  | some w =>
    rw [hl] at hread
    dsimp only at hread
    have htw := look_tame hD.tame hl
    have hnm := conv_not_missing htw
    obtain ⟨y, i, hy, hg⟩ := htr.present t ht _ hread (by
      generalize convVal w = z at hnm
      cases z <;> first | rfl | exact absurd rfl hnm)
    have hvf := validIn_iff.mp hv t ht w hl
    exact .inr ⟨w, y, i, rfl, htw, hvf, hy, (process_ok t (usualAll_iff.mp hu t ht) w y i htw hy).mpr hvf, hg⟩

theorem getItem_top {s : Schema} (hs : s.WF) {t a : Attr} (ht : t ∈ s.attrs.top) (h1 : t.rep.schema = a.rep.schema)
    (h2 : t.rep.attr = a.rep.attr) (b : Val) : b.getItem { schema := a.rep.schema, attr := a.rep.attr } = b.getItem t.rep := by
  rw [← h1, ← h2]
  cases b <;> simp only [Val.getItem, Val.getX, hs.sub t ht]

/-- The presence checks look at what the document holds. -/
theorem observed_iff {m : Mode} {s : Schema} (hs : s.WF) (hns : s.NoShadow) (ho : s.Owned) (hsane : SaneAll s.attrs.top)
    (hu : UsualAll m s.attrs.top) (hreg : Regular s) {D : List (Str × Val)} (hD : Ordinary s D)
    (hv : ValidIn m s.attrs.top D) {r : Val} {is : Issues} (h : s.process m (.dict D) = .ok (r, is)) {a : Attr}
    (ha : a ∈ s.attrs.all) :
    (∀ l v, Observed s.attrs r a l v → ∃ o, Holds s D a o ∧ (v.Empty ↔ Bare o)) ∧
    (∀ o, Holds s D a o → ∃ l v, Observed s.attrs r a l v ∧ (v.Empty ↔ Bare o)) := by
  by_cases hsub : a.rep.sub = []
  · have hat : a ∈ s.attrs.top := by
      rw [hs.topAll]; exact List.mem_filter.mpr ⟨ha, by simp [hsub]⟩
    obtain ⟨z, hz, hzi, hze⟩ : ∃ z, r.getItem a.rep = .ok z ∧ z.isInvalid = false ∧ (z.Empty ↔ Bare (look a.rep D)) := by
      rcases top_given hs hns hsane hu hD hv h hat with ⟨hl, hg⟩ | ⟨w, y, i, hl, htw, hvf, hy, hn, hg⟩
      · exact ⟨_, hg, rfl, by rw [hl]; simp [Val.Empty, Bare]⟩
      · obtain ⟨he, hi⟩ := process_empty (usualAll_iff.mp hu a hat) (saneAll_iff.mp hsane a hat) htw hy hn
        exact ⟨_, hg, hi, by rw [hl, he]; simp [Bare]⟩
    constructor
    · rintro l v (⟨_, hg, _⟩ | ⟨hn, _⟩ | ⟨hn, _⟩ | ⟨hn, _⟩)
      · rw [hz] at hg; cases hg; exact ⟨_, .top hsub, hze⟩
      · exact absurd hsub hn
      · exact absurd hsub hn
      · exact absurd hsub hn
    · rintro o (_ | ⟨hn, _⟩ | ⟨hn, _⟩ | ⟨hn, _⟩)
      · exact ⟨_, _, .top hsub hz hzi, hze⟩
      · exact absurd hsub hn
      · exact absurd hsub hn
      · exact absurd hsub hn
  · obtain ⟨t, ht, hcx, h1, h2, -, hget⟩ := ho.parent hs ha hsub
    have hpar : Parent s a t := ⟨ht, h1, h2⟩
    obtain ⟨b, hb, hbn⟩ := hreg a ha hsub t hpar
    have huniq : ∀ t', Parent s a t' → t' = t := by
      rintro t' ⟨ht', e1, e2⟩
      exact eq_of_map_nodup hs.names (hs.top_all t' ht') (hs.top_all t ht)
        (by simp only [e1, e2, h1, h2, hs.sub t ht, hs.sub t' ht'])
    obtain ⟨i, subs, ps, ds, rfl⟩ : ∃ i subs ps ds, t = .complex i subs ps ds := by
      cases t with
      | simple i => cases hcx
      | complex i subs ps ds => exact ⟨_, _, _, _, rfl⟩
    have hut := usualAll_iff.mp hu _ ht
    obtain ⟨-, hps, hall, -⟩ := hut.complex
    have hst : SaneAll subs := by
      have := saneAll_iff.mp hsane _ ht
      unfold Attr.Sane at this
      exact this.2
    simp only [Attr.subs] at hb
    have htop := top_given hs hns hsane hu hD hv h ht
    cases hm : i.multi with
    | false =>
      have hm' : (Attr.complex i subs ps ds).info.multi = false := hm
      have hread : r.getItem a.rep = match r.getItem (Attr.complex i subs ps ds).rep with
          | .error e => .error e
          | .ok w => Val.getX true w { attr := a.rep.sub } := by
        rw [← getItem_top hs ht h1 h2]
        have e : r.getItem { schema := a.rep.schema, attr := a.rep.attr } = Val.getX false r { a.rep with sub := [] } := by
          cases r <;> simp only [Val.getItem, Val.getX]
        rw [e]
        exact getX_split r a.rep hsub
      obtain ⟨z, hz, hzi, hze⟩ : ∃ z, r.getItem a.rep = .ok z ∧ z.isInvalid = false ∧
          (z.Empty ↔ Bare (under a.rep.sub (look (Attr.complex i subs ps ds).rep D))) := by
        rcases htop with ⟨hl, hg⟩ | ⟨w, y, is', hl, htw, hvf, hy, hn, hg⟩
        · rw [hg] at hread
          exact ⟨.missing, hread.trans rfl, rfl, by rw [hl]; simp [Val.Empty, Bare, under]⟩
        · rw [hg] at hread
          dsimp only at hread
          unfold ValidFor at hvf
          rw [hm] at hvf
          simp only [Bool.false_eq_true, if_false] at hvf
          rcases hvf with rfl | ⟨E, rfl, hvE⟩
          · rw [show convVal Val.null = .null from rfl, C25_null] at hy
            cases hy
            exact ⟨.missing, hread.trans rfl, rfl, by rw [hl]; simp [Val.Empty, Bare, under, Val.null]⟩
          · have hr := complex_single hut hst hm hy
            obtain ⟨z, hz, hzi, hze⟩ := sub_given hps hall hst htw hvE hr hb
            rw [hbn] at hz hze
            rw [getX_true_getItem hr.cont (ho.owner a ha hsub).1, hz] at hread
            exact ⟨z, hread, hzi, by rw [hl]; exact hze⟩
      constructor
      · rintro l v (⟨hn, _⟩ | ⟨_, _, _, hg, _⟩ | ⟨_, hg, hmt, _⟩ | ⟨_, hg, hmt, _⟩)
        · exact absurd hn hsub
        · rw [hz] at hg; cases hg; exact ⟨_, .sub hsub hpar hm', hze⟩
        · rw [hget] at hg; cases hg; rw [hm'] at hmt; cases hmt
        · rw [hget] at hg; cases hg; rw [hm'] at hmt; cases hmt
      · rintro o (hn | ⟨_, hp, _⟩ | ⟨_, hp, hmt, _⟩ | ⟨_, hp, hmt, _⟩)
        · exact absurd hn hsub
        · cases huniq _ hp
          exact ⟨_, _, .sub hsub hget hm' hz hzi, hze⟩
        · cases huniq _ hp; rw [hm'] at hmt; cases hmt
        · cases huniq _ hp; rw [hm'] at hmt; cases hmt
    | true =>
      have hm' : (Attr.complex i subs ps ds).info.multi = true := hm
      have htg := getItem_top hs ht h1 h2 r
      rcases htop with ⟨hl, hg⟩ | ⟨w, y, is', hl, htw, hvf, hy, hn, hg⟩
      · rw [hg] at htg
        constructor
        · rintro l v (⟨hn, _⟩ | ⟨_, hg', hmt, _, _⟩ | ⟨_, _, _, hg'⟩ | ⟨_, _, _, hg', _⟩)
          · exact absurd hn hsub
          · rw [hget] at hg'; cases hg'; rw [hm'] at hmt; cases hmt
          · rw [htg] at hg'; cases hg'
          · rw [htg] at hg'; cases hg'
        · rintro o (hn | ⟨_, hp, hmt⟩ | ⟨_, hp, _, hl'⟩ | ⟨_, hp, _, hl', _⟩)
          · exact absurd hn hsub
          · cases huniq _ hp; rw [hm'] at hmt; cases hmt
          · cases huniq _ hp; rw [hl] at hl'; cases hl'
          · cases huniq _ hp; rw [hl] at hl'; cases hl'
      · rw [hg] at htg
        unfold ValidFor at hvf
        rw [hm] at hvf
        simp only [if_true] at hvf
        rcases hvf with rfl | ⟨xs, rfl, hvE, -⟩
        · rw [show convVal Val.null = .null from rfl, C25_null] at hy
          cases hy
          have hbare : Val.Empty .null ↔ Bare (some .null) := by simp [Val.Empty, Bare]
          constructor
          · rintro l v (⟨hn, _⟩ | ⟨_, hg', hmt, _, _⟩ | _ | ⟨_, _, _, hg', _⟩)
            · exact absurd hn hsub
            · rw [hget] at hg'; cases hg'; rw [hm'] at hmt; cases hmt
            · exact ⟨_, .null hsub hpar hm' hl, hbare⟩
            · rw [htg] at hg'; cases hg'
          · rintro o (hn | ⟨_, hp, hmt⟩ | _ | ⟨_, hp, _, hl', _⟩)
            · exact absurd hn hsub
            · cases huniq _ hp; rw [hm'] at hmt; cases hmt
            · exact ⟨_, _, .null hsub hget hm' htg, hbare⟩
            · cases huniq _ hp; rw [hl] at hl'; cases hl'
        · obtain ⟨ys, rfl, hlen, hit⟩ := complex_multi hut hst hm hy
          have hxt : ∀ x ∈ xs, x.Tame := by
            unfold Val.Tame at htw
            exact tameList_iff.mp htw
          have hitem : ∀ (k : Nat) E, xs[k]? = some (Val.dict E) → ∃ yk, ys[k]? = some yk ∧
              ∃ z, yk.getItem { attr := a.rep.sub } = .ok z ∧ z.isInvalid = false ∧
                (z.Empty ↔ Bare (found a.rep.sub E)) := by
            intro k E hk
            obtain ⟨yk, hyk, hr⟩ := hit k E hk
            have hmem := List.mem_of_getElem? hk
            obtain ⟨E', e, hvE'⟩ := hvE _ hmem
            cases e
            obtain ⟨z, hz⟩ := sub_given hps hall hst (hxt _ hmem) hvE' hr hb
            rw [hbn] at hz
            exact ⟨yk, hyk, z, hz⟩
          constructor
          · rintro l v (⟨hn, _⟩ | ⟨_, hg', hmt, _, _⟩ | ⟨_, _, _, hg'⟩ | ⟨hq1, hq2, hq3, hg', hyk, hz', hvi⟩)
            · exact absurd hn hsub
            · rw [hget] at hg'; cases hg'; rw [hm'] at hmt; cases hmt
            · rw [htg] at hg'; cases hg'
            · rename_i t' zs k yk
              rw [htg] at hg'; cases hg'
              have hk : k < xs.length := by rw [← hlen]; exact (List.getElem?_eq_some_iff.mp hyk).1
              have hxk : xs[k]? = some xs[k] := List.getElem?_eq_getElem hk
              obtain ⟨E, e, -⟩ := hvE _ (List.getElem_mem hk)
              rw [e] at hxk
              obtain ⟨yk', hyk', z, hz, hzi, hze⟩ := hitem k E hxk
              rw [hyk] at hyk'; cases hyk'
              rw [hz'] at hz; cases hz
              exact ⟨_, .item hsub hpar hm' hl (List.mem_of_getElem? hxk), hze⟩
          · rintro o (hn | ⟨_, hp, hmt⟩ | ⟨_, hp, _, hl'⟩ | ⟨hq1, hp, hq3, hl', hE⟩)
            · exact absurd hn hsub
            · cases huniq _ hp; rw [hm'] at hmt; cases hmt
            · cases huniq _ hp; rw [hl] at hl'; cases hl'
            · cases huniq _ hp
              rw [hl] at hl'; cases hl'
              obtain ⟨k, hk⟩ := List.getElem?_of_mem hE
              obtain ⟨yk, hyk, z, hz, hzi, hze⟩ := hitem k _ hk
              exact ⟨_, _, .item hsub hget hm' htg hyk hz hzi, hze⟩

/-- An attribute is nowhere observed empty exactly when the document gives it, and somewhere not empty exactly when the document
shows it. -/
theorem given_iff {m : Mode} {s : Schema} (hs : s.WF) (hns : s.NoShadow) (ho : s.Owned) (hsane : SaneAll s.attrs.top)
    (hu : UsualAll m s.attrs.top) (hreg : Regular s) {D : List (Str × Val)} (hD : Ordinary s D)
    (hv : ValidIn m s.attrs.top D) {r : Val} {is : Issues} (h : s.process m (.dict D) = .ok (r, is)) {a : Attr}
    (ha : a ∈ s.attrs.all) :
    (Given s D a ↔ ∀ l v, Observed s.attrs r a l v → ¬ v.Empty) ∧
    (Shown s D a ↔ ∃ l v, Observed s.attrs r a l v ∧ ¬ v.Empty) := by
  obtain ⟨h1, h2⟩ := observed_iff hs hns ho hsane hu hreg hD hv h ha
  refine ⟨⟨fun hg l v hob he => ?_, fun hg o hh => ?_⟩, ⟨?_, ?_⟩⟩
  · obtain ⟨o, ho, hi⟩ := h1 l v hob
    exact not_bare.mpr (hg o ho) (hi.mp he)
  · obtain ⟨l, v, hob, hi⟩ := h2 o hh
    exact not_bare.mp fun hb => hg l v hob (hi.mpr hb)
  · rintro ⟨x, hh, hx⟩
    obtain ⟨l, v, hob, hi⟩ := h2 _ hh
    exact ⟨l, v, hob, fun he => hx (hi.mp he x rfl)⟩
  · rintro ⟨l, v, hob, he⟩
    obtain ⟨o, ho, hi⟩ := h1 l v hob
    obtain ⟨x, rfl, hx⟩ := not_bare.mp fun hb => he (hi.mpr hb)
    exact ⟨x, ho, hx⟩

/-- The presence checks report nothing exactly when the document gives what is required and, in a response, shows only what may
be shown. -/
theorem checker_ok {m : Mode} {s : Schema} (hs : s.WF) (hns : s.NoShadow) (ho : s.Owned) (hsane : SaneAll s.attrs.top)
    (hu : UsualAll m s.attrs.top) (hreg : Regular s) {D : List (Str × Val)} (hD : Ordinary s D)
    (hv : ValidIn m s.attrs.top D) {r : Val} {is : Issues} (h : s.process m (.dict D) = .ok (r, is)) {c : Checker} {d : Direction}
    {is2 : Issues} (hc : c.call r s.attrs d = .ok is2) :
    is2.hasIssues = false ↔ ∀ a ∈ s.attrs.all,
      (a.info.required = true → ¬ Listed a.rep c.ignore →
        (c.incl = some true → Listed a.rep c.reps ∨ (d = .response ∧ a.info.returned = .always)) → Given s D a) ∧
      (Shown s D a → d = .response → a.info.returned ≠ .always →
        ¬ (a.info.returned = .never ∨ (c.incl = some false ∧ Listed a.rep c.reps) ∨
            (c.incl = some true ∧ ¬ Listed a.rep c.reps ∧ ¬ RelativeListed a.rep c.reps))) := by
  have hw : is2.WF := call_wf hc
  have hmem := call_errors _ _ _ _ _ hc
  constructor
  · intro hn a ha
    obtain ⟨h1, h2⟩ := given_iff hs hns ho hsane hu hreg hD hv h ha
    rw [h1, h2]
    have none : ∀ l e, e ∉ is2.errorsAt l := by
      intro l e he
      rw [eq_empty_of_noIssues hw hn] at he
      cases he
    refine ⟨fun hreq hni hinc l v hob he => ?_, fun ⟨l, v, hob, he⟩ hd hr hbad => ?_⟩
    · refine none l ⟨15, []⟩ ?_
      rw [hmem]
      refine ⟨a, ha, v, hob, ?_⟩
      rw [checkPresence_errors]
      exact ⟨rfl, .inl ⟨rfl, he, hreq, hni, hinc⟩⟩
    · refine none l ⟨19, []⟩ ?_
      rw [hmem]
      refine ⟨a, ha, v, hob, ?_⟩
      rw [checkPresence_errors]
      exact ⟨rfl, .inr ⟨rfl, he, hd, hr, hbad⟩⟩
  · intro hcomp
    rw [noIssues_of_errors hw (fun l => ?_)]
    · rfl
    · apply List.eq_nil_iff_forall_not_mem.mpr
      intro e he
      rw [hmem] at he
      obtain ⟨a, ha, v, hob, he⟩ := he
      obtain ⟨h1, h2⟩ := given_iff hs hns ho hsane hu hreg hD hv h ha
      rw [checkPresence_errors] at he
      rcases he.2 with ⟨-, he, hreq, hni, hinc⟩ | ⟨-, he, hd, hr, hbad⟩
      · exact h1.mp ((hcomp a ha).1 hreq hni hinc) _ _ hob he
      · exact (hcomp a ha).2 (h2.mpr ⟨_, _, hob, he⟩) hd hr hbad

/-- The presence checks of a request report nothing exactly when the document is complete. -/
theorem presence_ok {m : Mode} {s : Schema} (hs : s.WF) (hns : s.NoShadow) (ho : s.Owned) (hsane : SaneAll s.attrs.top)
    (hu : UsualAll m s.attrs.top) (hreg : Regular s) {D : List (Str × Val)} (hD : Ordinary s D)
    (hv : ValidIn m s.attrs.top D) {r : Val} {is : Issues} (h : s.process m (.dict D) = .ok (r, is)) {ig : List AttrRep}
    {is2 : Issues} (hc : Checker.call { ignore := ig } r s.attrs .request = .ok is2) :
    is2.hasIssues = false ↔ Complete s (fun a => Listed a.rep ig) D := by
  rw [checker_ok hs hns ho hsane hu hreg hD hv h hc]
  unfold Complete
  constructor
  · intro h a ha hreq hni
    exact (h a ha).1 hreq hni (fun e => by cases e)
  · intro h a ha
    exact ⟨fun hreq hni _ => h a ha hreq hni, fun _ e => by cases e⟩

end Scim.Valid
