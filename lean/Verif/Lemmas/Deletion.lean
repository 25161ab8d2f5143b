import Verif.Lemmas.CoreView
import Verif.Lemmas.Totality

/-! Deleting attributes from containers, and what the loop of PUT requests does. -/

namespace Scim
open Issues V
variable [PyEnv]

omit [PyEnv] in
theorem aget_adel_none {κ β : Type} [DecidableEq κ] {k k' : κ} {m : List (κ × β)} (hn : (m.map (·.1)).Nodup)
    (h : aget k' m = none) : aget k' (adel k m) = none := by
  by_cases e : k = k'
  · subst e; exact aget_adel_self hn
  · rw [aget_adel_ne e]; exact h

/-- What `del c[rep]` can do to a container. -/
inductive Deleted (d : List (Str × Val)) (lc : List (Str × Str)) (r : AttrRep) : Val → Prop
  | inner {k v v'} : aget (lower r.schema) lc = some k → aget k d = some v →
      Val.delX false v { attr := r.attr, sub := r.sub } = .ok v' → Deleted d lc r (.cont (aset k v' d) lc)
  | absent : aget (lower r.schema) lc = none → aget (lower r.attr) lc = none → Deleted d lc r (.cont d lc)
  | top {k} : aget (lower r.schema) lc = none → aget (lower r.attr) lc = some k → r.sub = [] →
      Deleted d lc r (.cont (adel k d) (adel (lower r.attr) lc))
  | sub {k v v'} : aget (lower r.schema) lc = none → aget (lower r.attr) lc = some k → r.sub ≠ [] → aget k d = some v →
      Val.delX true v { attr := r.sub } = .ok v' → Deleted d lc r (.cont (aset k v' d) lc)

theorem delItem_cases {d lc} {r : AttrRep} {c : Val} (h : (Val.cont d lc).delItem r = .ok c) : Deleted d lc r c := by
  simp only [Val.delItem, Val.delX, Bool.false_and, Bool.false_eq_true, if_false] at h
  split at h
  · rename_i k hk
    rw [delAt_eq] at h
    cases hg : aget k d with
    | none => simp [hg] at h
    | some v =>
      simp only [hg] at h
      cases hx : Val.delX false v { attr := r.attr, sub := r.sub } with
      | error e => simp [hx] at h
      | ok v' => simp only [hx] at h; cases h; exact .inner hk hg hx
  · rename_i hk
    split at h
    · rename_i ha; cases h; exact .absent hk ha
    · rename_i k ha
      split at h
      · rename_i hs
        split at h
        · cases h; exact .top hk ha (by simpa using hs)
        · cases h
      · rename_i hs
        rw [delAt_eq] at h
        cases hg : aget k d with
        | none => simp [hg] at h
        | some v =>
          simp only [hg] at h
          cases hx : Val.delX true v { attr := r.sub } with
          | error e => simp [hx] at h
          | ok v' => simp only [hx] at h; cases h; exact .sub hk ha (by simpa using hs) hg hx

/-- Deleting keeps a container consistent and adds no names. -/
theorem Deleted.inv {d lc} {r : AttrRep} {c : Val} (h : Deleted d lc r c) (hi : CInv d lc) :
    ∃ d' lc', c = .cont d' lc' ∧ CInv d' lc' ∧ ∀ l, aget l lc = none → aget l lc' = none := by
  cases h with
  | inner _ _ _ => exact ⟨_, _, rfl, hi.setData _ _, fun _ h => h⟩
  | absent _ _ => exact ⟨_, _, rfl, hi, fun _ h => h⟩
  | top _ hk _ => exact ⟨_, _, rfl, hi.adel _ _ hk, fun l h => aget_adel_none hi.lcKeys h⟩
  | sub _ _ _ _ _ => exact ⟨_, _, rfl, hi.setData _ _, fun _ h => h⟩

omit [PyEnv] in
/-- Properties every deletion of the loop keeps. -/
theorem dropReadOnly_keeps [PyEnv] {I : Val → Prop} : ∀ {as : List Attr} {b r : Val},
    (∀ a ∈ as, a.info.mutability = .readOnly → ∀ b b', I b → b.delItem a.rep = .ok b' → I b') → I b →
    dropReadOnly as b = .ok r → I r
  | [], b, r, _, hb, h => by cases h; exact hb
  | a :: as, b, r, hs, hb, h => by
    rw [dropReadOnly] at h
    split at h
    · rename_i hm
      split at h
      · cases h
      · rename_i b' hd
        exact dropReadOnly_keeps (fun x hx => hs x (List.mem_cons_of_mem _ hx))
          (hs a (by simp) (by simpa using hm) b b' hb hd) h
    · exact dropReadOnly_keeps (fun x hx => hs x (List.mem_cons_of_mem _ hx)) hb h

/-- Properties one of the deletions establishes. -/
theorem dropReadOnly_gives {I J : Val → Prop} {a : Attr} (hro : a.info.mutability = .readOnly) : ∀ {as : List Attr} {b r : Val},
    a ∈ as → (∀ x ∈ as, x.info.mutability = .readOnly → ∀ b b', I b → b.delItem x.rep = .ok b' → I b') →
    (∀ x ∈ as, x.info.mutability = .readOnly → ∀ b b', I b → J b → b.delItem x.rep = .ok b' → J b') →
    (∀ b b', I b → b.delItem a.rep = .ok b' → J b') → I b → dropReadOnly as b = .ok r → J r
  | x :: as, b, r, ha, hI, hJ, hg, hb, h => by
    rw [dropReadOnly] at h
    have hI' := fun y hy => hI y (List.mem_cons_of_mem x hy)
    have hJ' := fun y hy => hJ y (List.mem_cons_of_mem x hy)
    split at h
    · rename_i hm
      split at h
      · cases h
      · rename_i b' hd
        have hb' := hI x (by simp) (by simpa using hm) b b' hb hd
        rcases List.mem_cons.mp ha with rfl | ha
        · have := dropReadOnly_keeps (I := fun c => I c ∧ J c) (fun y hy hm c c' hc hd =>
            ⟨hI' y hy hm c c' hc.1 hd, hJ' y hy hm c c' hc.1 hc.2 hd⟩) ⟨hb', hg b b' hb hd⟩ h
          exact this.2
        · exact dropReadOnly_gives hro ha hI' hJ' hg hb' h
    · rename_i hm
      rcases List.mem_cons.mp ha with rfl | ha
      · exact absurd (by simpa using hro) hm
      · exact dropReadOnly_gives hro ha hI' hJ' hg hb h

/-! ### Values of complex attributes -/

/-- A consistent container without empty name. -/
def Val.Plainly (v : Val) : Prop := ∃ d l, v = .cont d l ∧ CInv d l ∧ aget (lower []) l = none

/-- The values complex attributes have. -/
def Val.SubOk : Val → Prop
  | .cont d l => (Val.cont d l).Plainly
  | .list xs => ∀ x ∈ xs, x.Plainly
  | _ => True

theorem SubView.plainly {subs : List Attr} (hs : PlainSubs subs) {d lc} (h : SubView subs d lc) : (Val.cont d lc).Plainly := by
  refine ⟨d, lc, rfl, h.toCInv, h.lc_none ?_⟩
  intro k hk e
  obtain ⟨t, ht, rfl⟩ := h.declared k hk
  exact hs.named t ht ((PyEnv.lower_eq_nil _).1 (by rw [e, (PyEnv.lower_eq_nil []).2 rfl]))

theorem complexItems_plainly {m : Mode} {subs : List Attr} (hs : PlainSubs subs) : ∀ {k : Nat} {xs ys : List Val} {s is : Issues},
    complexItems (fun loc item is => processSubs m subs loc item .emptyCont is) k xs s = .ok (ys, is) →
    ∀ y ∈ ys, y.Plainly
  | k, [], ys, s, is, h => by simp only [complexItems] at h; cases h; simp
  | k, x :: xs, ys, s, is, h => by
    simp only [complexItems] at h
    split at h
    · cases h
    · rename_i item s1 hx
      split at h
      · cases h
      · rename_i items s2 hr
        cases h
        intro y hy
        rcases List.mem_cons.mp hy with rfl | hy
        · obtain ⟨d, l, rfl, hv⟩ := processSubs_view hs hx
          exact hv.plainly hs
        · exact complexItems_plainly hs hr y hy

theorem complex_shape {m : Mode} {info : AttrInfo} {subs : List Attr} {ps ds : List Proc}
    (hstd : (Attr.complex info subs ps ds).Standard m) {v r : Val} {is : Issues}
    (h : (Attr.complex info subs ps ds).process m v = .ok (r, is)) (hn : is.hasIssues = false) : r.SubOk := by
  obtain ⟨_, _, hs1, hs2, hs3, _⟩ := hstd
  rw [complex_process_eq] at h
  split at h
  · cases h
  · rename_i value issues hi
    have hw : issues.WF := info_process_wf (fun p hp => by
      have hp' : p ∈ info.procs m := hp
      rw [hs1] at hp'; simp at hp') hi
    split at h
    · rename_i hc
      cases h
      have : is = {} := (eq_empty_of_noIssues hw hn)
      subst this
      have hv : r.isNone = true := by
        simpa [canProceed_empty, Issues.canProceed, Issues.canProceedAt, aget] using hc
      cases r <;> first | trivial | (simp [Val.isNone] at hv; done)
    · split at h
      · cases h
      · rename_i parsed issues2 hb
        have hok : parsed.SubOk := by
          unfold complexBody at hb
          split at hb
          · split at hb
            · split at hb
              · cases hb
              · rename_i hc
                cases hb
                exact complexItems_plainly hs3 hc
            · cases hb
          · obtain ⟨d, l, rfl, hv⟩ := processSubs_view hs3 hb
            exact hv.plainly hs3
        split at h
        · cases h; exact hok
        · have hps : ∀ p ∈ (Attr.complex info subs ps ds).cprocs m, ∀ v r i, p v = .ok (r, i) → r = v := by
            intro p hp v r i hv
            rw [(hs2 p hp).1] at hv
            unfold validateSinglePrimary at hv
            split at hv
            · split at hv
              · cases hv
              · cases hv; rfl
            · cases hv
          have key : ∀ (ps : List Proc), (∀ p ∈ ps, ∀ v r i, p v = .ok (r, i) → r = v) → ∀ v s r is,
              runProcs ps v s = .ok (r, is) → r = v := by
            intro ps
            induction ps with
            | nil => intro _ v s r is h; simp only [runProcs] at h; cases h; rfl
            | cons p ps ih =>
              intro hps v s r is h
              simp only [runProcs] at h
              split at h
              · cases h
              · rename_i v' i hp
                have := hps p (by simp) _ _ _ hp
                subst this
                exact ih (fun q hq => hps q (List.mem_cons_of_mem _ hq)) _ _ _ _ h
          have := key _ hps _ _ _ _ h
          rw [this]; exact hok

/-- Nothing is read: `Missing`, or a list of these. -/
def Gone (r : PyM Val) : Prop := r = .ok .missing ∨ ∃ xs, r = .ok (.list xs) ∧ ∀ x ∈ xs, x = .missing

/-- Deleting a plain name in a container. -/
theorem Plainly.del {v v' : Val} (hv : v.Plainly) {q : Str} {b : Bool} (h : Val.delX b v { attr := q } = .ok v') :
    v'.Plainly ∧ v'.getItem { attr := q } = .ok .missing ∧
      ∀ q', lower q' ≠ lower q → v'.getItem { attr := q' } = v.getItem { attr := q' } := by
  obtain ⟨d, l, rfl, hi, h0⟩ := hv
  have h : (Val.cont d l).delItem { attr := q } = .ok v' := by
    rw [Val.delItem, ← h]
    simp only [Val.delX] at h ⊢
    cases b
    · rfl
    · split at h
      · cases h
      · rename_i hc; rw [if_neg hc]; rfl
  have hc := delItem_cases h
  cases hc with
  | inner hk _ _ => rw [h0] at hk; cases hk
  | absent _ ha =>
    refine ⟨⟨d, l, rfl, hi, h0⟩, ?_, fun _ _ => rfl⟩
    rw [getItem_noKey (r := { attr := q }) h0]; simp only [ha]
  | @top k _ hk _ =>
    have h0' : aget (lower []) (adel (lower q) l) = none := aget_adel_none hi.lcKeys h0
    refine ⟨⟨_, _, rfl, hi.adel _ _ hk, h0'⟩, ?_, ?_⟩
    · rw [getItem_noKey (r := { attr := q }) h0', aget_adel_self hi.lcKeys]
    · intro q' hq
      rw [getItem_noKey (r := { attr := q' }) h0', getItem_noKey (r := { attr := q' }) h0,
        aget_adel_ne (Ne.symm hq)]
      cases hg : aget (lower q') l with
      | none => rfl
      | some k' =>
        have : k ≠ k' := by
          intro e
          subst e
          exact hq ((hi.sound _ _ hg).1.trans (hi.sound _ _ hk).1.symm)
        simp only [aget_adel_ne this]
  | sub _ _ hs _ _ => exact absurd rfl hs

theorem delMap_ok {q : Str} : ∀ {xs ys : List Val}, delMap xs { attr := q } = .ok ys → (∀ x ∈ xs, x.Plainly) →
    (∀ y ∈ ys, y.Plainly) ∧ (∀ q', lower q' = lower q → ∃ zs, getMap ys { attr := q' } = .ok zs ∧ ∀ z ∈ zs, z = .missing) ∧
      ∀ q', lower q' ≠ lower q → getMap ys { attr := q' } = getMap xs { attr := q' }
  | [], ys, h, hx => by
    rw [delMap] at h; cases h
    exact ⟨by simp, fun _ _ => ⟨[], by rw [getMap], by simp⟩, fun _ _ => rfl⟩
  | x :: xs, ys, h, hx => by
    rw [delMap] at h
    split at h
    · cases h
    · rename_i y hy
      split at h
      · cases h
      · rename_i ys' hys
        cases h
        obtain ⟨h1, h2, h3⟩ := Plainly.del (hx x (by simp)) hy
        obtain ⟨g1, g2, g3⟩ := delMap_ok hys (fun z hz => hx z (List.mem_cons_of_mem _ hz))
        refine ⟨?_, ?_, ?_⟩
        · intro z hz
          rcases List.mem_cons.mp hz with rfl | hz
          · exact h1
          · exact g1 z hz
        · intro q' e
          obtain ⟨zs, g2, g2'⟩ := g2 q' e
          refine ⟨.missing :: zs, ?_, ?_⟩
          · obtain ⟨d', l', rfl, h4⟩ := h1
            have h2' : (Val.cont d' l').getItem { attr := q' } = .ok .missing := by
              rw [getItem_noKey (r := { attr := q }) h4.2] at h2
              rw [getItem_noKey (r := { attr := q' }) h4.2, e]
              exact h2
            rw [getMap]
            rw [Val.getItem] at h2'
            simp only [h2', g2]
          · intro z hz
            rcases List.mem_cons.mp hz with rfl | hz
            · rfl
            · exact g2' z hz
        · intro q' hq
          have := h3 q' hq
          rw [Val.getItem, Val.getItem] at this
          rw [getMap, getMap, this, g3 q' hq]

/-- Deleting a sub-attribute: it is gone, the others are kept. -/
theorem SubOk.del {v v' : Val} (hv : v.SubOk) {q : Str} (h : Val.delX true v { attr := q } = .ok v') :
    v'.SubOk ∧ (∀ q', isAttrName q' = true → lower q' = lower q → Gone (Val.getX true v' { attr := q' })) ∧
      ∀ q', lower q' ≠ lower q → Val.getX true v' { attr := q' } = Val.getX true v { attr := q' } := by
  cases v with
  | cont d l =>
    obtain ⟨h1, h2, h3⟩ := Plainly.del hv h
    obtain ⟨d', l', rfl, h4⟩ := h1
    refine ⟨⟨d', l', rfl, h4⟩, ?_, ?_⟩
    · intro q' hq e
      left
      rw [getItem_noKey (r := { attr := q }) h4.2] at h2
      rw [getX_true_getItem rfl hq, getItem_noKey (r := { attr := q' }) h4.2, e]
      exact h2
    · intro q' hne
      by_cases hn : isAttrName q' = true
      · rw [getX_true_getItem rfl hn, getX_true_getItem rfl hn, h3 q' hne]
      · simp only [Val.getX, Bool.true_and, hn, Bool.not_false, if_true]
  | list xs =>
    simp only [Val.delX] at h
    split at h
    · cases h
    · split at h
      · rename_i ys hys
        cases h
        obtain ⟨h1, h2, h3⟩ := delMap_ok hys hv
        refine ⟨h1, ?_, ?_⟩
        · intro q' hq e
          obtain ⟨zs, h2, h2'⟩ := h2 q' e
          exact .inr ⟨zs, by simp only [Val.getX, hq, Bool.not_true, Bool.and_false, Bool.false_eq_true, if_false, h2], h2'⟩
        · intro q' hne
          have hemp : ys.isEmpty = xs.isEmpty := by
            cases xs with
            | nil => rw [delMap] at hys; cases hys; rfl
            | cons x xs =>
              rw [delMap] at hys
              split at hys
              · cases hys
              · split at hys
                · cases hys
                · cases hys; rfl
          simp only [Val.getX, hemp, h3 q' hne]
      · cases h
  | _ =>
    simp only [Val.delX] at h
    cases h
    exact ⟨trivial, fun _ _ _ => .inl (by simp [Val.getX]), fun _ _ => rfl⟩

/-- Deleting under one name keeps what is read under another. -/
theorem Deleted.keeps {d lc} {r : AttrRep} {c : Val} (h : Deleted d lc r c) (hi : CInv d lc) (r2 : AttrRep)
    (h2 : aget (lower r2.schema) lc = none) (hne : lower r.attr ≠ lower r2.attr)
    (hns : lower r2.attr ≠ lower r.schema) : c.getItem r2 = (Val.cont d lc).getItem r2 := by
  obtain ⟨d1, lc1, rfl, hi1, hk1⟩ := h.inv hi
  rw [getItem_noKey h2, getItem_noKey (hk1 _ h2)]
  cases h with
  | @inner k1 v v' g1 g2 g3 =>
    cases hg : aget (lower r2.attr) lc with
    | none => rfl
    | some k =>
      have : k1 ≠ k := by
        intro e
        subst e
        exact hns ((hi.sound _ _ hg).1.trans (hi.sound _ _ g1).1.symm)
      simp only [aget_aset_ne this]
  | absent _ _ => rfl
  | @top k1 g1 g2 g3 =>
    rw [aget_adel_ne hne]
    cases hg : aget (lower r2.attr) lc with
    | none => rfl
    | some k =>
      have : k1 ≠ k := by
        intro e
        subst e
        exact hne ((hi.sound _ _ g2).1.trans (hi.sound _ _ hg).1.symm)
      simp only [aget_adel_ne this]
  | @sub k1 v v' g1 g2 _ g4 g5 =>
    cases hg : aget (lower r2.attr) lc with
    | none => rfl
    | some k =>
      have : k1 ≠ k := by
        intro e
        subst e
        exact hne ((hi.sound _ _ g2).1.trans (hi.sound _ _ hg).1.symm)
      simp only [aget_aset_ne this]

/-! ### Bodies -/

theorem process_ext {m : Mode} {s : Schema} (hs : s.WF) {data r : Val} {is : Issues}
    (hobj : (data.isCont || data.isDict) = true) (h : s.process m data = .ok (r, is)) :
    ∃ d lc, r = .cont d lc ∧ ∀ a ∈ s.attrs.top, a.rep.ext = true → ∀ v, aget a.rep.schema d = some v → v.Plainly := by
  have hnone : data.isNone = false := by
    cases data <;> simp [Val.isCont, Val.isDict] at hobj <;> rfl
  unfold Schema.process at h
  rw [hnone, hobj] at h
  simp only [Bool.false_eq_true, if_false, Bool.not_true] at h
  split at h
  · cases h
  · rename_i r0 is0 hpt
    obtain ⟨⟨d', lc', rfl, hinv⟩, h2, h3⟩ := processTop_spec s.attrs.top data.toCont [] [] [] {} r0 is0 PInv.nil hs.sub
      hs.compat (by simp) hpt
    rw [List.nil_append] at hinv
    have hr : r = .cont d' lc' := by
      repeat' split at h
      all_goals first
        | (cases h; done)
        | (cases h; rfl)
    refine ⟨d', lc', hr, ?_⟩
    intro a ha he v hv
    have hmem : ∀ p ∈ (s.attrs.top.filterMap (topOut m data.toCont)).map (fun o => (o.1, o.2.1)), p.1 ∈ s.attrs.top := by
      intro p hp
      simp only [List.mem_map, List.mem_filterMap] at hp
      obtain ⟨o, ⟨a, ha, ho⟩, rfl⟩ := hp
      rw [(topOut_spec ho).1]; exact ha
    rcases hinv.keys _ _ hv with ⟨p, hp, h1, h2, _⟩ | ⟨d, l, rfl, hd, _, hk⟩
    · exact absurd (congrArg lower h2) (hs.noClash _ (hs.top_all _ (hmem p hp)) _ (List.mem_cons_of_mem _ (hs.ext a ha he)))
    · refine ⟨d, l, rfl, hd.toCInv, hd.lc_none ?_⟩
      intro k hk' e
      have hsome := aget_isSome_iff.mpr hk'
      obtain ⟨w, hw⟩ := Option.isSome_iff_exists.mp hsome
      obtain ⟨p, hp, _, _, h4, _⟩ := hk k w hw
      apply hs.named _ (hs.top_all _ (hmem p hp))
      rw [h4]
      exact (PyEnv.lower_eq_nil _).1 (by rw [e, (PyEnv.lower_eq_nil []).2 rfl])

/-- What every deletion from a parsed body keeps. -/
structure BodyInv (s : Schema) (d : List (Str × Val)) (lc : List (Str × Str)) : Prop extends CInv d lc where
  noUrn : aget (lower s.urn) lc = none
  ext : ∀ a ∈ s.attrs.top, a.rep.ext = true → ∀ k v, aget (lower a.rep.schema) lc = some k → aget k d = some v → v.Plainly

/-- the same of a value -/
def IsBody (s : Schema) (b : Val) : Prop := ∃ d lc, b = .cont d lc ∧ BodyInv s d lc

theorem process_body {m : Mode} {s : Schema} (hs : s.WF) {data r : Val} {is : Issues}
    (hobj : (data.isCont || data.isDict) = true) (h : s.process m data = .ok (r, is)) : IsBody s r := by
  obtain ⟨d, lc, rfl, hv⟩ := process_view hs hobj h
  obtain ⟨d', lc', e, he⟩ := process_ext hs hobj h
  cases e
  refine ⟨d, lc, rfl, hv.toCInv, hv.noUrn hs, ?_⟩
  intro a ha hx k v hk hg
  have hk' := hv.sound _ _ hk
  have : k = a.rep.schema := by
    rcases hv.declared k hk'.2 with ⟨b, hb, h1, rfl⟩ | ⟨b, hb, h1, rfl⟩
    · exact absurd hk'.1.symm (hs.noClash b (hs.top_all b hb) _ (List.mem_cons_of_mem _ (hs.ext a ha hx)))
    · have hu := hs.urns
      exact eq_of_map_nodup hu (List.mem_cons_of_mem _ (hs.ext b hb h1)) (List.mem_cons_of_mem _ (hs.ext a ha hx)) hk'.1.symm
  subst this
  exact he a ha hx v hg

/-- Deleting inside a plain container. -/
theorem Plainly.del' {v v' : Val} (hv : v.Plainly) {a q : Str} (h : Val.delX false v { attr := a, sub := q } = .ok v') :
    v'.Plainly ∧ ∀ b, v.getItem { attr := b } = .ok .missing → v'.getItem { attr := b } = .ok .missing := by
  obtain ⟨d, l, rfl, hi, h0⟩ := hv
  have hd := delItem_cases (r := { attr := a, sub := q }) h
  obtain ⟨d', l', rfl, hi', hk⟩ := hd.inv hi
  refine ⟨⟨d', l', rfl, hi', hk _ h0⟩, ?_⟩
  intro b hb
  rw [getItem_noKey (r := { attr := b }) h0] at hb
  rw [getItem_noKey (r := { attr := b }) (hk _ h0)]
  cases hg : aget (lower b) l with
  | none => simp only [hk _ hg]
  | some k =>
    simp only [hg] at hb
    cases hgk : aget k d with
    | none => simp [hgk] at hb
    | some w =>
      simp only [hgk, List.isEmpty_nil, if_true] at hb
      cases hb
      cases hd with
      | inner hx _ _ => rw [h0] at hx; cases hx
      | absent _ _ => simp [hg, hgk]
      | @top k' _ hk' _ =>
        by_cases e : lower a = lower b
        · have : aget (lower b) (adel (lower a) l) = none := by rw [← e]; exact aget_adel_self hi.lcKeys
          simp only [this]
        · have : k' ≠ k := by
            intro e'
            subst e'
            exact e ((hi.sound _ _ hk').1.trans (hi.sound _ _ hg).1.symm)
          simp only [aget_adel_ne e, hg, aget_adel_ne this, hgk, List.isEmpty_nil, if_true]
      | @sub k' w w' _ hk' _ hw hx =>
        by_cases e : k' = k
        · subst e
          rw [hgk] at hw; cases hw
          simp only [Val.delX] at hx
          cases hx
          simp [hg]
        · simp [hg, aget_aset_ne e, hgk]

/-- Deleting a declared attribute from a parsed body. -/
theorem BodyInv.del {s : Schema} (hs : s.WF) {d lc} (h : BodyInv s d lc) {x : Attr} (hx : x ∈ s.attrs.all) {b : Val}
    (hd : Deleted d lc x.rep b) : IsBody s b := by
  obtain ⟨d', lc', rfl, hi, hk⟩ := hd.inv h.toCInv
  refine ⟨d', lc', rfl, hi, hk _ h.noUrn, ?_⟩
  intro a ha he k v hk' hv
  cases hd with
  | @inner k1 w w' h1 h2 h3 =>
    by_cases e : k1 = k
    · subst e
      rw [aget_aset_self] at hv; cases hv
      exact (Plainly.del' (h.ext a ha he _ _ hk' h2) h3).1
    · rw [aget_aset_ne e] at hv
      exact h.ext a ha he _ _ hk' hv
  | absent _ _ => exact h.ext a ha he _ _ hk' hv
  | @top k1 h1 h2 h3 =>
    have hne : lower x.rep.attr ≠ lower a.rep.schema := hs.noClash x hx _ (List.mem_cons_of_mem _ (hs.ext a ha he))
    rw [aget_adel_ne hne] at hk'
    have : k1 ≠ k := by
      intro e'
      subst e'
      exact hne ((h.sound _ _ h2).1.trans (h.sound _ _ hk').1.symm)
    rw [aget_adel_ne this] at hv
    exact h.ext a ha he _ _ hk' hv
  | @sub k1 w w' h1 h2 _ h4 h5 =>
    have hne : lower x.rep.attr ≠ lower a.rep.schema := hs.noClash x hx _ (List.mem_cons_of_mem _ (hs.ext a ha he))
    have : k1 ≠ k := by
      intro e'
      subst e'
      exact hne ((h.sound _ _ h2).1.trans (h.sound _ _ hk').1.symm)
    rw [aget_aset_ne this] at hv
    exact h.ext a ha he _ _ hk' hv

theorem IsBody.del {s : Schema} (hs : s.WF) {b b' : Val} (h : IsBody s b) {x : Attr} (hx : x ∈ s.attrs.all)
    (hd : b.delItem x.rep = .ok b') : IsBody s b' := by
  obtain ⟨d, lc, rfl, hi⟩ := h
  exact hi.del hs hx (delItem_cases hd)

/-- Where the values stored in the container of an extension come from. -/
theorem process_ext_values {m : Mode} {s : Schema} (hs : s.WF) {data r : Val} {is : Issues}
    (hobj : (data.isCont || data.isDict) = true) (h : s.process m data = .ok (r, is)) :
    ∃ d lc, r = .cont d lc ∧ ∀ a ∈ s.attrs.top, a.rep.ext = true → ∀ d' l', aget a.rep.schema d = some (.cont d' l') →
      ∀ k v, lower k = lower a.rep.attr → aget k d' = some v →
        ∃ x i, data.toCont.getItem a.rep = .ok x ∧ x.isMissing = false ∧ a.process m x = .ok (v, i) := by
  have hnone : data.isNone = false := by
    cases data <;> simp [Val.isCont, Val.isDict] at hobj <;> rfl
  unfold Schema.process at h
  rw [hnone, hobj] at h
  simp only [Bool.false_eq_true, if_false, Bool.not_true] at h
  split at h
  · cases h
  · rename_i r0 is0 hpt
    obtain ⟨⟨d', lc', rfl, hinv⟩, h2, h3⟩ := processTop_spec s.attrs.top data.toCont [] [] [] {} r0 is0 PInv.nil hs.sub
      hs.compat (by simp) hpt
    rw [List.nil_append] at hinv
    have hr : r = .cont d' lc' := by
      repeat' split at h
      all_goals first
        | (cases h; done)
        | (cases h; rfl)
    refine ⟨d', lc', hr, ?_⟩
    intro a ha he d1 l1 hv k v hk hg
    have hmem : ∀ p ∈ (s.attrs.top.filterMap (topOut m data.toCont)).map (fun o => (o.1, o.2.1)), p.1 ∈ s.attrs.top ∧
        ∃ x i, data.toCont.getItem p.1.rep = .ok x ∧ x.isMissing = false ∧ p.1.process m x = .ok (p.2, i) := by
      intro p hp
      simp only [List.mem_map, List.mem_filterMap] at hp
      obtain ⟨o, ⟨a, ha, ho⟩, rfl⟩ := hp
      obtain ⟨q1, x, q2, q3, q4⟩ := topOut_spec ho
      simp only
      rw [q1]; exact ⟨ha, x, _, q2, q3, q4⟩
    rcases hinv.keys _ _ hv with ⟨p, hp, h1, h2, _⟩ | ⟨d, l, e, hd, _, hkk⟩
    · exact absurd (congrArg lower h2) (hs.noClash _ (hs.top_all _ (hmem p hp).1) _ (List.mem_cons_of_mem _ (hs.ext a ha he)))
    · cases e
      obtain ⟨p, hp, _, p2, p3, rfl⟩ := hkk k v hg
      have : p.1 = a := eq_of_map_nodup hs.distinct (hmem p hp).1 ha (by rw [p2, p3, hk])
      rw [← this]
      exact (hmem p hp).2

end Scim
