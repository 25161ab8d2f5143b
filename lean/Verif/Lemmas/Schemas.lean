import Verif.Spec.Schemas
import Verif.Lemmas.Attributes
import Verif.Props.Attributes

/-! Helper lemmas about schemas. -/

namespace Scim
open Issues
variable [PyEnv]

/-! ## The container built by the loop over the top-level attributes -/

/-- Index and data agree completely: no two keys are equal up to letter case. -/
structure DInv (data : List (Str × Val)) (lc : List (Str × Str)) : Prop extends CInv data lc where
  complete : ∀ k ∈ data.map (·.1), aget (lower k) lc = some k

theorem DInv.nil : DInv [] [] := ⟨⟨by simp, by simp, by simp⟩, by simp⟩

theorem DInv.lc_none {data lc} (h : DInv data lc) {l : Str} (hl : ∀ k ∈ data.map (·.1), lower k ≠ l) :
    aget l lc = none := by
  cases hg : aget l lc with
  | none => rfl
  | some k =>
    obtain ⟨h1, h2⟩ := h.sound _ _ hg
    exact absurd h1.symm (hl k h2)

theorem DInv.eq_of_lower {data lc} (h : DInv data lc) {k k' : Str} (hk : k ∈ data.map (·.1))
    (hk' : k' ∈ data.map (·.1)) (e : lower k = lower k') : k = k' := by
  have h1 := h.complete k hk
  rw [e, h.complete k' hk'] at h1
  exact (Option.some.inj h1).symm

theorem DInv.setPlain {data lc} (h : DInv data lc) (a : Str) (v : Val)
    (hf : ∀ k ∈ data.map (·.1), lower k = lower a → k = a) :
    DInv (aset a v data) (aset (lower a) a lc) := by
  refine ⟨h.toCInv.setPlain a v, ?_⟩
  intro k hk
  rw [mem_keys_aset] at hk
  rw [aget_aset]
  rcases hk with rfl | hk
  · simp
  · by_cases e : lower a = lower k
    · rw [if_pos e, hf k hk e.symm]
    · rw [if_neg e, h.complete k hk]

theorem DInv.setData {data lc} (h : DInv data lc) {k : Str} (hk : k ∈ data.map (·.1)) (v : Val) :
    DInv (aset k v data) lc := by
  refine ⟨h.toCInv.setData k v, ?_⟩
  intro k' hk'
  rw [mem_keys_aset] at hk'
  rcases hk' with rfl | hk'
  · exact h.complete _ hk
  · exact h.complete _ hk'

/-- Two attributes of a schema that do not get into each other's way. -/
structure Compat (a b : Attr) : Prop where
  coreCore : a.rep.ext = false → b.rep.ext = false → lower a.rep.attr ≠ lower b.rep.attr
  coreExt : a.rep.ext = false → b.rep.ext = true → lower a.rep.attr ≠ lower b.rep.schema
  extCore : a.rep.ext = true → b.rep.ext = false → lower a.rep.schema ≠ lower b.rep.attr
  extExt : a.rep.ext = true → b.rep.ext = true → lower a.rep.schema = lower b.rep.schema →
    a.rep.schema = b.rep.schema ∧ lower a.rep.attr ≠ lower b.rep.attr

/-- The container after processing the attributes in `done` with the given results. -/
structure PInv (done : List (Attr × Val)) (data : List (Str × Val)) (lc : List (Str × Str)) : Prop
    extends DInv data lc where
  keys : ∀ k v, aget k data = some v →
    (∃ p ∈ done, p.1.rep.ext = false ∧ p.1.rep.attr = k ∧ p.2 = v) ∨
    (∃ d l, v = .cont d l ∧ DInv d l ∧ (∃ p ∈ done, p.1.rep.ext = true ∧ p.1.rep.schema = k) ∧
      ∀ k' v', aget k' d = some v' →
        ∃ p ∈ done, p.1.rep.ext = true ∧ p.1.rep.schema = k ∧ p.1.rep.attr = k' ∧ p.2 = v')
  core : ∀ p ∈ done, p.1.rep.ext = false → aget p.1.rep.attr data = some p.2
  ext : ∀ p ∈ done, p.1.rep.ext = true →
    ∃ d l, aget p.1.rep.schema data = some (.cont d l) ∧ DInv d l ∧ aget p.1.rep.attr d = some p.2

theorem PInv.nil : PInv [] [] [] := ⟨DInv.nil, by simp, by simp, by simp⟩

theorem PInv.key_class {done data lc} (h : PInv done data lc) {k : Str} (hk : k ∈ data.map (·.1)) :
    (∃ p ∈ done, p.1.rep.ext = false ∧ p.1.rep.attr = k) ∨ (∃ p ∈ done, p.1.rep.ext = true ∧ p.1.rep.schema = k) := by
  have hs := aget_isSome_iff.mpr hk
  cases hg : aget k data with
  | none => rw [hg] at hs; cases hs
  | some v =>
    rcases h.keys k v hg with ⟨p, hp, h1, h2, _⟩ | ⟨d, l, _, _, ⟨p, hp, h1, h2⟩, _⟩
    · exact .inl ⟨p, hp, h1, h2⟩
    · exact .inr ⟨p, hp, h1, h2⟩

/-- Storing one more result. -/
theorem PInv.step {done data lc} (h : PInv done data lc) (a : Attr) (y : Val) (hsub : a.rep.sub = [])
    (hc : ∀ p ∈ done, Compat p.1 a) :
    ∃ data' lc', (Val.cont data lc).setItem a.rep y = .ok (.cont data' lc') ∧
      PInv (done ++ [(a, y)]) data' lc' := by
  cases hext : a.rep.ext with
  | false =>
    -- a core attribute: the key is new
    have hnew : ∀ k ∈ data.map (·.1), lower k ≠ lower a.rep.attr := by
      intro k hk e
      rcases h.key_class hk with ⟨p, hp, h1, rfl⟩ | ⟨p, hp, h1, rfl⟩
      · exact (hc p hp).coreCore h1 hext e
      · exact (hc p hp).extCore h1 hext e
    have hne : a.rep.attr ∉ data.map (·.1) := fun hm => hnew _ hm rfl
    refine ⟨aset a.rep.attr y data, aset (lower a.rep.attr) a.rep.attr lc, ?_, ?_⟩
    · simp [Val.setItem, hext, Val.setLocal, hsub, Val.setPlain]
    · refine ⟨h.toDInv.setPlain _ _ (fun k hk e => absurd e (hnew k hk)), ?_, ?_, ?_⟩
      · intro k v hk
        rw [aget_aset] at hk
        split at hk
        · rename_i e; cases hk; subst e
          exact .inl ⟨(a, y), by simp, hext, rfl, rfl⟩
        · rcases h.keys k v hk with ⟨p, hp, h1⟩ | ⟨d, l, h1, h2, ⟨p, hp, h3⟩, h4⟩
          · exact .inl ⟨p, by simp [hp], h1⟩
          · refine .inr ⟨d, l, h1, h2, ⟨p, by simp [hp], h3⟩, ?_⟩
            intro k' v' hk'
            obtain ⟨q, hq, h5⟩ := h4 k' v' hk'
            exact ⟨q, by simp [hq], h5⟩
      · intro p hp he
        rcases List.mem_append.mp hp with hp | hp
        · rw [aget_aset_ne]
          · exact h.core p hp he
          · intro e
            exact (hc p hp).coreCore he hext (by rw [e])
        · simp only [List.mem_singleton] at hp; subst hp; simp
      · intro p hp he
        rcases List.mem_append.mp hp with hp | hp
        · obtain ⟨d, l, h1, h2⟩ := h.ext p hp he
          refine ⟨d, l, ?_, h2⟩
          rw [aget_aset_ne]
          · exact h1
          · intro e
            exact (hc p hp).extCore he hext (by rw [e])
        · simp only [List.mem_singleton] at hp; subst hp; rw [hext] at he; cases he
  | true =>
    by_cases hex : ∃ p ∈ done, p.1.rep.ext = true ∧ p.1.rep.schema = a.rep.schema
    · -- the extension is already there
      obtain ⟨p0, hp0, he0, hs0⟩ := hex
      obtain ⟨d, l, hd, hdi, _⟩ := h.ext p0 hp0 he0
      rw [hs0] at hd
      have hmem : a.rep.schema ∈ data.map (·.1) := aget_isSome_iff.mp (by rw [hd]; rfl)
      have hlc := h.complete _ hmem
      -- the attribute is new in the extension
      have hcl : ∀ k' v', aget k' d = some v' →
          ∃ p ∈ done, p.1.rep.ext = true ∧ p.1.rep.schema = a.rep.schema ∧ p.1.rep.attr = k' ∧ p.2 = v' := by
        rcases h.keys _ _ hd with ⟨p, hp, h1, h2, _⟩ | ⟨d', l', e, _, _, h4⟩
        · exfalso
          exact (hc p hp).coreExt h1 hext (by rw [h2])
        · cases e; exact h4
      have hnew : ∀ k ∈ d.map (·.1), lower k ≠ lower a.rep.attr := by
        intro k hk e
        have hs := aget_isSome_iff.mpr hk
        cases hg : aget k d with
        | none => rw [hg] at hs; cases hs
        | some v =>
          obtain ⟨p, hp, h1, h2, rfl, _⟩ := hcl k v hg
          exact ((hc p hp).extExt h1 hext (by rw [h2])).2 e
      have hdne : a.rep.attr ∉ d.map (·.1) := fun hm => hnew _ hm rfl
      refine ⟨aset a.rep.schema (.cont (aset a.rep.attr y d) (aset (lower a.rep.attr) a.rep.attr l)) data, lc, ?_, ?_⟩
      · simp [Val.setItem, hext, hlc, hd, Val.setLocal, hsub, Val.setPlain]
      · have hdi' := hdi.setPlain a.rep.attr y (fun k hk e => absurd e (hnew k hk))
        refine ⟨h.toDInv.setData hmem _, ?_, ?_, ?_⟩
        · intro k v hk
          rw [aget_aset] at hk
          split at hk
          · rename_i e; cases hk
            refine .inr ⟨_, _, rfl, hdi', ⟨(a, y), by simp, hext, e⟩, ?_⟩
            intro k' v' hk'
            rw [aget_aset] at hk'
            split at hk'
            · rename_i e'; cases hk'
              exact ⟨(a, y), by simp, hext, e, e', rfl⟩
            · obtain ⟨p, hp, h1, h2, h3⟩ := hcl k' v' hk'
              exact ⟨p, by simp [hp], h1, by rw [h2, e], h3⟩
          · rcases h.keys k v hk with ⟨p, hp, h1⟩ | ⟨d', l', h1, h2, ⟨p, hp, h3⟩, h4⟩
            · exact .inl ⟨p, by simp [hp], h1⟩
            · refine .inr ⟨d', l', h1, h2, ⟨p, by simp [hp], h3⟩, ?_⟩
              intro k' v' hk'
              obtain ⟨q, hq, h5⟩ := h4 k' v' hk'
              exact ⟨q, by simp [hq], h5⟩
        · intro p hp he
          rcases List.mem_append.mp hp with hp | hp
          · rw [aget_aset_ne]
            · exact h.core p hp he
            · intro e
              exact (hc p hp).coreExt he hext (by rw [e])
          · simp only [List.mem_singleton] at hp; subst hp; rw [hext] at he; cases he
        · intro p hp he
          rcases List.mem_append.mp hp with hp | hp
          · obtain ⟨d', l', h1, h2, h3⟩ := h.ext p hp he
            by_cases e : a.rep.schema = p.1.rep.schema
            · refine ⟨_, _, by rw [e]; exact aget_aset_self _ _ _, hdi', ?_⟩
              rw [← e, hd] at h1; cases h1
              rw [aget_aset_ne]
              · exact h3
              · intro e'
                exact ((hc p hp).extExt he hext (by rw [e])).2 (by rw [e'])
            · exact ⟨d', l', by rw [aget_aset_ne e]; exact h1, h2, h3⟩
          · simp only [List.mem_singleton] at hp; subst hp
            exact ⟨_, _, aget_aset_self _ _ _, hdi', aget_aset_self _ _ _⟩
    · -- a new extension
      have hnew : ∀ k ∈ data.map (·.1), lower k ≠ lower a.rep.schema := by
        intro k hk e
        rcases h.key_class hk with ⟨p, hp, h1, rfl⟩ | ⟨p, hp, h1, rfl⟩
        · exact (hc p hp).coreExt h1 hext e
        · exact hex ⟨p, hp, h1, ((hc p hp).extExt h1 hext e).1⟩
      have hlc : aget (lower a.rep.schema) lc = none := h.lc_none hnew
      have hdi : DInv [(a.rep.attr, y)] [(lower a.rep.attr, a.rep.attr)] := by
        have := DInv.nil.setPlain a.rep.attr y (by simp)
        simpa [aset] using this
      refine ⟨aset a.rep.schema (.cont [(a.rep.attr, y)] [(lower a.rep.attr, a.rep.attr)]) data,
        aset (lower a.rep.schema) a.rep.schema lc, ?_, ?_⟩
      · simp [Val.setItem, hext, hlc, Val.emptyCont, Val.setLocal, hsub, Val.setPlain, aset, aset_aset]
      · refine ⟨h.toDInv.setPlain _ _ (fun k hk e => absurd e (hnew k hk)), ?_, ?_, ?_⟩
        · intro k v hk
          rw [aget_aset] at hk
          split at hk
          · rename_i e; cases hk
            refine .inr ⟨_, _, rfl, hdi, ⟨(a, y), by simp, hext, e⟩, ?_⟩
            intro k' v' hk'
            rw [aget_cons] at hk'
            split at hk'
            · rename_i e'; cases hk'
              exact ⟨(a, y), by simp, hext, e, e', rfl⟩
            · simp at hk'
          · rcases h.keys k v hk with ⟨p, hp, h1⟩ | ⟨d', l', h1, h2, ⟨p, hp, h3⟩, h4⟩
            · exact .inl ⟨p, by simp [hp], h1⟩
            · refine .inr ⟨d', l', h1, h2, ⟨p, by simp [hp], h3⟩, ?_⟩
              intro k' v' hk'
              obtain ⟨q, hq, h5⟩ := h4 k' v' hk'
              exact ⟨q, by simp [hq], h5⟩
        · intro p hp he
          rcases List.mem_append.mp hp with hp | hp
          · rw [aget_aset_ne]
            · exact h.core p hp he
            · intro e
              exact (hc p hp).coreExt he hext (by rw [e])
          · simp only [List.mem_singleton] at hp; subst hp; rw [hext] at he; cases he
        · intro p hp he
          rcases List.mem_append.mp hp with hp | hp
          · obtain ⟨d', l', h1, h2, h3⟩ := h.ext p hp he
            refine ⟨d', l', ?_, h2, h3⟩
            rw [aget_aset_ne]
            · exact h1
            · intro e
              exact hex ⟨p, hp, he, e.symm⟩
          · simp only [List.mem_singleton] at hp; subst hp
            exact ⟨_, _, aget_aset_self _ _ _, hdi, by simp [aget]⟩

/-! ## The loop -/

/-- What the loop does for one attribute. -/
def topOut (m : Mode) (data : Val) (a : Attr) : Option (Attr × Val × Issues) :=
  match data.getItem a.rep with
  | .error _ => none
  | .ok .missing => none
  | .ok x => match a.process m x with
    | .error _ => none
    | .ok (y, is) => some (a, y, is)

theorem topOut_spec {m : Mode} {data : Val} {a : Attr} {o} (h : topOut m data a = some o) :
    o.1 = a ∧ ∃ x, data.getItem a.rep = .ok x ∧ x.isMissing = false ∧ a.process m x = .ok (o.2.1, o.2.2) := by
  unfold topOut at h
  split at h
  · cases h
  · cases h
  · rename_i x hx hg
    split at h
    · cases h
    · rename_i y i hp
      cases h
      refine ⟨rfl, x, hg, ?_, hp⟩
      cases x <;> first | exact absurd rfl hx | rfl

theorem topOut_of {m : Mode} {data : Val} {a : Attr} {x y : Val} {i : Issues}
    (h : data.getItem a.rep = .ok x) (hm : x.isMissing = false) (hp : a.process m x = .ok (y, i)) :
    topOut m data a = some (a, y, i) := by
  cases x <;> simp [Val.isMissing] at hm <;> simp [topOut, h, hp]

/-- Merging a list of collections, each at its location. -/
def mergeAll (acc : Issues) (outs : List (Loc × Issues)) : Issues :=
  outs.foldl (fun acc o => acc.merge o.2 o.1) acc

omit [PyEnv] in
theorem mergeAll_errors {outs : List (Loc × Issues)} (hw : ∀ o ∈ outs, o.2.WF) (acc : Issues) (l : Loc) :
    (mergeAll acc outs).errorsAt l =
      acc.errorsAt l ++ outs.flatMap (fun o => if o.1 <+: l then o.2.errorsAt (l.drop o.1.length) else []) := by
  induction outs generalizing acc with
  | nil => simp [mergeAll]
  | cons o outs ih =>
    have : mergeAll acc (o :: outs) = mergeAll (acc.merge o.2 o.1) outs := rfl
    rw [this, ih (fun q hq => hw q (List.mem_cons_of_mem _ hq)), errorsAt_merge (hw o (by simp))]
    simp

omit [PyEnv] in
theorem mergeAll_wf {outs : List (Loc × Issues)} (hw : ∀ o ∈ outs, o.2.WF) {acc : Issues} (ha : acc.WF) :
    (mergeAll acc outs).WF := by
  induction outs generalizing acc with
  | nil => exact ha
  | cons o outs ih =>
    exact ih (fun q hq => hw q (List.mem_cons_of_mem _ hq)) (ha.merge (hw o (by simp)) _)

omit [PyEnv] in
theorem mergeAll_hasIssues (outs : List (Loc × Issues)) (acc : Issues) :
    (mergeAll acc outs).hasIssues = true ↔ acc.hasIssues = true ∨ ∃ o ∈ outs, o.2.hasIssues = true := by
  induction outs generalizing acc with
  | nil => simp [mergeAll]
  | cons o outs ih =>
    have : mergeAll acc (o :: outs) = mergeAll (acc.merge o.2 o.1) outs := rfl
    rw [this, ih, hasIssues_merge]
    simp [or_assoc]

omit [PyEnv] in
theorem mergeAll_isSome {outs : List (Loc × Issues)} {acc : Issues} {l : Loc}
    (h : (aget l acc.issues).isSome ∨ ∃ o ∈ outs, ∃ m ∈ o.2.issues.map (·.1), o.1 ++ m = l) :
    (aget l (mergeAll acc outs).issues).isSome := by
  induction outs generalizing acc with
  | nil => simpa [mergeAll] using h
  | cons o outs ih =>
    have : mergeAll acc (o :: outs) = mergeAll (acc.merge o.2 o.1) outs := rfl
    rw [this]
    apply ih
    rcases h with h | ⟨o', ho, m, hm, e⟩
    · exact .inl ((issues_merge_isSome _ _ _ _).2 (.inl h))
    · rcases List.mem_cons.mp ho with rfl | ho
      · exact .inl ((issues_merge_isSome _ _ _ _).2 (.inr ⟨m, hm, e⟩))
      · exact .inr ⟨o', ho, m, hm, e⟩

/-- The loop over the top-level attributes, in closed form. -/
theorem processTop_spec {m : Mode} (as : List Attr) (data : Val) (done : List (Attr × Val))
    (d : List (Str × Val)) (lc : List (Str × Str)) (acc : Issues) (r : Val) (is : Issues)
    (hi : PInv done d lc) (hsub : ∀ a ∈ as, a.rep.sub = []) (hp : as.Pairwise Compat)
    (hc : ∀ p ∈ done, ∀ a ∈ as, Compat p.1 a)
    (h : processTop m as data (.cont d lc) acc = .ok (r, is)) :
    (∃ d' lc', r = .cont d' lc' ∧
      PInv (done ++ (as.filterMap (topOut m data)).map (fun o => (o.1, o.2.1))) d' lc') ∧
    is = mergeAll acc ((as.filterMap (topOut m data)).map (fun o => (o.1.topLoc, o.2.2))) ∧
    (∀ a ∈ as, ∃ x, data.getItem a.rep = .ok x ∧ (x.isMissing = false → ∃ o, a.process m x = .ok o)) := by
  induction as generalizing done d lc acc with
  | nil =>
    simp only [processTop] at h; cases h
    refine ⟨⟨d, lc, rfl, by simpa using hi⟩, rfl, by simp⟩
  | cons a as ih =>
    rw [List.pairwise_cons] at hp
    have hsub' : ∀ a ∈ as, a.rep.sub = [] := fun b hb => hsub b (List.mem_cons_of_mem _ hb)
    rw [processTop] at h
    split at h
    · cases h
    · rename_i hg
      obtain ⟨h1, h2, h3⟩ := ih done d lc acc hi hsub' hp.2
        (fun p hp b hb => hc p hp b (List.mem_cons_of_mem _ hb)) h
      have ho : topOut m data a = none := by simp [topOut, hg]
      rw [List.filterMap_cons_none ho]
      refine ⟨h1, h2, ?_⟩
      intro b hb
      rcases List.mem_cons.mp hb with rfl | hb
      · exact ⟨.missing, hg, by simp [Val.isMissing]⟩
      · exact h3 b hb
    · rename_i x hx hg
      split at h
      · cases h
      · rename_i y i hpr
        obtain ⟨d', lc', hset, hi'⟩ := hi.step a y (hsub a (by simp)) (fun p hp => hc p hp a (by simp))
        rw [hset] at h
        simp only at h
        have hm : x.isMissing = false := by cases x <;> first | exact absurd rfl hx | rfl
        obtain ⟨h1, h2, h3⟩ := ih (done ++ [(a, y)]) d' lc' _ hi' hsub' hp.2 (by
          intro p hpm b hb
          rcases List.mem_append.mp hpm with hpm | hpm
          · exact hc p hpm b (List.mem_cons_of_mem _ hb)
          · simp only [List.mem_singleton] at hpm; subst hpm
            exact hp.1 b hb) h
        rw [List.filterMap_cons_some (topOut_of hg hm hpr)]
        refine ⟨?_, ?_, ?_⟩
        · simpa using h1
        · rw [h2]; rfl
        · intro b hb
          rcases List.mem_cons.mp hb with rfl | hb
          · exact ⟨x, hg, fun _ => ⟨_, hpr⟩⟩
          · exact h3 b hb

/-- The loop raises only when reading the input or processing a value does. -/
theorem processTop_total {m : Mode} (as : List Attr) (data : Val) (done : List (Attr × Val))
    (d : List (Str × Val)) (lc : List (Str × Str)) (acc : Issues)
    (hi : PInv done d lc) (hsub : ∀ a ∈ as, a.rep.sub = []) (hp : as.Pairwise Compat)
    (hc : ∀ p ∈ done, ∀ a ∈ as, Compat p.1 a)
    (hok : ∀ a ∈ as, ∃ x, data.getItem a.rep = .ok x ∧ (x.isMissing = false → ∃ o, a.process m x = .ok o)) :
    ∃ o, processTop m as data (.cont d lc) acc = .ok o := by
  induction as generalizing done d lc acc with
  | nil => exact ⟨_, rfl⟩
  | cons a as ih =>
    rw [List.pairwise_cons] at hp
    have hsub' : ∀ a ∈ as, a.rep.sub = [] := fun b hb => hsub b (List.mem_cons_of_mem _ hb)
    have hok' := fun b (hb : b ∈ as) => hok b (List.mem_cons_of_mem _ hb)
    obtain ⟨x, hx, hpx⟩ := hok a (by simp)
    rw [processTop, hx]
    by_cases hm : x = .missing
    · subst hm
      exact ih done d lc acc hi hsub' hp.2 (fun p hp b hb => hc p hp b (List.mem_cons_of_mem _ hb)) hok'
    · have hmf : x.isMissing = false := by cases x <;> first | exact absurd rfl hm | rfl
      obtain ⟨⟨y, i⟩, hpr⟩ := hpx hmf
      obtain ⟨d', lc', hset, hi'⟩ := hi.step a y (hsub a (by simp)) (fun p hp => hc p hp a (by simp))
      have := ih (done ++ [(a, y)]) d' lc' (acc.merge i a.topLoc) hi' hsub' hp.2 (by
          intro p hpm b hb
          rcases List.mem_append.mp hpm with hpm | hpm
          · exact hc p hpm b (List.mem_cons_of_mem _ hb)
          · simp only [List.mem_singleton] at hpm; subst hpm
            exact hp.1 b hb) hok'
      cases x <;> first | exact absurd rfl hm | simpa [hpr, hset] using this

theorem Schema.WF.top_all {s : Schema} (h : s.WF) : ∀ a ∈ s.attrs.top, a ∈ s.attrs.all := by
  intro a ha
  rw [h.topAll] at ha
  exact (List.mem_filter.mp ha).1

/-- The attributes of a sane schema do not get into each other's way. -/
theorem Schema.WF.compat {s : Schema} (h : s.WF) : s.attrs.top.Pairwise Compat := by
  have hd := h.distinct
  rw [List.Nodup, List.pairwise_map] at hd
  refine hd.imp_of_mem ?_
  intro a b ha hb hne
  have hurn : ∀ {u v : Str}, u ∈ s.schemas → v ∈ s.schemas → lower u = lower v → u = v :=
    fun hu hv e => eq_of_map_nodup h.urns hu hv e
  have hsch : ∀ a ∈ s.attrs.top, a.rep.schema ∈ s.schemas := by
    intro a ha
    cases he : a.rep.ext with
    | false => rw [h.core a ha he]; simp [Schema.schemas]
    | true => exact List.mem_cons_of_mem _ (h.ext a ha he)
  refine ⟨?_, ?_, ?_, ?_⟩
  · intro h1 h2 e
    exact hne (by rw [h.core a ha h1, h.core b hb h2, e])
  · intro _ _
    exact h.noClash a (h.top_all a ha) _ (hsch b hb)
  · intro _ _ e
    exact h.noClash b (h.top_all b hb) _ (hsch a ha) e.symm
  · intro _ _ e
    have := hurn (hsch a ha) (hsch b hb) e
    refine ⟨this, ?_⟩
    intro e'
    exact hne (by rw [this, e'])

/-- Reading a core attribute from the built container. -/
theorem PInv.get_core {done data lc} (h : PInv done data lc) {a : Attr} (he : a.rep.ext = false)
    (hs : a.rep.sub = []) (hu : ∀ k ∈ data.map (·.1), lower k ≠ lower a.rep.schema) :
    (∀ y, (a, y) ∈ done → (Val.cont data lc).getItem a.rep = .ok y) ∧
    ((∀ k ∈ data.map (·.1), lower k ≠ lower a.rep.attr) → (Val.cont data lc).getItem a.rep = .ok .missing) := by
  rw [getItem_noKey (h.lc_none hu)]
  refine ⟨?_, ?_⟩
  · intro y hy
    have h1 := h.core _ hy he
    have hm : a.rep.attr ∈ data.map (·.1) := aget_isSome_iff.mp (by rw [h1]; rfl)
    rw [h.complete _ hm]
    simp only
    simp only at h1
    rw [h1, hs]; rfl
  · intro hn
    rw [h.lc_none hn]

/-- Reading an extension attribute from the built container. -/
theorem PInv.get_ext {done data lc} (h : PInv done data lc) {a : Attr} (he : a.rep.ext = true)
    (hs : a.rep.sub = []) {y : Val} (hy : (a, y) ∈ done)
    (hne : ∀ p ∈ done, p.1.rep.attr ≠ []) (hcore : ∀ p ∈ done, p.1.rep.ext = false → p.1.rep.attr ≠ a.rep.schema) :
    (Val.cont data lc).getItem a.rep = .ok y := by
  obtain ⟨d, l, h1, h2, h3⟩ := h.ext _ hy he
  simp only at h1 h3
  have hm : a.rep.schema ∈ data.map (·.1) := aget_isSome_iff.mp (by rw [h1]; rfl)
  simp only [Val.getItem, Val.getX, Bool.false_and, Bool.false_eq_true, if_false, h.complete _ hm, getAt_eq, h1]
  have hm' : a.rep.attr ∈ d.map (·.1) := aget_isSome_iff.mp (by rw [h3]; rfl)
  have h0 : aget (lower []) l = none := by
    apply h2.lc_none
    intro k hk e
    have hk0 : k = [] := (PyEnv.lower_eq_nil _).1 (by rw [e, (PyEnv.lower_eq_nil []).2 rfl])
    have hsome := aget_isSome_iff.mpr hk
    cases hg : aget k d with
    | none => rw [hg] at hsome; cases hsome
    | some v =>
      rcases h.keys _ _ h1 with ⟨p, hp, e1, e2, _⟩ | ⟨d', l', e, _, _, h4⟩
      · exact hcore p hp e1 e2
      · cases e
        obtain ⟨q, hq, _, _, e3, _⟩ := h4 k v hg
        exact hne q hq (by rw [e3, hk0])
  simp [h0, h2.complete _ hm', h3, hs]

end Scim
