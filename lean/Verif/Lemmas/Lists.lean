import Verif.Lemmas.Messages
import Verif.Spec.Validators

/-! List responses: what an accepted one went through. -/

namespace Scim
open Issues
variable [PyEnv]

theorem Issues.WF.blocked {is : Issues} (h : is.WF) {ls : List Loc} (hb : is.canProceed ls = false) : is.hasIssues = true := by
  cases hn : is.hasIssues with
  | true => rfl
  | false =>
    have : is = {} := eq_empty_of_noIssues h hn
    rw [this, canProceed_empty] at hb
    cases hb

/-- The value of an own attribute in a result without issues. -/
theorem clean_value {m : Mode} {s : Schema} (hs : s.WF) (hsane : SaneAll s.attrs.top) {data r : Val}
    (hobj : (data.isCont || data.isDict) = true) (h : s.process m data = .ok (r, {})) {a : Attr} (ha : a ∈ s.attrs.top)
    (he : a.rep.ext = false) (hns : a.rep.attr ≠ "schemas".toList) {v : Val} (hv : r.getItem a.rep = .ok v) :
    v = .missing ∨ ∃ x, a.process m x = .ok (v, {}) := by
  obtain ⟨htr, -, -⟩ := process_spec hs hobj h
  obtain ⟨hc, -⟩ := C82_locations m s hs hsane data r {} (by simpa using hobj) h
  obtain ⟨x, hx⟩ := htr.read a ha
  by_cases hxm : x.isMissing = true
  · have : x = .missing := by cases x <;> simp [Val.isMissing] at hxm; rfl
    subst this
    have := htr.absent a ha he hx
    rw [hv] at this
    cases this
    exact .inl rfl
  · have hxm : x.isMissing = false := by simpa using hxm
    obtain ⟨y, i, hp, hy⟩ := htr.present a ha x hx hxm
    obtain ⟨y', i', hp', hl⟩ := hc a ha x hx hxm
    rw [hp] at hp'; cases hp'
    rw [hv] at hy; cases hy
    right
    refine ⟨x, ?_⟩
    rw [hp]
    have hw : i.WF := process_wf a (saneAll_iff.mp hsane a ha) hp
    have : i = {} := by
      apply eq_empty_of_noIssues hw
      cases hi : i.hasIssues with
      | false => rfl
      | true =>
        exfalso
        rw [hasIssues_iff_errors hw] at hi
        obtain ⟨l, hl'⟩ := hi
        rw [← hl l] at hl'
        · exact hl' rfl
        · unfold Attr.reportLoc
          rw [he]
          intro e
          simp at e
          exact hns e.1
    rw [this]

theorem integer_clean {m : Mode} {i : AttrInfo} (ht : i.type = .integer) (hmu : i.multi = false) (hp : i.procs m = [])
    (hc : i.canonical = none) {x v : Val} (h : (Attr.simple i).process m x = .ok (v, {})) :
    v = .null ∨ ∃ t, v.IsInt t := by
  rw [Attr.process, info_process_eq] at h
  split at h
  · rename_i hx
    cases h
    left
    cases x <;> simp [Val.isNone] at hx
    rename_i p
    cases p <;> simp [Val.isNone] at hx; rfl
  · simp only [AttrInfo.base, hmu, Bool.false_eq_true, if_false, AttrInfo.processOne, hp] at h
    right
    cases hcv : i.type.conv m x with
    | error e => rw [hcv] at h; cases h
    | ok o =>
      obtain ⟨z, j⟩ := o
      have hcan : i.isCanonical z = true := by
        unfold AttrInfo.isCanonical; rw [hc]; cases z <;> rfl
      rw [hcv] at h
      simp only [hcan, Bool.not_true, Bool.false_and, Bool.false_eq_true, if_false, runProcs, ite_self] at h
      rcases conv_dichotomy (by rw [ht]; simp) hcv with ⟨rfl, hj⟩ | ⟨rfl, hz⟩
      · exfalso
        have h2 : Issues.empty.merge j = {} := congrArg Prod.snd (Except.ok.inj h)
        have := (hasIssues_merge_false Issues.empty j []).mp (by rw [h2]; rfl)
        rw [hj.1] at this
        exact absurd this.2 (by simp)
      · have h1 : z = v := congrArg Prod.fst (Except.ok.inj h)
        subst h1
        have hcv' : integerConv x = .ok (z, {}) := by rw [ht] at hcv; cases m <;> exact hcv
        unfold integerConv at hcv'
        split at hcv'
        · split at hcv'
          · cases hcv'
          · split at hcv'
            · cases hcv'; exact ⟨_, .int _⟩
            · cases hcv'
        · cases hcv'; exact ⟨_, .int _⟩
        · cases hcv'; exact ⟨_, .bool _⟩
        · cases hcv'

/-! ### ListResponse.dump -/

namespace ListA

theorem inferAll_length {schemas : List Schema} {xs : List Val} {ids} (h : inferAll schemas xs = .ok ids) :
    ids.length = xs.length := by
  induction xs generalizing ids with
  | nil => cases h; rfl
  | cons x xs ih =>
    unfold inferAll at h
    split at h
    · cases h
    · split at h
      · cases h
      · rename_i ts hts
        cases h
        simp [ih hts]

theorem schemasFor_length {schemas : List Schema} {xs : List Val} {ids} (h : schemasFor schemas xs = .ok ids) :
    ids.length = xs.length := by
  unfold schemasFor at h
  split at h
  · cases h; simp
  · exact inferAll_length h

theorem dumpLoop_spec {schemas : List Schema} (hall : ∀ s ∈ schemas, s.WF ∧ SaneAll s.attrs.top) {i : Nat} {xs : List Val}
    {ids : List (Option Nat)} {is is' : Issues} {ys : List Val} (hlen : ids.length = xs.length) (hw : is.WF)
    (h : dumpLoop schemas i xs ids is = .ok (ys, is')) :
    ys.length = xs.length ∧ is'.WF ∧ (is'.hasIssues = false → is.hasIssues = false ∧
      ∀ (k : Nat) (x : Val) (t : Option Nat), xs[k]? = some x → ids[k]? = some t →
        ∃ n s y, t = some n ∧ schemas[n]? = some s ∧ s.dump x = .ok (y, {}) ∧ ys[k]? = some y) := by
  induction xs generalizing i ids is ys with
  | nil =>
    cases ids with
    | nil => cases h; exact ⟨rfl, hw, fun hn => ⟨hn, by simp⟩⟩
    | cons => simp at hlen
  | cons x xs ih =>
    cases ids with
    | nil => simp at hlen
    | cons t ts =>
      simp only [List.length_cons, Nat.add_right_cancel_iff] at hlen
      rw [dumpLoop] at h
      split at h
      · split at h
        · cases h
        · rename_i ys' is'' hd
          cases h
          obtain ⟨h1, h2, h3⟩ := ih hlen (hw.add _ _ _) hd
          refine ⟨by simp [h1], h2, fun hn => ?_⟩
          have := (h3 hn).1
          simp [hasIssues_add] at this
      · rename_i s hs
        split at h
        · cases h
        · rename_i y is1 hdump
          split at h
          · cases h
          · rename_i ys' is'' hd
            cases h
            obtain ⟨n, rfl, hn⟩ : ∃ n, t = some n ∧ schemas[n]? = some s := by
              cases t with
              | none => cases hs
              | some n => exact ⟨n, rfl, hs⟩
            obtain ⟨hsw, hss⟩ := hall s (List.mem_of_getElem? hn)
            have hw1 := schema_dump_wf hsw hss hdump
            obtain ⟨h1, h2, h3⟩ := ih hlen (hw.merge hw1 _) hd
            refine ⟨by simp [h1], h2, fun hni => ?_⟩
            obtain ⟨h4, h5⟩ := h3 hni
            rw [hasIssues_merge_false] at h4
            refine ⟨h4.1, ?_⟩
            intro k x' t' hx ht
            cases k with
            | zero =>
              simp only [List.getElem?_cons_zero, Option.some.injEq] at hx ht
              subst hx; subst ht
              refine ⟨n, s, y, rfl, hn, ?_, rfl⟩
              rw [hdump, eq_empty_of_noIssues hw1 h4.2]
            | succ k =>
              simp only [List.getElem?_cons_succ] at hx ht ⊢
              exact h5 k x' t' hx ht

theorem validateItems_wf (n : Nat) (v : Val) : (validateItems n v).WF := by
  unfold validateItems
  split
  · split
    · exact WF.empty
    · exact (WF.empty.add _ _ _).add _ _ _
  · dsimp only
    split <;> split
    · exact WF.empty
    · exact (WF.empty.add _ _ _).add _ _ _
    · exact WF.empty
    · exact (WF.empty.add _ _ _).add _ _ _
  · exact WF.empty

theorem validateItems_clean {n : Nat} {v : Val} (h : (validateItems n v).hasIssues = false) {i : Int} (hi : v.IsInt i) :
    i = n := by
  cases hi with
  | int t =>
    simp only [validateItems] at h
    split at h
    · assumption
    · simp [hasIssues_add] at h
  | bool b =>
    cases b <;> simp only [validateItems] at h
    all_goals
      simp only [Bool.false_eq_true, if_false, if_true] at h ⊢
      split at h
      · omega
      · simp [hasIssues_add] at h

/-- What `dump` did with the list of resources. -/
structure Resources (schemas : List Schema) (b : Val) (xs ys : List Val) : Prop where
  length : ys.length = xs.length
  items : ∀ v i, b.getItem (rep itemsWord) = .ok v → v.IsInt i → i = xs.length
  ids : ∃ ids, schemasFor schemas xs = .ok ids ∧
    ∀ (k : Nat) (x : Val) (t : Option Nat), xs[k]? = some x → ids[k]? = some t →
        ∃ n s y, t = some n ∧ schemas[n]? = some s ∧ s.dump x = .ok (y, {}) ∧ ys[k]? = some y

theorem checkItems_split {data : Val} {n : Nat} {is r : Issues} (hw : is.WF) (h : checkItems data n is = .ok r) :
    r.WF ∧ (r.hasIssues = false → is.hasIssues = false ∧
      ∃ v, data.getItem (rep itemsWord) = .ok v ∧ (validateItems n v).hasIssues = false) := by
  unfold checkItems at h
  split at h
  · split at h
    · cases h
    · rename_i v hv
      cases h
      refine ⟨hw.merge (validateItems_wf _ _) _, fun hn => ?_⟩
      rw [hasIssues_merge_false] at hn
      exact ⟨hn.1, v, hv, hn.2⟩
  · rename_i hc
    cases h
    refine ⟨hw, fun hn => ?_⟩
    rw [hw.blocked (by simpa using hc)] at hn
    cases hn

theorem dump_spec {schemas : List Schema} (hall : ∀ s ∈ schemas, s.WF ∧ SaneAll s.attrs.top) {data r : Val} {is : Issues}
    (h : dump schemas data = .ok (r, is)) :
    is.WF ∧ (is.hasIssues = false → (data.isCont || data.isDict) = true ∧ ∃ d0 lc0 d lc,
      schema.process .dump data = .ok (.cont d0 lc0, {}) ∧ r = .cont d lc ∧ CoreView schema d0 lc0 ∧ CoreView schema d lc ∧
      (∀ k, k ≠ resourcesWord → aget k d = aget k d0) ∧
      ((aget resourcesWord d).getD .missing = .missing ∨
        ∃ xs ys, aget resourcesWord d0 = some (.list xs) ∧ aget resourcesWord d = some (.list ys) ∧
          Resources schemas (.cont d lc) xs ys)) := by
  unfold dump at h
  split at h
  · cases h
  rename_i r0 is0 hd
  have hw0 := schema_dump_wf wf sane hd
  have hclean : is0.hasIssues = false → (data.isCont || data.isDict) = true ∧ ∃ d0 lc0,
      schema.process .dump data = .ok (.cont d0 lc0, {}) ∧ r0 = .cont d0 lc0 ∧ CoreView schema d0 lc0 := by
    intro hn
    obtain ⟨hobj, -, hp⟩ := dump_noIssues hd hn
    obtain ⟨d0, lc0, rfl, hv⟩ := process_view wf hobj hp
    rw [eq_empty_of_noIssues hw0 hn] at hp
    exact ⟨hobj, d0, lc0, hp, rfl, hv⟩
  split at h
  · rename_i hc
    cases h
    refine ⟨hw0, fun hn => ?_⟩
    rw [hw0.blocked (ls := []) (by simpa using hc)] at hn
    cases hn
  split at h
  · cases h
  · rename_i hg
    cases h
    refine ⟨hw0, fun hn => ?_⟩
    obtain ⟨hobj, d0, lc0, hp, rfl, hv⟩ := hclean hn
    refine ⟨hobj, d0, lc0, d0, lc0, hp, rfl, hv, hv, fun _ _ => rfl, .inl ?_⟩
    have := hv.get wf resources_mem (by rw [resources_rep]; rfl)
    rw [resources_rep, hg] at this
    exact (Except.ok.inj this).symm
  · rename_i xs hg
    unfold dumpList at h
    split at h
    · cases h
    rename_i is1 hci
    obtain ⟨hw1, hci⟩ := checkItems_split hw0 hci
    split at h
    · cases h
    rename_i ids hids
    split at h
    · cases h
    rename_i ys is2 hloop
    obtain ⟨hl, hw2, hloop⟩ := dumpLoop_spec hall (schemasFor_length hids) hw1 hloop
    split at h
    · cases h
    rename_i r' hset
    cases h
    refine ⟨hw2, fun hn => ?_⟩
    obtain ⟨hn1, hk⟩ := hloop hn
    obtain ⟨hn0, v, hv, hvi⟩ := hci hn1
    obtain ⟨hobj, d0, lc0, hp, rfl, hv0⟩ := hclean hn0
    obtain ⟨lc', hset', hv1⟩ := hv0.set wf resources_mem (by rw [resources_rep]; rfl) (.list ys)
    rw [resources_rep, hset] at hset'
    cases hset'
    have hne : ∀ k, k ≠ resourcesWord → aget k (aset resourcesWord (.list ys) d0) = aget k d0 := fun k hk => by
      rw [aget_aset, if_neg (fun e => hk e.symm)]
    rw [resources_rep] at hv1
    have hg' := hv0.get wf resources_mem (by rw [resources_rep]; rfl)
    rw [resources_rep, hg] at hg'
    refine ⟨hobj, d0, lc0, _, _, hp, rfl, hv0, hv1, hne, .inr ⟨xs, ys, ?_, aget_aset_self _ _ _, hl, ?_, ids, hids, hk⟩⟩
    · simp only [Except.ok.injEq] at hg'
      cases ha : aget resourcesWord d0 with
      | none => rw [show (rep resourcesWord).attr = resourcesWord from rfl, ha] at hg'; cases hg'
      | some w => rw [show (rep resourcesWord).attr = resourcesWord from rfl, ha] at hg'; rw [hg']; rfl
    · intro w i hw hi
      have e1 := hv1.get wf items_mem (by rw [items_rep]; rfl)
      have e0 := hv0.get wf items_mem (by rw [items_rep]; rfl)
      rw [items_rep] at e0 e1
      rw [show (rep itemsWord).attr = itemsWord from rfl] at e0 e1
      rw [show (rep resourcesWord).attr = resourcesWord from rfl] at *
      rw [hne itemsWord (by decide), ← e0, hw, hv] at e1
      cases e1
      exact validateItems_clean hvi hi
  · rename_i hg _ _
    cases h
    refine ⟨hw0.add _ _ _, fun hn => ?_⟩
    simp [hasIssues_add] at hn

end ListA
end Scim
