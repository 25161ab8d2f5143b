import Verif.Lemmas.PatchTotality
import Verif.Props.ResponseTotality

/-! When the presence checks on the new values of a patch request raise. -/

namespace Scim
variable [PyEnv]
open Issues PatchA V

/-! ### The parsed operations -/

theorem toCont_plainly {kvs : List (Str × Val)} (hd : (kvs.map (·.1)).Nodup) (hne : ∀ p ∈ kvs, lower p.1 ≠ lower []) :
    (Val.toCont (.dict kvs)).Plainly := by
  refine ⟨convPairs kvs, lcOf (kvs.map (·.1)), by rw [Val.toCont], CInv.ofDict kvs hd, ?_⟩
  apply aget_lcOf_none
  intro k hk
  obtain ⟨p, hp, rfl⟩ := List.mem_map.mp hk
  exact hne p hp

theorem word_lower {w : Str} (hw : w ∈ [opWord, pathWord, valWord]) : lower w ≠ lower [] := by
  simp only [List.mem_cons, List.not_mem_nil, or_false] at hw
  rcases hw with rfl | rfl | rfl <;> exact lower_ne_ascii (by decide) (by decide) (by decide)

/-- What an operation without issues is parsed to. -/
theorem parseOne_shape {r : Schema} {t p value o : Val} (h : parseOne r t p value = .ok (o, {})) :
    (∃ pp, p = .obj (.path pp) ∧ o = Val.toCont (.dict [(opWord, .str removeWord), (pathWord, p)])) ∨
    (∃ w iw, (t = .str addWord ∨ t = .str replaceWord) ∧ parseValue r p value = .ok (w, iw) ∧
      o = Val.toCont (.dict [(opWord, t), (pathWord, p), (valWord, w)])) := by
  unfold parseOne at h
  split at h
  · rename_i ht
    rw [Bool.or_eq_true, isText_iff, isText_iff] at ht
    unfold parseAddReplace at h
    split at h
    · rename_i hh
      exfalso
      have := congrArg Prod.snd (Except.ok.inj h)
      have h2 := congrArg Issues.hasIssues this
      simp only at h2
      have h3 : (Issues.empty.merge (pathIssues r p) [.name pathWord]).hasIssues = false := h2
      rw [hasIssues_merge_false] at h3
      rw [h3.2] at hh
      cases hh
    · split at h
      · cases h
      · rename_i v iv hv
        exact .inr ⟨v, iv, ht, hv, (congrArg Prod.fst (Except.ok.inj h)).symm⟩
  · left
    unfold parseRemove at h
    split at h
    · rename_i pp
      refine ⟨pp, rfl, ?_⟩
      simp only at h
      repeat' split at h
      all_goals first
        | cases h; done
        | (have e := (congrArg Prod.fst (Except.ok.inj h)).symm
           have e2 := congrArg Prod.snd (Except.ok.inj h)
           first
            | (simp only at e; exact e)
            | (exfalso
               have h2 := congrArg Issues.hasIssues e2
               simp only at h2
               rename_i hh
               rw [hh] at h2
               cases h2))
    · cases h

theorem parseOne_plainly {r : Schema} {t p value o : Val} (h : parseOne r t p value = .ok (o, {})) : o.Plainly := by
  rcases parseOne_shape h with ⟨pp, -, rfl⟩ | ⟨w, iw, -, -, rfl⟩
  · apply toCont_plainly
    · simp only [List.map]; decide
    · intro q hq
      simp only [List.mem_cons, List.not_mem_nil, or_false] at hq
      rcases hq with rfl | rfl <;> exact word_lower (by simp)
  · apply toCont_plainly
    · simp only [List.map]; decide
    · intro q hq
      simp only [List.mem_cons, List.not_mem_nil, or_false] at hq
      rcases hq with rfl | rfl | rfl <;> exact word_lower (by simp)

/-! ### The items of new values -/

theorem items_total {a : Attr} (hs : PlainSubs a.subs) (hn : ∀ s ∈ a.subs, isAttrName s.rep.attr = true) (c : Checker) {x : Val}
    (hx : x.Plainly) : ∃ o, c.call x (Attributes.ofList a.subs) .request = .ok o := by
  have key : ∀ (as : List Attr), (∀ s ∈ as, s ∈ a.subs) → ∀ is, ∃ o, c.checkAll x (Attributes.ofList a.subs) .request as is = .ok o := by
    intro as
    induction as with
    | nil => intro _ is; exact ⟨is, by rw [Checker.checkAll]⟩
    | cons s as ih =>
      intro h is
      have hsm := h s (by simp)
      obtain ⟨a1, a2, a3⟩ := hs.plain s hsm
      obtain ⟨w, hw⟩ := Plainly.get hx s.rep.attr
      have e : s.rep = { attr := s.rep.attr } := by
        cases hsr : s.rep
        simp_all
      have hsub : s.rep.sub = [] := by rw [e]
      rw [← e] at hw
      rw [Checker.checkAll]
      unfold Checker.checkAttr
      simp only [hn s hsm, Bool.not_true, Bool.false_eq_true, if_false, hsub, List.isEmpty_nil, if_true, hw]
      cases w <;> exact ih (fun x hx => h x (List.mem_cons_of_mem _ hx)) _
  unfold Checker.call
  apply key
  rw [ofList_all (plainSubs_keys hs)]
  exact fun _ h => h

theorem itemsLoop_total {a : Attr} (hs : PlainSubs a.subs) (hn : ∀ s ∈ a.subs, isAttrName s.rep.attr = true) (c : Checker) (loc : Loc) :
    ∀ (xs : List Val) (j : Nat) (is : Issues), (∀ x ∈ xs, x.Plainly) →
      ∃ o, itemsLoop c (Attributes.ofList a.subs) loc j xs is = .ok o
  | [], _, is, _ => ⟨is, by rw [itemsLoop]⟩
  | x :: xs, j, is, h => by
    rw [itemsLoop]
    split
    · exact itemsLoop_total hs hn c loc xs _ _ (fun y hy => h y (List.mem_cons_of_mem _ hy))
    · obtain ⟨o, ho⟩ := items_total hs hn c (h x (by simp))
      rw [ho]
      exact itemsLoop_total hs hn c loc xs _ _ (fun y hy => h y (List.mem_cons_of_mem _ hy))

/-- The check of one attribute is carried out, or raises `TypeError`, whatever the issues so far. -/
theorem checkNewItems_exact {r : Schema} (hr : PatchSchema r) {a : Attr} (ha : a ∈ r.attrs.all) {w : Val}
    (hf : a.ManyParts → w.Fit true) (loc : Loc) (is : Issues) :
    (¬ (a.ManyParts ∧ w.NoList) → ∃ o, checkNewItems (some a) w loc is = .ok o) ∧
    (a.ManyParts ∧ w.NoList → checkNewItems (some a) w loc is = .error .typeError) := by
  unfold checkNewItems
  dsimp only
  by_cases hm : a.ManyParts
  · obtain ⟨m1, m2⟩ := id hm
    simp only [m1, m2, Bool.and_self, Bool.not_true, Bool.false_or]
    rcases hf hm with rfl | rfl | rfl | ⟨h, -⟩ | ⟨-, xs, rfl, hp⟩
    · exact ⟨fun h => absurd ⟨hm, rfl, by intro xs e; cases e⟩ h, fun _ => rfl⟩
    · exact ⟨fun _ => ⟨_, rfl⟩, fun h => by cases h.2.1⟩
    · exact ⟨fun h => absurd ⟨hm, rfl, by intro xs e; cases e⟩ h, fun _ => rfl⟩
    · cases h
    · refine ⟨fun _ => ?_, fun h => absurd rfl (h.2.2 xs)⟩
      simp only [Val.isMissing, Bool.false_eq_true, if_false]
      exact itemsLoop_total (hr.plain a ha) (hr.named a ha) _ loc xs 0 is hp
  · have : (!(a.isComplex && a.info.multi)) = true := by
      unfold Attr.ManyParts at hm
      cases h1 : a.isComplex <;> cases h2 : a.info.multi <;> simp_all
    rw [this]
    exact ⟨fun _ => ⟨_, rfl⟩, fun h => absurd h.1 hm⟩

theorem newItemsLoop_exact {r : Schema} (hr : PatchSchema r) {v : Val} (loc : Loc) : ∀ (as : List Attr) (is : Issues),
    (∀ a ∈ as, a ∈ r.attrs.all ∧ ∃ w, v.getItem a.rep = .ok w ∧ (a.ManyParts → w.Fit true)) →
    ((∀ a ∈ as, ∀ w, v.getItem a.rep = .ok w → ¬ (a.ManyParts ∧ w.NoList)) → ∃ o, newItemsLoop v loc as is = .ok o) ∧
    ((∃ a ∈ as, ∃ w, v.getItem a.rep = .ok w ∧ a.ManyParts ∧ w.NoList) → newItemsLoop v loc as is = .error .typeError)
  | [], is, _ => ⟨fun _ => ⟨is, by rw [newItemsLoop]⟩, fun ⟨_, h, _⟩ => by cases h⟩
  | a :: as, is, h => by
    obtain ⟨ha, w, hw, hf⟩ := h a (by simp)
    have ih := fun is => newItemsLoop_exact hr loc as is (fun x hx => h x (List.mem_cons_of_mem _ hx))
    obtain ⟨k1, k2⟩ := checkNewItems_exact hr ha hf (loc ++ a.rep.loc) is
    rw [newItemsLoop, hw]
    dsimp only
    by_cases hb : a.ManyParts ∧ w.NoList
    · rw [k2 hb]
      exact ⟨fun hall => absurd hb (hall a (by simp) w hw), fun _ => rfl⟩
    · obtain ⟨o, ho⟩ := k1 hb
      rw [ho]
      refine ⟨fun hall => (ih o).1 (fun x hx => hall x (List.mem_cons_of_mem _ hx)), ?_⟩
      rintro ⟨b, hbm, w', hw', hbad⟩
      rcases List.mem_cons.mp hbm with rfl | hbm
      · rw [hw] at hw'; cases hw'; exact absurd hbad hb
      · exact (ih o).2 ⟨b, hbm, w', hw', hbad⟩

/-! ### One operation -/

theorem convVal_fit {m : Bool} {w : Val} (h : w.Fit m) : convVal w = w := by
  have key : ∀ xs : List Val, (∀ x ∈ xs, x.Plainly) → convItems xs = xs := by
    intro xs
    induction xs with
    | nil => intro _; rw [convItems]
    | cons x xs ih =>
      intro h
      obtain ⟨d, l, rfl, -⟩ := h x (by simp)
      rw [convItems, ih (fun y hy => h y (List.mem_cons_of_mem _ hy))]
      intro kvs e
      cases e
  rcases h with rfl | rfl | rfl | ⟨-, d, l, rfl, -⟩ | ⟨-, xs, rfl, hp⟩
  · rw [convVal] <;> simp
  · rw [convVal] <;> simp
  · rw [convVal] <;> simp [Val.null]
  · rw [convVal] <;> simp
  · rw [convVal, key xs hp]

theorem process_other {m : Mode} {s : Schema} {v y : Val} {is : Issues} (hv : (v.isCont || v.isDict) = false)
    (h : s.process m v = .ok (y, is)) : y = .invalid := by
  unfold Schema.process at h
  rw [hv] at h
  split at h
  · cases h; rfl
  · simp only [Bool.not_false, if_true] at h
    cases h; rfl

theorem readOnlyLoop_reads {b : Val} : ∀ (as : List Attr) (is o : Issues), readOnlyLoop b as is = .ok o →
    ∀ a ∈ as, ∃ x, b.getItem a.rep = .ok x
  | [], _, _, _ => by simp
  | a :: as, is, o, h => by
    rw [readOnlyLoop] at h
    split at h
    · cases h
    · rename_i v hv
      intro x hx
      rcases List.mem_cons.mp hx with rfl | hx
      · exact ⟨v, hv⟩
      · exact readOnlyLoop_reads as _ o h x hx

theorem ManyParts.top {r : Schema} (hr : PatchSchema r) {a : Attr} (ha : a ∈ r.attrs.all) (hm : a.ManyParts) : a ∈ r.attrs.top := by
  rw [hr.wf.topAll]
  refine List.mem_filter.mpr ⟨ha, ?_⟩
  apply Classical.byContradiction
  intro hn
  have := hr.flat a ha (by simpa using hn)
  rw [hm.1] at this
  cases this

/-- The new value of an update without path. -/
theorem parseValue_object {r : Schema} (hr : PatchSchema r) {p value w : Val} {iw : Issues} (hp : p.isNoneOrMissing = true)
    (h : parseValue r p value = .ok (w, iw)) : convVal w = w ∧
    ∀ a ∈ r.attrs.all, a ∈ r.attrs.all ∧ ∃ x, w.getItem a.rep = .ok x ∧ (a.ManyParts → x.Fit true) := by
  have h' : ∃ d is, r.parse value = .ok (d, is) ∧ w = d ∧
      ∃ o, readOnlyLoop d r.attrs.all (((is.pop schemasLoc 27).pop schemasLoc 28).pop schemasLoc 29) = .ok o := by
    unfold parseValue at h
    split at h
    · cases hp
    · rw [hp] at h
      simp only [if_true] at h
      split at h
      · cases h
      · rename_i d is hd
        split at h
        · cases h
        · rename_i o ho
          cases h
          exact ⟨_, is, hd, rfl, _, ho⟩
  obtain ⟨d, is, hd, rfl, o, ho⟩ := h'
  have hreads := readOnlyLoop_reads _ _ _ ho
  cases hobj : (value.isCont || value.isDict) with
  | false =>
    have := process_other hobj hd
    subst this
    refine ⟨by rw [convVal] <;> simp, fun a ha => ?_⟩
    obtain ⟨x, hx⟩ := hreads a ha
    simp [Val.getItem, Val.getX] at hx
  | true =>
    obtain ⟨dd, lc, rfl, hf⟩ := process_fine hr.wf hr.noShadow (fun a ha _ => hr.top ha) hobj hd
    refine ⟨by rw [convVal] <;> simp, fun a ha => ⟨ha, ?_⟩⟩
    obtain ⟨x, hx⟩ := hreads a ha
    refine ⟨x, hx, fun hm => ?_⟩
    have := hf.fit hr.wf (ManyParts.top hr ha hm) hm.1 hx
    rwa [hm.2] at this

theorem eqv_sub {x y : AttrRep} (h : x.eqv y = true) : lower x.sub = lower y.sub := by
  unfold AttrRep.eqv at h
  simp at h
  exact h.2.2

/-- The new value of an update with a path. -/
theorem parseValue_path {r : Schema} (hr : PatchSchema r) {pp : PatchPath} (hok : pp.Ok) {a : Attr} (hst : pp.stands r = some a)
    (hm : a.ManyParts) {value w : Val} {iw : Issues} (h : parseValue r (.obj (.path pp)) value = .ok (w, iw)) : w.Fit true := by
  have ha : a ∈ r.attrs.all := stands_mem hst
  have hsub : a.rep.sub = [] := hr.wf.sub a (ManyParts.top hr ha hm)
  unfold PatchPath.stands at hst
  cases hs : pp.subRep with
  | some s =>
    exfalso
    rw [hs] at hst
    dsimp only at hst
    have h1 := (hok.sub s hs).1
    unfold Attributes.get findAttr at hst
    have hq : a.rep.eqv s = true := List.find?_some (p := fun a : Attr => a.rep.eqv s) hst
    have h2 := eqv_sub hq
    rw [hsub] at h2
    rw [lower_nil] at h2
    exact h1 ((PyEnv.lower_eq_nil _).mp h2.symm)
  | none =>
    rw [hs] at hst
    dsimp only at hst
    have h' : parseUpdate r pp.rep value = .ok (w, iw) := by
      unfold parseValue at h
      dsimp only at h
      rw [hs] at h
      cases hf : pp.filter <;> rw [hf] at h <;> exact h
    unfold parseUpdate at h'
    rw [hst] at h'
    dsimp only at h'
    split at h'
    · cases h'; exact .inl rfl
    · split at h'
      · cases h'
      · rename_i parsed is hproc
        have hfit : parsed.Fit true := by
          have hstd := standardAll_iff.mp hr.standard a ha
          cases a with
          | simple i => cases hm.1
          | complex info subs ps ds =>
            have := complex_fit hstd hproc
            have hmm : info.multi = true := hm.2
            rwa [hmm] at this
        have hne : (a.isComplex && !a.info.multi) = false := by rw [hm.1, hm.2]; rfl
        rw [hne] at h'
        split at h'
        · cases h'; exact hfit
        · cases h'; exact hfit

theorem op_exact {r : Schema} (hr : PatchSchema r) {x t p value o : Val} (hin : OpInput x t p value)
    (h : parseOne r t p value = .ok (o, {})) {op val pa : Val} (h1 : o.getItem { attr := opWord } = .ok op)
    (h2 : o.getItem { attr := valWord } = .ok val) (h3 : o.getItem { attr := pathWord } = .ok pa) (hg : GoodPath r pa)
    (i : Nat) (is : Issues) :
    (¬ (Sets o ∧ BadItems r o) → ∃ res, patchOne r i op val pa is = .ok res) ∧
    (Sets o ∧ BadItems r o → patchOne r i op val pa is = .error .typeError) := by
  rcases parseOne_shape h with ⟨pp, rfl, e⟩ | ⟨w, iw, ht, hv, e⟩
  · have hop : o.getItem { attr := opWord } = .ok (convVal (.str removeWord)) := by
      rw [e]; exact toCont_read words_nodup' (by simp [opWord, pathWord]) rfl
    rw [h1] at hop
    have : op = .str removeWord := by
      rw [Except.ok.inj hop, convVal] <;> simp [Val.str]
    subst this
    have hnot : ¬ Sets o := by
      rintro ⟨t', ht', hne⟩
      rw [h1] at ht'
      cases ht'
      exact hne rfl
    refine ⟨fun _ => ⟨is, ?_⟩, fun hh => absurd hh.1 hnot⟩
    unfold patchOne
    rw [if_pos (isText_iff.mpr rfl)]
  · have hwn : ∀ q ∈ [(opWord, t), (pathWord, p), (valWord, w)], q.1 ≠ [] := by simp [opWord, pathWord, valWord]
    have r1 : op = t := by
      have : o.getItem { attr := opWord } = .ok (convVal t) := by rw [e]; exact toCont_read words_nodup hwn rfl
      rw [h1] at this
      rw [Except.ok.inj this]
      rcases ht with rfl | rfl <;> (rw [convVal] <;> simp [Val.str])
    have r2 : val = convVal w := by
      have : o.getItem { attr := valWord } = .ok (convVal w) := by rw [e]; exact toCont_read words_nodup hwn rfl
      rw [h2] at this
      exact Except.ok.inj this
    have r3 : pa = convVal p := by
      have : o.getItem { attr := pathWord } = .ok (convVal p) := by rw [e]; exact toCont_read words_nodup hwn rfl
      rw [h3] at this
      exact Except.ok.inj this
    have hnr : op.isText removeWord = false := by
      rw [r1]
      rcases ht with rfl | rfl <;> decide
    have hsets : Sets o := ⟨op, h1, fun e => by rw [e] at hnr; exact absurd hnr (by decide)⟩
    unfold patchOne
    rw [hnr]
    simp only [Bool.false_eq_true, if_false]
    rcases hin.pth with ⟨-, hpn⟩ | ⟨s, pp, hs, hq, rfl⟩
    · have hpa : pa = p := by
        rw [r3]
        cases p <;> first | (rw [convVal] <;> simp; done) | (simp [Val.isNoneOrMissing] at hpn)
      subst hpa
      obtain ⟨hcw, hread⟩ := parseValue_object hr hpn hv
      rw [hcw] at r2
      subst r2
      rw [hpn]
      simp only [if_true]
      obtain ⟨k1, k2⟩ := newItemsLoop_exact hr (v := val)
        (bodyLoc ++ [.name opsWord, .idx i, .name valWord]) r.attrs.all is hread
      constructor
      · intro hnb
        apply k1
        intro a ha w' hw' hbad
        exact hnb ⟨hsets, .object h3 hpn h2 ha hbad.1 hw' hbad.2⟩
      · rintro ⟨-, hb⟩
        apply k2
        cases hb with
        | path d1 d2 d3 d4 d5 =>
          rw [h3] at d1
          cases d1
          cases hpn
        | object d1 d2 d3 d4 d5 d6 d7 =>
          rw [h2] at d3
          cases d3
          exact ⟨_, d4, _, d6, d5, d7⟩
    · have hpa : pa = .obj (.path pp) := by rw [r3, convVal] <;> simp
      subst hpa
      simp only [Val.isNoneOrMissing, Bool.false_eq_true, if_false]
      obtain ⟨hf, hd⟩ := hg pp rfl
      obtain ⟨fr, e1, e2⟩ := getByPath_stands hf hd
      rw [e1]
      dsimp only
      rw [e2]
      have hok := (C62_consistent s pp _ hq).1
      cases hst : pp.stands r with
      | none =>
        refine ⟨fun _ => ⟨_, rfl⟩, ?_⟩
        rintro ⟨-, hb⟩
        cases hb with
        | path d1 d2 d3 d4 d5 =>
          rw [h3] at d1
          cases d1
          rw [hst] at d2
          cases d2
        | object d1 d2 =>
          rw [h3] at d1
          cases d1
          cases d2
      | some a =>
        have hfit : a.ManyParts → val.Fit true := by
          intro hm
          have := parseValue_path hr hok hst hm hv
          rw [r2, convVal_fit this]
          exact this
        obtain ⟨k1, k2⟩ := checkNewItems_exact hr (stands_mem hst) hfit
          (bodyLoc ++ [.name opsWord, .idx i, .name valWord]) is
        constructor
        · intro hnb
          apply k1
          intro hbad
          exact hnb ⟨hsets, .path h3 hst hbad.1 h2 hbad.2⟩
        · rintro ⟨-, hb⟩
          apply k2
          cases hb with
          | path d1 d2 d3 d4 d5 =>
            rw [h3] at d1
            cases d1
            rw [hst] at d2
            cases d2
            rw [h2] at d4
            cases d4
            exact ⟨d3, d5⟩
          | object d1 d2 =>
            rw [h3] at d1
            cases d1
            cases d2

/-- The loop over the operations. -/
theorem patchLoop_exact {r : Schema} {bad : Nat → Prop} : ∀ (i : Nat) (ops vs ps : List Val) (is : Issues),
    vs.length = ops.length → ps.length = ops.length →
    (∀ (k : Nat) (op v p : Val), ops[k]? = some op → vs[k]? = some v → ps[k]? = some p → ∀ is,
      (¬ bad (i + k) → ∃ o, patchOne r (i + k) op v p is = .ok o) ∧ (bad (i + k) → patchOne r (i + k) op v p is = .error .typeError)) →
    ((∀ k, k < ops.length → ¬ bad (i + k)) → ∃ o, patchLoop r i ops vs ps is = .ok o) ∧
    ((∃ k, k < ops.length ∧ bad (i + k)) → patchLoop r i ops vs ps is = .error .typeError)
  | i, [], vs, ps, is, _, _, _ => ⟨fun _ => ⟨is, by rw [patchLoop]; simp⟩, fun ⟨k, hk, _⟩ => by simp at hk⟩
  | i, op :: ops, [], ps, is, h, _, _ => by simp at h
  | i, op :: ops, v :: vs, [], is, _, h, _ => by simp at h
  | i, op :: ops, v :: vs, p :: ps, is, hv, hp, hall => by
    simp only [List.length_cons, Nat.add_right_cancel_iff] at hv hp
    obtain ⟨k1, k2⟩ := hall 0 op v p rfl rfl rfl is
    rw [Nat.add_zero] at k1 k2
    have ih := fun is => patchLoop_exact (r := r) (bad := bad) (i + 1) ops vs ps is hv hp (by
      intro k op' v' p' a1 a2 a3 is'
      have := hall (k + 1) op' v' p' (by simpa using a1) (by simpa using a2) (by simpa using a3) is'
      rwa [show i + (k + 1) = i + 1 + k by omega] at this)
    rw [patchLoop]
    by_cases hb : bad i
    · rw [k2 hb]
      exact ⟨fun h => absurd hb (h 0 (by simp)), fun _ => rfl⟩
    · obtain ⟨o, ho⟩ := k1 hb
      rw [ho]
      dsimp only
      refine ⟨fun h => (ih o).1 (fun k hk => ?_), ?_⟩
      · have := h (k + 1) (by simpa using hk)
        rwa [show i + (k + 1) = i + 1 + k by omega] at this
      · rintro ⟨k, hk, hbk⟩
        cases k with
        | zero => exact absurd hbk hb
        | succ k =>
          refine (ih o).2 ⟨k, by simpa using hk, ?_⟩
          rwa [show i + 1 + k = i + (k + 1) by omega]

/-! ### The request -/

theorem patch_owned : PatchA.schema.Owned := by
  apply owned_of patch_wf
  have hall : PatchA.schema.attrs.all = (schemasAttr :: [operations]).flatMap (bindWithSubs urn false) := by
    obtain ⟨_, h2⟩ := bind_facts (urn := urn) (ext := false) (declarations_of patchNames_eq (by decide +kernel))
    exact ofList_all (keys_of_lnames h2)
  rw [hall]
  exact owned_bind (named_of patchNames_eq (by decide +kernel))

theorem parse_stored {r : Schema} {data v : Val} {is : Issues} (hobj : (data.isCont || data.isDict) = true)
    (h : PatchA.parse r data = .ok (v, is)) : ∃ d lc, v = .cont d lc ∧ CInv d lc ∧ aget (lower urn) lc = none := by
  unfold PatchA.parse at h
  split at h
  · cases h
  rename_i d0 is0 hd
  obtain ⟨-, ⟨dd, lc, rfl, hnk⟩, -⟩ := process_spec patch_wf hobj hd
  have hnk' : aget (lower urn) lc = none := hnk
  have hi : CInv dd lc := by
    obtain ⟨d', lc', e, hi⟩ := (schema_process_reach hobj hd).inv
    cases e
    exact hi
  split at h
  · cases h
    exact ⟨_, _, rfl, hi, hnk'⟩
  · repeat' split at h
    all_goals first
      | cases h; done
      | (rename_i v' hset
         cases h
         have e : ∀ out, (Val.cont dd lc).setItem { attr := opsWord } (.list out) =
             .ok (.cont (aset opsWord (.list out) dd) (aset (lower opsWord) opsWord lc)) := by
           intro out
           simp [Val.setItem, Val.setLocal, Val.setPlain]
         rw [e] at hset
         cases hset
         refine ⟨_, _, rfl, hi.setPlain _ _, ?_⟩
         rw [aget_aset, if_neg (lower_ne_ascii (by decide) (by decide) (by decide))]
         exact hnk')

theorem patch_lists_total {v : Val} {out : List Val} (ho : v.getItem { schema := urn, attr := opsWord } = .ok (.list out))
    (hpl : ∀ o ∈ out, o.Plainly) {w : Str} (hw : isAttrName w = true) (hne : w ≠ []) :
    ∃ ys, v.getItem (subRep w) = .ok (.list ys) := by
  obtain ⟨ys, hy⟩ := getMap_total (q := w) out hpl
  refine ⟨ys, ?_⟩
  have := getX_sub v { schema := urn, attr := opsWord } rfl out w hne ho
  unfold Val.getItem subRep
  rw [this, Val.getX]
  simp only [hw, Bool.not_true, Bool.and_false, Bool.false_eq_true, if_false, hy]

theorem top_get {d : List (Str × Val)} {lc : List (Str × Str)} (hi : CInv d lc) (hn : aget (lower urn) lc = none) {a : Attr}
    (ha : a ∈ PatchA.schema.attrs.top) : ∃ x, (Val.cont d lc).getItem a.rep = .ok x := by
  have hrep : a.rep.schema = urn ∧ a.rep.sub = [] := by
    rcases patch_top a ha with rfl | rfl
    · rw [bindAttr_rep]; exact ⟨rfl, rfl⟩
    · rw [ops_rep]; exact ⟨rfl, rfl⟩
  rw [getItem_noKey (by rw [hrep.1]; exact hn), hrep.2]
  cases hk : aget (lower a.rep.attr) lc with
  | none => exact ⟨_, rfl⟩
  | some k =>
    obtain ⟨x, hx⟩ := Option.isSome_iff_exists.mp (aget_isSome_iff.mpr (hi.sound _ _ hk).2)
    dsimp only
    rw [hx]
    exact ⟨x, rfl⟩

/-- The presence check of the parsed request. -/
theorem patch_checked {d : List (Str × Val)} {lc : List (Str × Str)} (hi : CInv d lc) (hn : aget (lower urn) lc = none)
    {out : List Val} (ho : (Val.cont d lc).getItem { schema := urn, attr := opsWord } = .ok (.list out))
    (hpl : ∀ o ∈ out, o.Plainly) (c : Checker) : ∃ ip, c.call (.cont d lc) PatchA.schema.attrs .request = .ok ip := by
  have htop : ∀ t ∈ PatchA.schema.attrs.top, t.isComplex = true → t = opsA := by
    intro t ht hc
    rcases patch_top t ht with rfl | rfl
    · cases hc
    · rfl
  refine checker_total_of patch_wf patch_owned ?_ ?_ c .request
  · intro a ha
    by_cases hsub : a.rep.sub = []
    · exact top_get hi hn (by rw [patch_wf.topAll]; exact List.mem_filter.mpr ⟨ha, by simp [hsub]⟩)
    · obtain ⟨t, ht, h1, h2, h3, -⟩ := patch_owned.parent patch_wf ha hsub
      have := htop t ht h1
      subst this
      rw [ops_rep] at h2 h3
      obtain ⟨ys, hy⟩ := patch_lists_total ho hpl (patch_owned.owner a ha hsub).1 hsub
      refine ⟨_, Eq.trans ?_ hy⟩
      have e1 : a.rep.schema = urn := h2.symm
      have e2 : a.rep.attr = opsWord := h3.symm
      rw [getItem_noKey (r := a.rep) (by rw [e1]; exact hn), getItem_noKey (r := subRep a.rep.sub) hn, e2]
      rfl
  · intro t ht hc x hx
    have := htop t ht hc
    subst this
    rw [ops_rep, ho] at hx
    cases hx
    have hm : opsA.info.multi = true := by rw [opsA_eq]; rfl
    rw [hm]
    exact .inr (.inr (.inr (.inr ⟨rfl, out, rfl, hpl⟩)))

/-- With operations, the check of the request does not keep them from being looked at. -/
theorem patch_proceeds {query q v : Val} {iq ip : Issues} (hq : parseQuery query = .ok (q, iq))
    (hc : Checker.call {} v PatchA.schema.attrs .request = .ok ip) {out : List Val}
    (ho : v.getItem { schema := urn, attr := opsWord } = .ok (.list out)) (hne : out ≠ []) :
    (iq.merge (Issues.empty.merge ip bodyLoc)).canProceed [bodyLoc ++ [.name opsWord]] = true := by
  have hw : ip.WF := call_wf hc
  show ([bodyLoc ++ [.name opsWord]].all _) = true
  rw [List.all_cons, List.all_nil, Bool.and_true, canProceedAt_iff]
  intro l hl
  rw [← Option.not_isSome_iff_eq_none, stop_merge_isSome' (WF.empty.merge hw _)]
  rintro (h | ⟨m, hm, rfl⟩)
  · have hql : ∃ is : Issues, iq = Issues.empty.merge is queryLoc := by
      unfold parseQuery at hq
      split at hq
      · split at hq
        · cases hq
        · rename_i is _; cases hq; exact ⟨_, rfl⟩
      · cases hq; exact ⟨{}, rfl⟩
    obtain ⟨is, rfl⟩ := hql
    rw [stop_merge_isSome] at h
    rcases h with h | ⟨m, -, rfl⟩
    · cases h
    · obtain ⟨t, ht⟩ := hl
      have := congrArg List.head? ht
      exact absurd this (by simp [queryLoc, bodyLoc])
  · rw [List.nil_append] at hl
    rw [errorsAt_merge hw, show Issues.empty.errorsAt m = [] from rfl, List.nil_append] at hm
    split at hm
    · rename_i hp
      obtain ⟨k, rfl⟩ := hp
      rw [List.drop_left] at hm
      obtain ⟨e, he⟩ := List.exists_mem_of_ne_nil _ hm
      obtain ⟨a, ha, w, hobs, hcp⟩ := (call_errors _ _ _ _ _ hc k e).mp he
      rw [List.prefix_append_right_inj] at hl
      cases hobs with
      | top h1 h2 h3 =>
        have ha' : a ∈ PatchA.schema.attrs.top := by
          rw [patch_wf.topAll]; exact List.mem_filter.mpr ⟨ha, by simp [h1]⟩
        have hname : a.rep.attr = opsWord := by
          obtain ⟨t, ht⟩ := hl
          simp only [List.singleton_append, List.cons.injEq, LKey.name.injEq] at ht
          exact ht.1
        rcases patch_top a ha' with rfl | rfl
        · rw [bindAttr_rep] at hname
          exact absurd hname (by decide)
        · rw [ops_rep, ho] at h2
          cases h2
          obtain ⟨-, ⟨-, he, -⟩ | ⟨-, -, hd, -⟩⟩ := (checkPresence_errors _ _ _ _ _ _).mp hcp
          · rcases he with he | he | he | he
            · cases he
            · cases he
            · cases he; exact hne rfl
            · cases he
          · cases hd
      | sub => exact absurd hl.length_le (by simp)
      | null => exact absurd hl.length_le (by simp)
      | item => exact absurd hl.length_le (by simp)
    · exact hm rfl

end Scim
