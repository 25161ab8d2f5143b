import Verif.Lemmas.PatchBody

/-! # Patch requests: values without path -/

namespace Scim.PatchA
open Issues V Valid Declared
variable [PyEnv]

omit [PyEnv] in
theorem popLoop_keeps {code : Nat} : ∀ (fuel i : Nat) (l : List VErr) {e : VErr}, e ∈ l → e.code ≠ code → e ∈ popLoop code fuel i l
  | 0, _, _, _, h, _ => h
  | n + 1, i, l, e, h, hc => by
    unfold popLoop
    split
    · exact h
    · rename_i x hx
      split
      · rename_i hxc
        refine popLoop_keeps n _ _ ?_ hc
        refine (List.mem_erase_of_ne ?_).mpr h
        rintro rfl
        exact hc hxc
      · exact popLoop_keeps n _ _ h hc

/-- The issues without those about the list of schemas. -/
def popped (is : Issues) : Issues := ((is.pop schemasLoc 27).pop schemasLoc 28).pop schemasLoc 29

omit [PyEnv] in
theorem popped_wf {is : Issues} (h : is.WF) : (popped is).WF := ((h.pop schemasLoc 27).pop schemasLoc 28).pop schemasLoc 29

omit [PyEnv] in
theorem popped_ne {is : Issues} {l : Loc} (h : l ≠ schemasLoc) : (popped is).errorsAt l = is.errorsAt l := by
  have hs : schemasLoc ≠ l := fun e => h e.symm
  unfold popped
  rw [errorsAt_pop_ne _ _ _ _ hs, errorsAt_pop_ne _ _ _ _ hs, errorsAt_pop_ne _ _ _ _ hs]

omit [PyEnv] in
theorem popped_self {is : Issues} (h : is.WF) : (popped is).errorsAt schemasLoc =
    (let l1 := popLoop 27 (is.errorsAt schemasLoc).length 0 (is.errorsAt schemasLoc)
     let l2 := popLoop 28 l1.length 0 l1
     popLoop 29 l2.length 0 l2) := by
  unfold popped
  rw [errorsAt_pop_self _ ((h.pop schemasLoc 27).pop schemasLoc 28).keys, errorsAt_pop_self _ (h.pop schemasLoc 27).keys,
    errorsAt_pop_self _ h.keys]

omit [PyEnv] in
theorem popped_keeps {is : Issues} (h : is.WF) {l : Loc} {e : VErr} (he : e ∈ is.errorsAt l)
    (hc : e.code ≠ 27 ∧ e.code ≠ 28 ∧ e.code ≠ 29) : (popped is).hasIssues = true := by
  rw [hasIssues_iff_errors (popped_wf h)]
  refine ⟨l, fun e' => ?_⟩
  by_cases hl : l = schemasLoc
  · subst hl
    rw [popped_self h] at e'
    dsimp only at e'
    refine List.ne_nil_of_mem (a := e) ?_ e'
    exact popLoop_keeps _ 0 _ (popLoop_keeps _ 0 _ (popLoop_keeps _ 0 _ he hc.1) hc.2.1) hc.2.2
  · rw [popped_ne hl] at e'
    exact List.ne_nil_of_mem he e'

omit [PyEnv] in
theorem popped_other {is : Issues} (h : is.WF) {l : Loc} (hl : l ≠ schemasLoc) (he : is.errorsAt l ≠ []) :
    (popped is).hasIssues = true := by
  rw [hasIssues_iff_errors (popped_wf h)]
  exact ⟨l, by rw [popped_ne hl]; exact he⟩

omit [PyEnv] in
theorem popLoops_nil {a b : Prop} [Decidable a] [Decidable b] {ks : List Str} (hk : ks.length ≤ 1) {l : List VErr}
    (hl : l = (if a then [⟨27, []⟩] else []) ++ (if b then [] else [⟨28, []⟩]) ++ ks.map (fun k => ⟨29, k⟩)) :
    (let l1 := popLoop 27 l.length 0 l
     let l2 := popLoop 28 l1.length 0 l1
     popLoop 29 l2.length 0 l2) = [] := by
  subst hl
  rcases ks with _ | ⟨k, _ | ⟨k', ks⟩⟩
  · by_cases ha : a <;> by_cases hb : b <;> simp [ha, hb, popLoop]
  · by_cases ha : a <;> by_cases hb : b <;> simp [ha, hb, popLoop]
  · simp at hk

omit [PyEnv] in
theorem short_of {l1 l2 : List Str} (hn : l1.Nodup) (hs : l1 ⊆ l2) (h2 : l2.length ≤ 1) : l1.length ≤ 1 := by
  rcases l1 with _ | ⟨a, _ | ⟨b, l⟩⟩
  · simp
  · simp
  · rcases l2 with _ | ⟨c, _ | ⟨d, l2⟩⟩
    · exact absurd (hs List.mem_cons_self) (by simp)
    · have e1 := List.mem_singleton.mp (hs List.mem_cons_self)
      have e2 := List.mem_singleton.mp (hs (List.mem_cons_of_mem _ List.mem_cons_self))
      simp [e1, e2] at hn
    · simp at h2

theorem schemas_other {x y : Val} {i : Issues} {rep : AttrRep} (hn : x.isNone = false) (hl : ∀ xs, x ≠ .list xs)
    (h : (bindAttr schemasAttr rep).process .parse x = .ok (y, i)) : i = blocking 2 := by
  change (AttrInfo.process .parse _ x) = _ at h
  rw [info_process_eq, hn] at h
  simp only [Bool.false_eq_true, if_false] at h
  unfold AttrInfo.base at h
  rw [if_pos rfl] at h
  cases x with
  | list xs => exact absurd rfl (hl xs)
  | _ => simp only at h; cases h; rfl

theorem popped_iff {r : Schema} (hP : Patchable r) {D : List (Str × Val)} (hD : Ordinary r D) {w : Val} {iw : Issues}
    (h : r.process .parse (.dict D) = .ok (w, iw)) : (popped iw).hasIssues = false ↔ ValidIn .parse r.attrs.top D := by
  have hs := hP.proper.wf
  have hsane := hP.proper.sane
  have hu := hP.proper.usual .parse
  have hwiw := schema_process_wf hs hsane h
  obtain ⟨htr, -, is1, his1, sv, hsv, hcase⟩ := process_spec hs (by rfl) h
  obtain ⟨m1, m2, m3⟩ := mergeTop_errors (m := .parse) hs.compat hsane (Val.toCont (.dict D))
  have hw1 : is1.WF := by rw [his1]; exact WF.empty.merge m3 []
  have herr1 : ∀ l, is1.errorsAt l = (mergeAll {} ((r.attrs.top.filterMap (topOut .parse (Val.toCont (.dict D)))).map
      (fun o => (o.1.topLoc, o.2.2)))).errorsAt l := by
    intro l
    rw [his1, errorsAt_merge m3]
    simp [Issues.empty]
  have hext : ∀ l, is1.errorsAt l ≠ [] → ∃ e, iw.errorsAt l = is1.errorsAt l ++ e := by
    intro l _
    rcases hcase with ⟨_, xs, is2, _, hvf, rfl⟩ | ⟨_, rfl⟩
    · obtain ⟨-, -, hw2, -⟩ := validate_wf (by simp [Schema.schemas]) hvf
      exact ⟨_, errorsAt_merge hw2 _ _ _⟩
    · exact ⟨[], by simp⟩
  have hread : ∀ a ∈ r.attrs.top, ∀ x, look a.rep D = some x → (Val.toCont (.dict D)).getItem a.rep = .ok (convVal x) ∧
      (convVal x).isMissing = false := by
    intro a ha x hx
    have := getItem_look (clear_of_ordinary hD (hs.allSchema a (hs.top_all a ha))) (hs.sub a ha)
    rw [hx] at this
    refine ⟨this, ?_⟩
    have hnm := conv_not_missing (look_tame hD.tame hx)
    generalize convVal x = z at hnm
    cases z <;> first | rfl | exact absurd rfl hnm
  by_cases hv : ValidIn .parse r.attrs.top D
  · refine ⟨fun _ => hv, fun _ => ?_⟩
    have hn1 : is1.hasIssues = false := by
      rw [← Bool.not_eq_true]
      intro hh
      obtain ⟨l, hl⟩ := (hasIssues_iff_errors hw1).mp hh
      rw [herr1] at hl
      obtain ⟨a, ha, x, y, i, l', hx, hm, hp, -, hi⟩ := m2 l hl
      have hgl := getItem_look (clear_of_ordinary hD (hs.allSchema a (hs.top_all a ha))) (hs.sub a ha)
      rw [hx] at hgl
      cases hlk : look a.rep D with
      | none => rw [hlk] at hgl; cases hgl; cases hm
      | some z =>
        rw [hlk] at hgl
        cases hgl
        have hn := (process_ok a (usualAll_iff.mp hu a ha) z y i (look_tame hD.tame hlk) hp).mpr (validIn_iff.mp hv a ha z hlk)
        have hwi := process_wf a (saneAll_iff.mp hsane a ha) hp
        rw [eq_empty_of_noIssues hwi hn] at hi
        exact hi rfl
    have he1 := eq_empty_of_noIssues hw1 hn1
    rw [← Bool.not_eq_true]
    intro hh
    obtain ⟨l, hl⟩ := (hasIssues_iff_errors (popped_wf hwiw)).mp hh
    rcases hcase with ⟨_, xs, is2, hxs, hvf, rfl⟩ | ⟨_, rfl⟩
    · obtain ⟨strs, e, hw2, g1, g2⟩ := validate_wf (by simp [Schema.schemas]) hvf
      have hee : ∀ l, (is1.merge is2).errorsAt l = is2.errorsAt l := by
        intro l
        rw [errorsAt_merge hw2, he1]
        simp
      by_cases hll : l = schemasLoc
      · subst hll
        apply hl
        rw [popped_self hwiw]
        refine popLoops_nil (a := ∃ x ∈ strs, ∀ u ∈ r.schemas, lower x ≠ lower u) (b := ∃ x ∈ strs, lower x = lower r.urn) ?_
          ((hee _).trans g1)
        -- one extension at most
        obtain ⟨d, lc, e, hi⟩ := (schema_process_reach rfl h).inv
        have hnd : w.keys.Nodup := by rw [e]; exact hi.dataKeys
        have hall : ∀ k ∈ w.keys, (∃ u ∈ r.schemas, lower k = lower u) → k ∈ r.exts.map (·.1) := by
          rintro k hk ⟨u, hu, e⟩
          rcases htr.declared k hk with ⟨a, ha, e1, rfl⟩ | ⟨a, ha, e1, rfl⟩
          · exact absurd e (hs.noClash a (hs.top_all a ha) u hu)
          · exact hs.ext a ha e1
        have hsub : (w.keys.filter (fun k => (∃ u ∈ r.schemas, lower k = lower u) ∧ ∀ x ∈ strs, lower k ≠ lower x)) ⊆
            r.exts.map (·.1) := by
          intro k hk
          obtain ⟨hk1, hk2⟩ := List.mem_filter.mp hk
          exact hall k hk1 (of_decide_eq_true hk2).1
        exact short_of (hnd.filter _) hsub (by rw [List.length_map]; exact hP.one)
      · rw [popped_ne hll, hee, g2 l hll] at hl
        exact hl rfl
    · rw [he1] at hl
      exact hl rfl
  · refine ⟨fun hn => absurd hn ?_, fun h => absurd h hv⟩
    rw [Bool.not_eq_false]
    obtain ⟨a, ha, x, hlk, hbad⟩ : ∃ a ∈ r.attrs.top, ∃ x, look a.rep D = some x ∧ ¬ ValidFor .parse a x := by
      apply Classical.byContradiction
      intro hne
      apply hv
      rw [validIn_iff]
      intro a ha x hx
      apply Classical.byContradiction
      intro hb
      exact hne ⟨a, ha, x, hx, hb⟩
    obtain ⟨hr1, hr2⟩ := hread a ha x hlk
    obtain ⟨y, i, hp, -⟩ := htr.present a ha _ hr1 hr2
    have hi : i.hasIssues = true := by
      rw [← Bool.not_eq_false]
      exact fun hn => hbad ((process_ok a (usualAll_iff.mp hu a ha) x y i (look_tame hD.tame hlk) hp).mp hn)
    have hwi := process_wf a (saneAll_iff.mp hsane a ha) hp
    obtain ⟨l, hl⟩ := (hasIssues_iff_errors hwi).mp hi
    have hat : is1.errorsAt (a.topLoc ++ l) = i.errorsAt l := by rw [herr1]; exact m1 a ha _ y i hr1 hr2 hp l
    by_cases hloc : a.topLoc ++ l = schemasLoc
    · -- the list of schemas
      have ha' : a.rep.ext = false ∧ a.rep.attr = "schemas".toList := by
        unfold Attr.topLoc schemasLoc at hloc
        split at hloc
        · simp at hloc
        · rename_i hx
          simp only [List.cons_append, List.nil_append, List.cons.injEq] at hloc
          exact ⟨by simpa using hx, by simpa using hloc.1⟩
      have hea : a = bindAttr schemasAttr { schema := r.urn, attr := "schemas".toList } := by
        refine eq_of_map_nodup hs.names (hs.top_all a ha) (hs.top_all _ hs.schemas_mem) ?_
        simp only [bindAttr_rep, ha'.2, hs.core a ha ha'.1, hs.sub a ha]
      have hsch := hD.schemas (convVal x) (by
        have := hr1
        rw [hea, bindAttr_rep] at this
        exact this)
      have hnn : (convVal x).isNone = false := by
        rw [← Bool.not_eq_true, isNone_conv]
        rintro rfl
        rw [show convVal Val.null = .null from rfl, C25_null] at hp
        cases hp; cases hi
      have hnl : ∀ xs, convVal x ≠ .list xs := by
        intro xs e
        obtain ⟨strs, rfl⟩ := hsch xs e
        rw [e, hea, schemas_process] at hp
        cases hp; cases hi
      rw [hea] at hp
      have hb := schemas_other hnn hnl hp
      subst hb
      obtain ⟨e, he⟩ := hext (a.topLoc ++ l) (by rw [hat]; exact hl)
      have hl0 : l = [] := by
        apply Classical.byContradiction
        intro hne
        unfold Attr.topLoc schemasLoc at hloc
        rw [ha'.1] at hloc
        simp only [Bool.false_eq_true, if_false, List.cons_append, List.nil_append, List.cons.injEq] at hloc
        exact hne hloc.2
      subst hl0
      refine popped_keeps hwiw (l := a.topLoc ++ []) (e := ⟨2, []⟩) ?_ (by decide)
      rw [he, hat]
      exact List.mem_append_left _ (by decide)
    · obtain ⟨e, he⟩ := hext (a.topLoc ++ l) (by rw [hat]; exact hl)
      exact popped_other hwiw hloc (by rw [he, hat]; simp [hl])

theorem readOnlyLoop_iff {value : Val} : ∀ {as : List Attr} {acc is : Issues}, readOnlyLoop value as acc = .ok is →
    (is.hasIssues = false ↔ acc.hasIssues = false ∧ ∀ a ∈ as, a.ReadOnly → value.getItem a.rep = .ok .missing) ∧
    ∀ a ∈ as, ∃ w, value.getItem a.rep = .ok w
  | [], acc, is, h => by cases h; simp
  | a :: as, acc, is, h => by
    rw [readOnlyLoop] at h
    split at h
    · cases h
    · rename_i w hw
      obtain ⟨h1, h2⟩ := readOnlyLoop_iff h
      refine ⟨?_, ?_⟩
      · rw [h1]
        have : (if !w.isMissing && a.info.mutability == .readOnly then acc.add ⟨304, []⟩ false (modLoc a) else acc).hasIssues = false ↔
            acc.hasIssues = false ∧ (a.ReadOnly → w = .missing) := by
          cases hro : (a.info.mutability == Mutability.readOnly) with
          | false => simp [notReadOnly_iff.mp hro]
          | true =>
            have hro' : a.ReadOnly := by
              apply Classical.byContradiction
              intro hn
              rw [notReadOnly_iff.mpr hn] at hro
              cases hro
            simp only [Bool.and_true, hro', true_implies]
            cases hc : w.isMissing with
            | true => cases w <;> simp [Val.isMissing] at hc; simp
            | false =>
              simp only [Bool.not_false, if_true, hasIssues_add]
              refine ⟨fun e => (by cases e), fun ⟨_, e⟩ => ?_⟩
              rw [e] at hc; cases hc
        rw [this]
        simp only [List.mem_cons, forall_eq_or_imp, hw, Except.ok.injEq]
        exact ⟨fun ⟨⟨a, b⟩, c⟩ => ⟨a, b, c⟩, fun ⟨a, b, c⟩ => ⟨⟨a, b⟩, c⟩⟩
      · intro b hb
        rcases List.mem_cons.mp hb with rfl | hb
        · exact ⟨w, hw⟩
        · exact h2 b hb

/-- What can be seen of an attribute after processing a valid object. -/
theorem touches_iff {r : Schema} (hP : Patchable r) {D : List (Str × Val)} (hD : Ordinary r D)
    (hv : ValidIn .parse r.attrs.top D) {w : Val} {is : Issues} (h : r.process .parse (.dict D) = .ok (w, is)) {a : Attr}
    (ha : a ∈ r.attrs.all) (hok : ∃ z, w.getItem a.rep = .ok z) : w.getItem a.rep = .ok .missing ↔ ¬ Touches r D a := by
  have hs := hP.proper.wf
  have hns := hP.proper.noShadow
  have ho := hP.proper.owned
  have hsane := hP.proper.sane
  have hu := hP.proper.usual .parse
  by_cases hsub : a.rep.sub = []
  · have hat := top_of hs ha hsub
    rcases top_given hs hns hsane hu hD hv h hat with ⟨hl, hg⟩ | ⟨x, y, i, hl, htw, hvf, hy, hn, hg⟩
    · refine ⟨fun _ => ?_, fun _ => hg⟩
      rintro (⟨-, e⟩ | ⟨e, -⟩ | ⟨e, -⟩)
      · rw [hl] at e; cases e
      · exact e hsub
      · exact e hsub
    · have := process_given (usualAll_iff.mp hu a hat) (saneAll_iff.mp hsane a hat) htw hy hn
      rw [hg]
      refine ⟨fun e => ?_, fun e => absurd (.top hsub hl) e⟩
      cases e
      exact absurd rfl this
  · obtain ⟨t, ht, hcx, h1, h2, -, hget⟩ := ho.parent hs ha hsub
    have hpar : Parent r a t := ⟨ht, h1, h2⟩
    obtain ⟨b, hb, hbn⟩ := hP.proper.regular a ha hsub t hpar
    have huniq : ∀ t', Parent r a t' → t' = t := by
      rintro t' ⟨ht', e1, e2⟩
      exact eq_of_map_nodup hs.names (hs.top_all t' ht') (hs.top_all t ht)
        (by simp only [e1, e2, h1, h2, hs.sub t ht, hs.sub t' ht'])
    obtain ⟨i, subs, ps, ds, rfl⟩ : ∃ i subs ps ds, t = .complex i subs ps ds := by
      cases t with
      | simple i => cases hcx
      | complex i subs ps ds => exact ⟨_, _, _, _, rfl⟩
    have hut := usualAll_iff.mp hu _ ht
    obtain ⟨-, hps, hall, -⟩ := hut.complex
    have hst : SaneAll subs := by
      have := saneAll_iff.mp hsane _ ht
      unfold Attr.Sane at this
      exact this.2
    simp only [Attr.subs] at hb
    have hpl := hps.plain b hb
    have hrep : b.rep = { attr := a.rep.sub } := by
      obtain ⟨e1, e2, e3⟩ := hpl
      cases hb' : b.rep
      rw [hb'] at e1 e2 e3 hbn
      simp only at e1 e2 e3 hbn
      subst e1; subst e2; subst e3; subst hbn; rfl
    have hread : w.getItem a.rep = match w.getItem (Attr.complex i subs ps ds).rep with
        | .error e => .error e
        | .ok w => Val.getX true w { attr := a.rep.sub } := by
      rw [← getItem_top hs ht h1 h2]
      have e : w.getItem { schema := a.rep.schema, attr := a.rep.attr } = Val.getX false w { a.rep with sub := [] } := by
        cases w <;> simp only [Val.getItem, Val.getX]
      rw [e]
      exact getX_split w a.rep hsub
    have htouch : Touches r D a ↔ (i.multi = false ∧ ∃ x, under a.rep.sub (look (Attr.complex i subs ps ds).rep D) = some x) ∨
        (i.multi = true ∧ ∃ xs, look (Attr.complex i subs ps ds).rep D = some (.list xs)) := by
      constructor
      · rintro (⟨e, -⟩ | ⟨-, hp, hm, e⟩ | ⟨-, hp, hm, e⟩)
        · exact absurd e hsub
        · cases huniq _ hp; exact .inl ⟨hm, _, e⟩
        · cases huniq _ hp; exact .inr ⟨hm, _, e⟩
      · rintro (⟨hm, x, e⟩ | ⟨hm, xs, e⟩)
        · exact .sub hsub hpar hm e
        · exact .list hsub hpar hm e
    rw [htouch]
    rcases top_given hs hns hsane hu hD hv h ht with ⟨hl, hg⟩ | ⟨x, y, i', hl, htw, hvf, hy, hn, hg⟩
    · rw [hg] at hread
      refine ⟨fun _ => ?_, fun _ => hread.trans rfl⟩
      rw [hl]
      rintro (⟨-, x, e⟩ | ⟨-, xs, e⟩) <;> cases e
    · rw [hg] at hread
      dsimp only at hread
      rw [hl]
      have hnull : x = .null → (w.getItem a.rep = .ok .missing ↔
          ¬ ((i.multi = false ∧ ∃ z, under a.rep.sub (some x) = some z) ∨ (i.multi = true ∧ ∃ xs, some x = some (.list xs)))) := by
        rintro rfl
        rw [show convVal Val.null = .null from rfl, C25_null] at hy
        cases hy
        refine ⟨fun _ => ?_, fun _ => hread.trans rfl⟩
        rintro (⟨-, z, e⟩ | ⟨-, xs, e⟩) <;> cases e
      cases hm : i.multi with
      | false =>
        rw [hm] at hnull
        unfold ValidFor at hvf
        rw [hm] at hvf
        simp only [Bool.false_eq_true, if_false] at hvf
        rcases hvf with e | ⟨E, rfl, hvE⟩
        · exact hnull e
        · have hr := complex_single hut hst hm hy
          rw [getX_true_getItem hr.cont (ho.owner a ha hsub).1, ← hrep] at hread
          have hpm := part_missing hut hst hm htw hy hn hb
          rw [hread, hpm, hbn]
          simp only [under, true_and, Bool.false_eq_true, false_and, or_false, not_exists]
          cases found a.rep.sub E <;> simp
      | true =>
        rw [hm] at hnull
        unfold ValidFor at hvf
        rw [hm] at hvf
        simp only [if_true] at hvf
        rcases hvf with e | ⟨xs, rfl, -⟩
        · exact hnull e
        · obtain ⟨ys, rfl, -⟩ := complex_multi hut hst hm hy
          refine ⟨fun e => ?_, fun e => absurd (.inr ⟨rfl, xs, rfl⟩) e⟩
          rw [hread] at e
          obtain ⟨zs, e', -⟩ := getX_list (ho.owner a ha hsub).1 e
          cases e'

theorem whole_iff {r : Schema} (hP : Patchable r) {D : List (Str × Val)} (hD : Ordinary r D) {t path o : Val} {io : Issues}
    (hpath : path.isNoneOrMissing = true) (h : parseAddReplace r t path (Val.dict D).toCont = .ok (o, io)) :
    io.hasIssues = false ↔ ValidIn .parse r.attrs.top D ∧ ∀ a ∈ r.attrs.all, a.ReadOnly → ¬ Touches r D a := by
  have hnobj : ∀ p, path ≠ .obj (.path p) := by rintro p rfl; cases hpath
  unfold parseAddReplace at h
  have hpi : pathIssues r path = {} := by
    unfold pathIssues
    split
    · exact absurd rfl (hnobj _)
    · rfl
  rw [hpi] at h
  simp only [has_empty, Bool.false_eq_true, if_false] at h
  split at h
  · cases h
  · rename_i v iv hpv
    cases h
    rw [hasIssues_merge_false]
    show _ ∧ _ ↔ _
    unfold parseValue at hpv
    split at hpv
    · exact absurd rfl (hnobj _)
    · rw [if_pos hpath] at hpv
      split at hpv
      · cases hpv
      · rename_i w iw hpr
        dsimp only at hpv
        split at hpv
        · cases hpv
        · rename_i il hl
          cases hpv
          rw [show r.parse (Val.dict D).toCont = r.parse (.dict D) from process_toCont .parse r D] at hpr
          obtain ⟨c1, c2⟩ := readOnlyLoop_iff hl
          rw [c1]
          have hpop := popped_iff hP hD hpr
          unfold popped at hpop
          rw [hpop]
          constructor
          · rintro ⟨-, hv, hm⟩
            exact ⟨hv, fun a ha hro => (touches_iff hP hD hv hpr ha (c2 a ha)).mp (hm a ha hro)⟩
          · rintro ⟨hv, hm⟩
            exact ⟨rfl, hv, fun a ha hro => (touches_iff hP hD hv hpr ha (c2 a ha)).mpr (hm a ha hro)⟩

end Scim.PatchA
