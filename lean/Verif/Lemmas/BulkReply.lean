import Verif.Lemmas.BulkAnswer

/-! Bulk responses: which bodies make the dumper raise. -/

namespace Scim
open Issues
variable [PyEnv]

namespace V
open BulkA (requestRep responseRep)

omit [PyEnv] in
theorem mem_keys_of_errors {is : Issues} {l : Loc} (h : is.errorsAt l ≠ []) : l ∈ is.issues.map (·.1) := by
  rw [← aget_isSome_iff]
  unfold Issues.errorsAt at h
  cases hg : aget l is.issues with
  | none => rw [hg] at h; exact absurd rfl h
  | some e => rfl

omit [PyEnv] in
/-- An issue about the operations stops the dumper. -/
theorem ops_blocked {is0 is2 : Issues} {status : Int}
    (h : is0.errorsAt [.name BulkA.opsWord] ≠ [] ∨ is2.errorsAt [.name BulkA.opsWord] ≠ []) :
    (beforeOps is0 is2 status).canProceed [opsLoc] = false := by
  have hs : (aget opsLoc (beforeOps is0 is2 status).stop).isSome := by
    unfold beforeOps
    rw [stop_merge_isSome, stop_merge_isSome, stop_merge_isSome]
    rcases h with h | h
    · exact .inl (.inl (.inr ⟨_, mem_keys_of_errors h, rfl⟩))
    · exact .inl (.inr ⟨_, mem_keys_of_errors h, rfl⟩)
  have : (beforeOps is0 is2 status).canProceedAt opsLoc = false := (canProceedAt_false_iff _ _).mpr ⟨opsLoc, List.prefix_rfl, hs⟩
  simp [Issues.canProceed, this]

/-- A response whose body is an ordinary object with a list of operations is dumped exactly when no operation makes the
dumper raise. -/
theorem dumpBulk_iff {vs : List (Str × Schema)} (hvs : ∀ q ∈ vs, ServedSchema q.2) {kvs : List (Str × Val)}
    (hord : Ordinary BulkA.responseSchema kvs) {xs : List Val}
    (hx : (Val.dict kvs).toCont.getItem (responseRep []) = .ok (.list xs)) (status : Int) (headers : Val) (fail : Option Int) :
    (∃ r, dumpBulk vs status (.dict kvs) headers fail = .ok r) ↔ ∀ x ∈ xs, ¬ OutcomeRaises vs x := by
  obtain ⟨b, is0, is2, hb, hcall⟩ := BulkA.response_body_total hord
  have hw2 : is2.WF := call_wf hcall
  obtain ⟨os, is1, j, dd, lc, rfl, hnk, hreq, hb1, hw0, hroot, hp, hloc, hops⟩ := response_body (.inr rfl) hb hx
  obtain ⟨os0, is1', e, hlen, hwj, hj0, hbase, -⟩ := BulkA.response_process hp
  cases e
  obtain ⟨-, hpl, hparts⟩ := BulkA.parts_at hbase
  have hstart : dumpBulk vs status (.dict kvs) headers fail = dumpBulkBody vs fail (.cont dd lc) headers (beforeOps is0 is2 status) := by
    unfold dumpBulk
    rw [hb]; dsimp only
    rw [hcall]
    rfl
  rw [hstart]
  unfold dumpBulkBody
  cases hcp : (beforeOps is0 is2 status).canProceed [opsLoc] with
  | false =>
    simp only [Bool.not_false, if_true]
    have hnil : xs = [] := by
      apply Classical.byContradiction
      intro hne
      have hos : os ≠ [] := by
        rintro rfl
        simp at hlen
        exact hne (List.length_eq_zero_iff.mp hlen.symm)
      have : (beforeOps is0 is2 status).canProceed [opsLoc] = true := by
        apply canProceed_of_noErrors (beforeOps_wf hw0 hw2)
        intro q hq
        rcases List.prefix_cons_iff.mp hq with rfl | ⟨q', rfl, hq'⟩
        · exact beforeOps_root
        rcases List.prefix_cons_iff.mp hq' with rfl | ⟨q'', rfl, hq''⟩
        · rw [beforeOps_errors hw0 hw2, hroot, call_no_root hcall]; rfl
        · have : q'' = [] := by simpa using hq''
          subst this
          rw [beforeOps_errors hw0 hw2, hloc, hj0, response_presence hcall hops hos]; rfl
      rw [this] at hcp; cases hcp
    subst hnil
    exact ⟨fun _ x h => absurd h List.not_mem_nil, fun _ => ⟨_, rfl⟩⟩
  | true =>
  simp only [Bool.not_true, Bool.false_eq_true, if_false]
  have hopsR : (Val.cont dd lc).getItem (requestRep []) = .ok (.list os) := by
    have e1 := getItem_noKey (data := dd) (lc := lc) (r := requestRep []) hreq
    have e2 := getItem_noKey (data := dd) (lc := lc) (r := responseRep []) hnk
    rw [e1]
    rw [e2] at hops
    exact hops
  have hread : ∀ w ∈ [BulkA.statusWord, BulkA.responseWord, BulkA.locationWord, BulkA.versionWord, BulkA.methodWord],
      ∃ ys, Val.getX true (.list os) { attr := w } = .ok (.list ys) ∧ getMap os { attr := w } = .ok ys := by
    intro w hw
    obtain ⟨ys, hy⟩ := getMap_total (q := w) os hpl
    have hn : isAttrName w = true := by
      simp only [List.mem_cons, List.not_mem_nil, or_false] at hw
      rcases hw with rfl | rfl | rfl | rfl | rfl <;> exact bulk_word_name (by simp)
    exact ⟨ys, by simp only [Val.getX, hn, Bool.not_true, Bool.and_false, Bool.false_eq_true, if_false, hy], hy⟩
  have part1 : ∀ w ∈ [BulkA.statusWord, BulkA.responseWord, BulkA.locationWord, BulkA.versionWord],
      (Val.cont dd lc).getItem (responseRep w) = Val.getX true (.list os) { attr := w } := by
    intro w hw
    refine getItem_part hnk ?_ hops
    revert hw; revert w; decide
  have part2 : (Val.cont dd lc).getItem (requestRep BulkA.methodWord) = Val.getX true (.list os) { attr := BulkA.methodWord } :=
    getItem_part hreq (by simp) hopsR
  obtain ⟨ss, q1, hss⟩ := hread BulkA.statusWord (by simp)
  obtain ⟨rs, q2, hrs⟩ := hread BulkA.responseWord (by simp)
  obtain ⟨ls, q3, hls⟩ := hread BulkA.locationWord (by simp)
  obtain ⟨vers, q5, hvers⟩ := hread BulkA.versionWord (by simp)
  obtain ⟨ms, q4, hms⟩ := hread BulkA.methodWord (by simp)
  rw [hopsR, part1 _ (by simp), part1 _ (by simp), part1 _ (by simp), part1 _ (by simp), part2, q1, q2, q3, q4, q5]
  dsimp only
  obtain ⟨l1, g1⟩ := getMap_spec hss
  obtain ⟨l2, g2⟩ := getMap_spec hrs
  obtain ⟨l3, g3⟩ := getMap_spec hls
  obtain ⟨l4, g4⟩ := getMap_spec hms
  obtain ⟨l5, g5⟩ := getMap_spec hvers
  have hzl := zipParts_length l4 l1 l2 l3 l5
  have hiff := responsesLoop_iff hvs 0 xs os (zipParts ms ss rs ls vers) (beforeOps is0 is2 status) hlen (by rw [hzl, hlen]) (by
    intro i x o p hxi hoi hpi
    obtain ⟨v1, a1, b1⟩ := g1 i _ hoi
    obtain ⟨v2, a2, b2⟩ := g2 i _ hoi
    obtain ⟨v3, a3, b3⟩ := g3 i _ hoi
    obtain ⟨v4, a4, b4⟩ := g4 i _ hoi
    obtain ⟨v5, a5, b5⟩ := g5 i _ hoi
    rw [zipParts_get a4 a1 a2 a3 a5] at hpi
    cases hpi
    refine ⟨hparts i x o _ _ _ _ _ hxi hoi b4 b1 b2 b3 b5, ?_⟩
    obtain ⟨d', lc', rfl, -⟩ := (BulkA.response_keys hbase o (List.mem_of_getElem? hoi)).1.inv
    rfl)
  rw [← hiff]
  unfold dumpBulkOps
  constructor
  · rintro ⟨r, h⟩
    split at h
    · cases h
    · rename_i o' i' n hl
      exact ⟨_, hl⟩
  · rintro ⟨⟨⟨o', i'⟩, n⟩, h⟩
    rw [h]
    dsimp only
    have : ∃ b', (Val.cont dd lc).setItem { attr := BulkA.opsWord } (.list o') = .ok b' := by
      simp [Val.setItem, Val.setLocal, Val.setPlain]
    obtain ⟨b', hb'⟩ := this
    rw [hb']
    exact ⟨_, rfl⟩

/-- A response whose body has no list of operations is dumped: with issues, and without body. -/
theorem dumpBulk_noList {vs : List (Str × Schema)} {kvs : List (Str × Val)} (hord : Ordinary BulkA.responseSchema kvs)
    (hx : ∀ xs, (Val.dict kvs).toCont.getItem (responseRep []) ≠ .ok (.list xs)) (status : Int) (headers : Val) (fail : Option Int) :
    ∃ is, dumpBulk vs status (.dict kvs) headers fail = .ok ({ headers, body := .null }, is) ∧ is.hasIssues = true := by
  obtain ⟨b, is0, is2, hb, hcall⟩ := BulkA.response_body_total hord
  have hw2 : is2.WF := call_wf hcall
  have hobj : ((Val.dict kvs).isCont || (Val.dict kvs).isDict) = true := rfl
  have h0 := hb
  rw [BulkA.response_dump_eq] at h0
  have hw0 : is0.WF := schema_process_wf BulkA.response_wf BulkA.response_sane h0
  have hstart : dumpBulk vs status (.dict kvs) headers fail = dumpBulkBody vs fail b headers (beforeOps is0 is2 status) := by
    unfold dumpBulk
    rw [hb]; dsimp only
    rw [hcall]
    rfl
  obtain ⟨htr, -, -⟩ := process_spec BulkA.response_wf hobj h0
  have hrep : BulkA.responseOpsB.rep = responseRep [] := BulkA.responseOpsB_rep
  have hrl : BulkA.responseOpsB.reportLoc = [.name BulkA.opsWord] := by unfold Attr.reportLoc; rw [hrep]; rfl
  obtain ⟨x, hxr⟩ := htr.read BulkA.responseOpsB BulkA.responseOpsB_mem
  -- an empty value is missing
  have hempty : ∀ y, b.getItem BulkA.responseOpsB.rep = .ok y → y.Empty → y.isInvalid = false →
      is2.errorsAt [.name BulkA.opsWord] ≠ [] := by
    intro y hy he hv hn
    have hm : (⟨15, []⟩ : VErr) ∈ is2.errorsAt [.name BulkA.opsWord] := by
      refine (call_errors _ _ _ _ _ hcall _ _).mpr ⟨BulkA.responseOpsB, ?_, y, ?_, ?_⟩
      · have := BulkA.responseOpsB_mem
        rw [BulkA.response_wf.topAll] at this
        exact (List.mem_filter.mp this).1
      · have := Observed.top (attrs := BulkA.responseSchema.attrs) (a := BulkA.responseOpsB) (by rw [hrep]; rfl) hy hv
        rw [hrep] at this
        exact this
      · refine (checkPresence_errors _ _ _ _ _ _).mpr ⟨rfl, .inl ⟨rfl, he, ?_, ?_, ?_⟩⟩
        · rw [BulkA.responseOpsB_eq]; rfl
        · simp [Listed]
        · intro h; cases h
    rw [hn] at hm; cases hm
  have hblock : is0.errorsAt [.name BulkA.opsWord] ≠ [] ∨ is2.errorsAt [.name BulkA.opsWord] ≠ [] := by
    cases hmx : x.isMissing with
    | true =>
      have := BulkA.missing_eq hmx
      subst this
      exact .inr (hempty _ (htr.absent BulkA.responseOpsB BulkA.responseOpsB_mem (by rw [hrep]; rfl) hxr) (.inr (.inr (.inr rfl))) rfl)
    | false =>
      obtain ⟨y, j, hp, hy⟩ := htr.present BulkA.responseOpsB BulkA.responseOpsB_mem x hxr hmx
      cases hn : x.isNone with
      | true =>
        rw [isNone_iff.mp hn, C25_null] at hp
        cases hp
        exact .inr (hempty _ hy (.inl rfl) rfl)
      | false =>
        have hl : x.isList = false := by
          cases x <;> first | rfl | skip
          rename_i xs
          rw [hrep] at hxr
          exact absurd hxr (hx xs)
        left
        obtain ⟨c1, -⟩ := C82_locations .dump BulkA.responseSchema BulkA.response_wf BulkA.response_sane (.dict kvs) _ is0 (.inr rfl) h0
        obtain ⟨y', i', hp', c3⟩ := c1 BulkA.responseOpsB BulkA.responseOpsB_mem x hxr hmx
        rw [BulkA.responseOps_other hn hl] at hp'
        cases hp'
        rw [hrl] at c3
        have := c3 [] (by
          intro e
          simp only [List.singleton_append, List.cons.injEq, LKey.name.injEq] at e
          exact absurd e.1 (by decide))
        rw [List.append_nil] at this
        rw [this]
        decide
  have hcp := ops_blocked (status := status) hblock
  refine ⟨_, ?_, (beforeOps_wf (status := status) hw0 hw2).blocked hcp⟩
  rw [hstart]
  unfold dumpBulkBody
  rw [hcp]
  rfl

end V
end Scim
