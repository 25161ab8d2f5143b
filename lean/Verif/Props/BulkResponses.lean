import Verif.Lemmas.BulkDone
import Verif.Lemmas.Codes
import Verif.Props.BulkRequests

/-! Bulk responses (C80, C88). -/

namespace Scim
open Issues
variable [PyEnv]

/-- **C80** A response is reported as having too many errors exactly when its body lists more failed operations than
the request allowed; its body is then withheld. -/
theorem C80_response (vs : List (Str × Schema)) (status : Int) (body headers : Val) (fail : Option Int) (resp : Response)
    (is : Issues) (xs : List Val) (hobj : body.isCont = true ∨ body.isDict = true)
    (hx : body.toCont.getItem { schema := BulkA.responseUrn, attr := "Operations".toList } = .ok (.list xs))
    (hf : ∀ f, fail = some f → 0 ≤ f) (h : V.dumpBulk vs status body headers fail = .ok (resp, is)) :
    (38 ∈ is.codesAt [.name "body".toList, .name "Operations".toList] ↔
      ∃ f, fail = some f ∧ (xs.countP failedOperation : Int) > f) ∧
    (∀ f, fail = some f → (xs.countP failedOperation : Int) > f → resp.body = .null) := by
  obtain ⟨b, is0, is2, os, j, hb, hw0, hcall, hw2, hp, hlen, hloc, -, hcase⟩ := V.dumpBulk_bridge hobj h hx
  obtain ⟨-, -, -, -, -, hj0, -, -⟩ := BulkA.response_process hp
  have hbefore : ∀ e ∈ (V.beforeOps is0 is2 status).errorsAt V.opsLoc, e.code ≠ 38 := by
    intro e he hc
    change e ∈ (V.beforeOps is0 is2 status).errorsAt (.name "body".toList :: [.name BulkA.opsWord]) at he
    rw [V.beforeOps_errors hw0 hw2, hloc, hj0, List.nil_append] at he
    obtain ⟨a, -, v, -, he⟩ := (call_errors _ _ _ _ _ hcall _ _).mp he
    rcases checkPresence_codes he with h' | h' <;> rw [h'] at hc <;> cases hc
  rcases hcase with ⟨rfl, hnull, rfl, -⟩ | ⟨ms, ss, rs, ls, vers, os', is3, n, hms, hss, hrs, hls, hvers, hloop, rfl, hcount, -, hnull, -⟩
  · refine ⟨⟨?_, ?_⟩, fun _ _ _ => hnull⟩
    · rw [mem_codesAt]
      rintro ⟨e, he, hc⟩
      exact absurd hc (hbefore e he)
    · rintro ⟨f, hff, hgt⟩
      have := hf f hff
      simp at hgt
      omega
  · have hzl : (V.zipParts ms ss rs ls vers).length = os.length :=
      V.zipParts_length (getMap_spec hms).1 (getMap_spec hss).1 (getMap_spec hrs).1 (getMap_spec hls).1 (getMap_spec hvers).1
    obtain ⟨-, hg, -⟩ := V.responsesLoop_spec hzl hloop
    have h3 : 38 ∉ is3.codesAt V.opsLoc := by
      rw [mem_codesAt, hg.ops]
      rintro ⟨e, he, hc⟩
      exact hbefore e he hc
    subst hcount
    cases fail with
    | none =>
      refine ⟨⟨fun hm => absurd hm h3, ?_⟩, ?_⟩
      · rintro ⟨f, e, -⟩; cases e
      · intro f e; cases e
    | some f =>
      unfold V.checkFailures at hnull ⊢
      simp only at hnull ⊢
      split at hnull
      · rename_i hgt
        rw [if_pos hgt]
        refine ⟨⟨fun _ => ⟨f, rfl, hgt⟩, fun _ => ?_⟩, fun _ _ _ => hnull (hasIssues_add _ _ _ _)⟩
        show 38 ∈ (is3.add ⟨38, []⟩ true V.opsLoc).codesAt V.opsLoc
        rw [mem_codesAt]
        exact ⟨⟨38, []⟩, by rw [errorsAt_add]; simp, rfl⟩
      · rename_i hgt
        rw [if_neg hgt]
        refine ⟨⟨fun hm => absurd hm h3, ?_⟩, ?_⟩
        · rintro ⟨f', e, hgt'⟩; cases e; exact absurd hgt' hgt
        · intro f' e hgt'; cases e; exact absurd hgt' hgt

omit [PyEnv] in
theorem str_truthy {t : Str} (h : t ≠ []) : (Val.str t).truthy = true := by
  cases t with
  | nil => exact absurd rfl h
  | cons => rfl

/-- Storing a response changes the response and nothing else. -/
theorem setResponse_kept {o o' v : Val} (hr : o.Reach) (h0 : o.NoKeyFor []) (h : o.setPlain BulkA.responseWord v = .ok o') :
    o'.getItem { attr := BulkA.responseWord } = .ok v ∧
      ∀ w ∈ keptOutcomeParts, o'.getItem { attr := w } = o.getItem { attr := w } := by
  have hset : o.setItem { attr := BulkA.responseWord } v = .ok o' := by
    obtain ⟨dd, lc, rfl, -⟩ := hr.inv
    exact h
  have h0' : o'.NoKeyFor [] := by
    obtain ⟨dd, lc, rfl, -⟩ := hr.inv
    simp only [Val.setPlain, Except.ok.injEq] at h
    rw [← h]
    intro k hk
    simp only [Val.keys] at hk
    rw [keys_aset] at hk
    have hk' : k ∈ dd.map (·.1) ∨ k = BulkA.responseWord := by
      split at hk
      · exact .inl hk
      · rcases List.mem_append.mp hk with hk | hk
        · exact .inl hk
        · exact .inr (by simpa using hk)
    rcases hk' with hk | rfl
    · exact h0 k hk
    · rw [PyEnv.lower_ascii _ (by decide), PyEnv.lower_ascii _ (by simp)]; decide
  constructor
  · obtain ⟨c', hc', hall⟩ := C03_read_after_write hr { attr := BulkA.responseWord } rfl rfl v
    rw [hset] at hc'
    cases hc'
    exact hall _ rfl rfl h0'
  · intro w hw
    refine C04_write_frame hr { attr := BulkA.responseWord } { attr := w } rfl rfl _ ?_ hset h0'
    show lower w ≠ lower BulkA.responseWord
    rw [PyEnv.lower_ascii, PyEnv.lower_ascii _ (by decide)]
    · revert w; decide
    · revert w; decide

theorem leadsTo_of_find {vs : List (Str × Schema)} {t : Str} {p : Str × Schema}
    (h : vs.find? (fun p => isInfix ('/' :: p.1 ++ ['/']) t) = some p) : LeadsTo vs t p.1 p.2 := by
  obtain ⟨hp, as, bs, rfl, has⟩ := List.find?_eq_some_iff_append.mp h
  refine ⟨as, bs, rfl, (isInfix_iff _ _).mp hp, ?_⟩
  intro q hq hc
  have := has q hq
  rw [(isInfix_iff _ _).mpr hc] at this
  cases this

/-- The response to the single request. -/
theorem dumpOp_single {v : Val} {mm : V.Method} (hm : V.methodOf v = some mm) {s : Schema} (hs : ResourceSchema s) {n : Int} {r : Val}
    {t method : Str} {e : Response} {is : Issues} (hv : v = .str method) (hr : r.truthy = true)
    (h : V.dumpOp mm s n r (.str t) = .ok (e, is))
    (hb : (((is.pop V.metaLocationLoc 11).pop V.headerLocationLoc 11).get V.bodyLoc).hasIssues = false)
    (hd : ((is.popResult V.metaLocationLoc 11).hasIssues &&
      ((is.pop V.metaLocationLoc 11).popResult V.headerLocationLoc 11).hasIssues) = false) :
    method ≠ "DELETE".toList ∧ singleResponse method s n r t = .ok (e, is) ∧ (∀ l, l ≠ V.statusLoc → is.errorsAt l = []) ∧
      (SuccessStatus method n → is.hasIssues = false) := by
  subst hv
  have hget : V.dumpGet s n r (.dict [(V.locationWord, .str t)]) none = .ok (e, is) →
      (∀ l, l ≠ V.statusLoc → is.errorsAt l = []) ∧ (n = 200 → is.hasIssues = false) := by
    intro h
    exact V.dumpResource_done hs.wf hs.sane hs.hasMeta h hb hd
  unfold V.methodOf at hm
  split at hm
  · rename_i h'
    have := text_iff.mp h'
    subst this
    cases hm
    refine ⟨by decide, ?_, (hget h).1, ?_⟩
    · rw [← h]; unfold singleResponse; rw [if_neg (by decide), if_neg (by decide)]; rfl
    · intro hst
      unfold SuccessStatus at hst
      rw [if_neg (by decide)] at hst
      rcases hst with hst | hst
      · exact (hget h).2 hst
      · exact absurd hst.1 (by decide)
  split at hm
  · rename_i h'
    have := text_iff.mp h'
    subst this
    cases hm
    have h2 := h
    simp only [V.dumpOp] at h2
    unfold V.dumpPost at h2
    rw [if_pos hr] at h2
    have hp := V.dumpResource_done hs.wf hs.sane hs.hasMeta h2 hb hd
    refine ⟨by decide, ?_, hp.1, ?_⟩
    · rw [← h]; unfold singleResponse; rw [if_pos (by decide)]; rfl
    · intro hst
      unfold SuccessStatus at hst
      rw [if_pos (by decide)] at hst
      exact hp.2 hst
  split at hm
  · rename_i h'
    have := text_iff.mp h'
    subst this
    cases hm
    first
    | (refine ⟨by decide, ?_, (hget h).1, ?_⟩
       · rw [← h]; unfold singleResponse; rw [if_neg (by decide), if_neg (by decide)]; rfl
       · intro hst
         unfold SuccessStatus at hst
         rw [if_neg (by decide)] at hst
         rcases hst with hst | hst
         · exact (hget h).2 hst
         · exact absurd hst.1 (by decide))
  split at hm
  · rename_i h'
    have := text_iff.mp h'
    subst this
    cases hm
    have h2 := h
    simp only [V.dumpOp] at h2
    unfold V.dumpPatch at h2
    have hp : (∀ l, l ≠ V.statusLoc → is.errorsAt l = []) ∧ (n = 200 ∨ n = 204 → is.hasIssues = false) := by
      split at h2
      · cases h2
        exact ⟨fun l _ => rfl, fun _ => rfl⟩
      · rename_i hne
        obtain ⟨a, b⟩ := V.dumpResource_done hs.wf hs.sane hs.hasMeta h2 hb hd
        refine ⟨a, ?_⟩
        rintro (hh | hh)
        · exact b hh
        · exact absurd hh hne
    refine ⟨by decide, ?_, hp.1, ?_⟩
    · rw [← h]; unfold singleResponse; rw [if_neg (by decide), if_pos (by decide)]; rfl
    · intro hst
      unfold SuccessStatus at hst
      rw [if_neg (by decide)] at hst
      exact hp.2 (hst.imp id (·.2))
  split at hm
  · cases hm
    cases h
  · cases hm

/-- **C88** What an accepted bulk response says: the status is 200, and every operation has a method, a status and the
place of its resource; failures are explained by matching errors, and successes carry what the single request would
have been answered with. -/
theorem C88_accepted (vs : List (Str × Schema)) (hvs : ∀ p ∈ vs, ResourceSchema p.2) (status : Int) (body headers : Val)
    (fail : Option Int) (resp : Response) (is : Issues) (h : V.dumpBulk vs status body headers fail = .ok (resp, is))
    (hn : is.hasIssues = false) :
    status = 200 ∧ resp.headers = headers ∧
    ∃ xs os : List Val, body.toCont.getItem { schema := BulkA.responseUrn, attr := "Operations".toList } = .ok (.list xs) ∧
      resp.body.getItem { schema := BulkA.responseUrn, attr := "Operations".toList } = .ok (.list os) ∧ os.length = xs.length ∧
      (∀ f, fail = some f → (xs.countP failedOperation : Int) ≤ f) ∧
      ∀ (i : Nat) (x : Val), xs[i]? = some x → ∃ o method st n r, os[i]? = some o ∧ OutcomeOk vs x o method st n r := by
  obtain ⟨hobj, hst, hh, xs, hx⟩ := V.dumpBulk_list h hn
  refine ⟨hst, hh, ?_⟩
  obtain ⟨b, is0, is2, os, j, hb, hw0, hcall, hw2, hp, hlen, hloc, -, hcase⟩ := V.dumpBulk_bridge hobj h hx
  rcases hcase with ⟨-, -, -, hbad⟩ | ⟨ms, ss, rs, ls, vers, os', is3, n, hms, hss, hrs, hls, hvers, hloop, hfail, hcount, hlen', -, hbody⟩
  · rw [hn] at hbad; cases hbad
  have h3 : is3 = is ∧ ∀ f, fail = some f → (n : Int) ≤ f := by
    unfold V.checkFailures at hfail
    split at hfail
    · exact ⟨hfail.symm, by intro f e; cases e⟩
    · split at hfail
      · rw [hfail, hasIssues_add] at hn; cases hn
      · rename_i f hle
        refine ⟨hfail.symm, ?_⟩
        intro f' e
        cases e
        omega
  obtain ⟨e3, hfl⟩ := h3
  subst e3
  have h0 : (V.beforeOps is0 is2 status).hasIssues = false := by
    rw [← Bool.not_eq_true]
    intro hs
    rw [V.responsesLoop_mono hloop hs] at hn; cases hn
  unfold V.beforeOps at h0
  rw [hasIssues_merge_false, hasIssues_merge_false, hasIssues_merge_false] at h0
  have e0 := eq_empty_of_noIssues hw0 h0.1.1.2
  have e2 := eq_empty_of_noIssues hw2 h0.1.2
  subst e0 e2
  have hbe : V.beforeOps {} {} status = {} := by
    subst hst; rfl
  rw [hbe] at hloop
  obtain ⟨_, _, e, -, hwj, -, -, -⟩ := BulkA.response_process hp
  have hj : j = {} := noIssues_of_errors hwj (fun l => (hloc l).symm)
  subst hj
  obtain ⟨-, hclean⟩ := BulkA.response_clean hp
  obtain ⟨g1, g1'⟩ := getMap_spec hms
  obtain ⟨g2, g2'⟩ := getMap_spec hss
  obtain ⟨g3, g3'⟩ := getMap_spec hrs
  obtain ⟨g4, g4'⟩ := getMap_spec hls
  obtain ⟨g5, g5'⟩ := getMap_spec hvers
  have hzl : (V.zipParts ms ss rs ls vers).length = os.length := V.zipParts_length g1 g2 g3 g4 g5
  obtain ⟨-, hall⟩ := V.responsesLoop_clean hzl hloop hn (fun h' hn' => (V.responseOne_clean h' hn').1)
  subst hcount
  refine ⟨xs, os', hx, hbody hn, hlen', hfl, ?_⟩
  intro i x hxi
  obtain ⟨o, ho, hor, hor0, hsame, hstr, hmth, hlc, hsta, ⟨m, bi, st, hm, hmn, hbi, hbin, hst', hstn, hout⟩⟩ := hclean i x hxi
  obtain ⟨m', p1, q⟩ := g1' i o ho
  rw [hm] at q; cases q
  obtain ⟨st', p2, q⟩ := g2' i o ho
  rw [hst'] at q; cases q
  obtain ⟨r, p3, hr⟩ := g3' i o ho
  obtain ⟨l, p4, hl⟩ := g4' i o ho
  obtain ⟨v, p5, hv⟩ := g5' i o ho
  obtain ⟨o', bb, ho', hone⟩ := hall i o _ ho (V.zipParts_get p1 p2 p3 p4 p5)
  obtain ⟨-, hplace, hsamer, hgo⟩ := V.responseOne_clean hone rfl
  have hxm : x.getItem { attr := BulkA.methodWord } = .ok m := by
    have := hsame BulkA.methodA (by simp [BulkA.responseSubs]); exact this.symm.trans hm
  have hxi' : x.getItem { attr := BulkA.idWord } = .ok bi := by
    have := hsame BulkA.idA (by simp [BulkA.responseSubs]); exact this.symm.trans hbi
  have hxs : x.getItem { attr := BulkA.statusWord } = .ok st := by
    have := hsame BulkA.statusA (by simp [BulkA.responseSubs]); exact this.symm.trans hst'
  have hxr : x.getItem { attr := BulkA.responseWord } = .ok r := by
    have := hsame BulkA.responseA (by simp [BulkA.responseSubs]); exact this.symm.trans hr
  have hxl : x.getItem { attr := BulkA.locationWord } = .ok l := by
    have := hsame BulkA.locationA (by simp [BulkA.responseSubs]); exact this.symm.trans hl
  have hxv : x.getItem { attr := BulkA.versionWord } = .ok v := by
    have := hsame BulkA.versionA (by simp [BulkA.responseSubs]); exact this.symm.trans hv
  have hxk : ∀ w ∈ keptOutcomeParts, o.getItem { attr := w } = x.getItem { attr := w } := by
    intro w hw
    simp only [keptOutcomeParts, List.mem_cons, List.not_mem_nil, or_false] at hw
    rcases hw with rfl | rfl | rfl | rfl | rfl
    · exact hsame BulkA.methodA (by simp [BulkA.responseSubs])
    · exact hsame BulkA.idA (by simp [BulkA.responseSubs])
    · exact hsame BulkA.versionA (by simp [BulkA.responseSubs])
    · exact hsame BulkA.locationA (by simp [BulkA.responseSubs])
    · exact hsame BulkA.statusA (by simp [BulkA.responseSubs])
  -- method, status and location as texts
  obtain ⟨mt, rfl, hmt⟩ : ∃ mt, m = .str mt ∧ mt ≠ [] := by
    rcases hmth m hxm with h' | h'
    · rw [hmn] at h'; cases h'
    · exact h'
  obtain ⟨stt, k, rfl, hstt, hk⟩ : ∃ stt k, st = .str stt ∧ stt ≠ [] ∧ parseInt stt = some k := by
    rcases hsta st hxs with h' | h'
    · rw [hstn] at h'; cases h'
    · exact h'
  have hmtr : (Val.str mt).truthy = true := str_truthy hmt
  have hsttr : (Val.str stt).truthy = true := str_truthy hstt
  have hpi : (Val.str stt).pyInt = .ok k := by simp [Val.pyInt, hk]
  obtain ⟨l', r', hl', hr', hnol, hnor⟩ := hout hsttr
  rw [hl] at hl'; cases hl'
  rw [hr] at hr'; cases hr'
  have hltr : l.isNoneOrMissing = false → l.truthy = true := by
    intro h'
    rcases hlc l hxl with h'' | ⟨t, rfl, ht⟩
    · rw [h'] at h''; cases h''
    · exact str_truthy ht
  -- the place of the resource
  have hwhere : (∃ mm t p, V.methodOf (.str mt) = some mm ∧ l = .str t ∧
      vs.find? (fun p => isInfix ('/' :: p.1 ++ ['/']) t) = some p) ∨ (mt = BulkA.postWord ∧ k ≥ 300 ∧ l.isNoneOrMissing = true) := by
    cases hln : l.isNoneOrMissing with
    | false => exact .inl (hplace hmtr (hltr hln))
    | true =>
      obtain ⟨a, k', hk', hlt⟩ := hnol hln hmtr
      rw [hpi] at hk'; cases hk'
      exact .inr ⟨text_iff.mp a, by omega, rfl⟩
  have hrn : k ≥ 300 → r.isNoneOrMissing = false := by
    intro hge
    rw [← Bool.not_eq_true]
    intro h'
    obtain ⟨k', hk', hlt⟩ := hnor h'
    rw [hpi] at hk'; cases hk'
    exact hlt hge
  refine ⟨o', mt, stt, k, r, ho', hxm, ?_, hxs, hk, hxr, ?_, ?_, ?_, ?_, ?_, ?_⟩
  · rcases hwhere with ⟨mm, t, p, hmm, -⟩ | ⟨rfl, -⟩
    · obtain ⟨t', e, ht'⟩ := mem_five hmm
      cases e
      rcases ht' with rfl | ht'
      · decide
      · revert ht'; simp; grind
    · decide
  · rintro rfl
    rcases hstr BulkA.idWord (by simp) bi hxi' with h'' | ⟨s, rfl⟩
    · rw [hbin (text_iff.mpr rfl)] at h''; cases h''
    · exact ⟨s, hxi'⟩
  · rcases hwhere with ⟨mm, t, p, -, rfl, hf⟩ | ⟨rfl, hge, hln⟩
    · exact .inl ⟨t, p.1, p.2, hxl, leadsTo_of_find hf⟩
    · exact .inr ⟨rfl, hge, l, hxl, hln⟩
  · intro hge
    refine ⟨hrn hge, ?_⟩
    intro hrt
    obtain ⟨k', hk', hbig, -⟩ := hgo hmtr hsttr hrt
    rw [hpi] at hk'; cases hk'
    obtain ⟨e, ei, he, hei, hset⟩ := hbig hge
    exact ⟨e, ei, he, hei, (setResponse_kept hor hor0 hset).1⟩
  · intro hlt hrt
    obtain ⟨k', hk', -, hsmall⟩ := hgo hmtr hsttr hrt
    rw [hpi] at hk'; cases hk'
    have hln : l.isNoneOrMissing = false := by
      rcases hwhere with ⟨mm, t, p, -, rfl, hf⟩ | ⟨-, hge, -⟩
      · rfl
      · omega
    obtain ⟨mm, t, p, hmm, rfl, hf, ⟨e, ei, rb, hdo, hcb, hdis, hver, hset⟩⟩ := hsmall hlt (hltr hln)
    have hmem : p ∈ vs := List.mem_of_find?_eq_some hf
    obtain ⟨a1, a2, a3, a4⟩ := dumpOp_single hmm (hvs p hmem) rfl hrt hdo hcb hdis
    refine ⟨t, p.1, p.2, e, ei, hxl, leadsTo_of_find hf, a1, a2, a3, a4, ?_, ?_⟩
    · refine (setResponse_kept hor hor0 hset).1.trans ?_
      unfold V.checkVersion at hver
      split at hver
      · rename_i hen; cases hver; rw [if_pos hen]
      · rename_i hen
        rw [if_neg hen]
        split at hver
        · cases hver
        split at hver
        · split at hver
          · cases hver
          · rw [(Prod.mk.inj (Except.ok.inj hver)).1]
        · cases hver; rfl
    · intro hen v0 w0 hv0 hv0n hw0' hw0n
      change x.getItem { attr := BulkA.versionWord } = _ at hv0
      rw [hxv] at hv0
      cases hv0
      unfold V.checkVersion at hver
      rw [if_neg (by rw [hen]; decide), hw0'] at hver
      have t1 : (Val.str v0).truthy = true := str_truthy hv0n
      have t2 : (Val.str w0).truthy = true := str_truthy hw0n
      simp only [t1, t2, Bool.and_self, if_true] at hver
      split at hver
      · cases hver
      · rename_i b' hbq
        have hdg : V.disagree 0 BulkA.versionWord (!b') {} = {} := by
          have := Except.ok.inj hver
          exact (Prod.mk.inj this).2
        cases b' with
        | false =>
          have := congrArg Issues.hasIssues hdg
          simp only [V.disagree, Bool.not_false, if_true, hasIssues_add] at this
          cases this
        | true =>
          simpa [Val.str, Val.pyEq, Val.pyEqN, Prim.pyEq] using hbq
  · intro hrt
    have := hsamer hmtr (by show ((Val.str stt).truthy && r.truthy) = false; rw [hrt, Bool.and_false])
    rw [this]; exact hr
  · intro w hw
    rw [← hxk w hw]
    cases hrt : r.truthy with
    | false =>
      rw [hsamer hmtr (by show ((Val.str stt).truthy && r.truthy) = false; rw [hrt, Bool.and_false])]
    | true =>
      obtain ⟨k', hk', hbig, hsmall⟩ := hgo hmtr hsttr hrt
      rw [hpi] at hk'; cases hk'
      by_cases hge : k ≥ 300
      · obtain ⟨e, ei, he, hei, hset⟩ := hbig hge
        exact (setResponse_kept hor hor0 hset).2 w hw
      · have hln : l.isNoneOrMissing = false := by
          rcases hwhere with ⟨mm, t, p, -, rfl, hf⟩ | ⟨-, hge', -⟩
          · rfl
          · exact absurd hge' hge
        obtain ⟨mm, t, p, hmm, rfl, hf, ⟨e, ei, rb, hdo, hcb, hdis, hver, hset⟩⟩ := hsmall (by omega) (hltr hln)
        exact (setResponse_kept hor hor0 hset).2 w hw

end Scim

namespace Scim.Examples.BulkResponses
local instance bulkResponsesEnv : PyEnv := asciiEnv
open V

/-- what is reported about a response, and the responses of its operations -/
def outcome (r : PyM (Response × Issues)) : Option (List (Loc × List Nat) × Val) :=
  r.toOption.map fun p => (p.2.issues.map (fun q => (q.1, q.2.map (·.code))),
    match p.1.body.getItem (BulkA.responseRep BulkA.responseWord) with
    | .ok (.list ds) => .list (ds.map fun d => match d.getItem { attr := "displayName".toList } with | .ok v => v | _ => .null)
    | _ => .null)

/-- the names a server knows -/
def known : List (Str × Schema) := byName [("Groups".toList, GroupA.schema)]

/-- a group as it is returned -/
def group (location : String) : Val :=
  .dict [("schemas".toList, .list [.str GroupA.urn]), ("id".toList, .str "1".toList), ("displayName".toList, .str "a".toList),
    ("meta".toList, .dict [("resourceType".toList, .str "Group".toList), ("location".toList, .str location.toList),
      ("version".toList, .str "v1".toList)])]

/-- an error as it is returned -/
def failure (status : String) : Val :=
  .dict [("schemas".toList, .list [.str ErrorA.urn]), ("status".toList, .str status.toList)]

def here : String := "https://example.com/v2/Groups/1"

/-- an operation of a response -/
def op (method location status : String) (response : Val) (more : List (Str × Val)) : Val :=
  .dict ([("method".toList, .str method.toList), ("location".toList, .str location.toList),
    ("status".toList, .str status.toList), ("response".toList, response)] ++ more)

/-- a bulk response -/
def bulk (ops : List Val) : Val := .dict [("schemas".toList, .list [.str BulkA.responseUrn]), ("Operations".toList, .list ops)]

/-- **C80** one failed operation, where one is allowed and where none is -/
example : outcome (dumpBulk known 200 (bulk [op "PUT" here "200" (group here) [], op "PUT" here "404" (failure "404") []]) .null
    (some 1)) = some ([], .list [.str "a".toList, .null]) := by decide +kernel
example : outcome (dumpBulk known 200 (bulk [op "PUT" here "200" (group here) [], op "PUT" here "404" (failure "404") []]) .null
    (some 0)) = some ([([.name "body".toList, .name "Operations".toList], [38])], .null) := by decide +kernel

/-- a group resource is one of those the property is about -/
theorem known_resource : ∀ p ∈ known, ResourceSchema p.2 := by
  intro p hp
  rw [show known = [("Groups".toList, GroupA.schema)] from rfl] at hp
  cases List.mem_singleton.mp hp
  exact ⟨group_wf, group_top_good.sane, meta_mem group_decl⟩

/-- **C88** a failed creation, a deletion and a replacement -/
example : outcome (dumpBulk known 200 (bulk [
    .dict [("method".toList, .str "POST".toList), ("bulkId".toList, .str "a".toList), ("status".toList, .str "409".toList),
      ("response".toList, failure "409")],
    .dict [("method".toList, .str "DELETE".toList), ("location".toList, .str here.toList), ("status".toList, .str "204".toList)],
    op "PUT" here "200" (group here) [("version".toList, .str "v1".toList)]]) .null none) =
    some ([], .list [.null, .null, .str "a".toList]) := by decide +kernel

/-- another version than the one of the resource, and another place -/
example : (outcome (dumpBulk known 200 (bulk [op "PUT" here "200" (group here) [("version".toList, .str "v2".toList)]]) .null
    none)).map (·.1.map (·.2)) = some [[11], [11]] := by decide +kernel
example : (outcome (dumpBulk known 200 (bulk [op "PUT" here "200" (group "https://example.com/v2/Groups/2") []]) .null
    none)).map (·.1.map (·.2)) = some [[11], [11]] := by decide +kernel

/-- **C88** The status of a successful operation is not checked like that of a single response: an operation with a status
that the single response is rejected for is accepted, and its resource is silently dropped. -/
theorem C88_dropped : ∃ (vs : List (Str × Schema)) (s : Schema) (x : Val), (∀ p ∈ vs, ResourceSchema p.2) ∧
    (∃ resp is e ei, dumpBulk vs 200 (bulk [x]) .null none = .ok (resp, is) ∧ is.hasIssues = false ∧
      resp.body.getItem (BulkA.responseRep BulkA.responseWord) = .ok (.list [.null]) ∧
      x.toCont.getItem { attr := "response".toList } = .ok (group here).toCont ∧
      singleResponse "PUT".toList s 201 (group here) here.toList = .ok (e, ei) ∧ ei.hasIssues = true) := by
  refine ⟨known, GroupA.schema, op "PUT" here "201" (group here) [], known_resource, ?_⟩
  have h : ∀ {α : Type} (r : PyM α), r.toOption.isSome = true → ∃ a, r = .ok a := by
    intro α r hr
    cases r with
    | error e => cases hr
    | ok a => exact ⟨a, rfl⟩
  obtain ⟨⟨resp, is⟩, h1⟩ := h (dumpBulk known 200 (bulk [op "PUT" here "201" (group here) []]) .null none) (by decide +kernel)
  obtain ⟨⟨e, ei⟩, h2⟩ := h (singleResponse "PUT".toList GroupA.schema 201 (group here) here.toList) (by decide +kernel)
  refine ⟨resp, is, e, ei, h1, ?_, ?_, by decide +kernel, h2, ?_⟩
  · have : (dumpBulk known 200 (bulk [op "PUT" here "201" (group here) []]) .null none).toOption.map (·.2.hasIssues) = some false := by
      decide +kernel
    rw [h1] at this
    exact Option.some.inj this
  · have : (dumpBulk known 200 (bulk [op "PUT" here "201" (group here) []]) .null none).toOption.map
        (fun p => Except.toOption (p.1.body.getItem (BulkA.responseRep BulkA.responseWord))) = some (some (.list [.null])) := by
      decide +kernel
    rw [h1] at this
    have h' : Except.toOption (resp.body.getItem (BulkA.responseRep BulkA.responseWord)) = some (.list [.null]) := Option.some.inj this
    revert h'
    cases resp.body.getItem (BulkA.responseRep BulkA.responseWord) with
    | error e => intro h; exact absurd h (by simp [Except.toOption])
    | ok a => intro h; exact congrArg Except.ok (Option.some.inj h)
  · have : (singleResponse "PUT".toList GroupA.schema 201 (group here) here.toList).toOption.map (·.2.hasIssues) = some true := by
      decide +kernel
    rw [h2] at this
    exact Option.some.inj this

end Scim.Examples.BulkResponses
