import Verif.Lemmas.PatchBridge
import Verif.Lemmas.Messages
import Verif.Model.Assets.Bulk

/-! The schemas of bulk messages, and what becomes of the list of operations. -/

namespace Scim
open Issues
variable [PyEnv]

omit [PyEnv] in
/-- A merge leaves the errors at other locations alone. -/
theorem errorsAt_merge_other {s o : Issues} {loc l : Loc} (h : ¬ loc <+: l) :
    (s.merge o loc).errorsAt l = s.errorsAt l := by
  unfold Issues.merge
  generalize o.issues = ps
  induction ps generalizing s with
  | nil => rfl
  | cons p ps ih =>
    rw [List.foldl_cons, ih]
    simp only [errorsAt, extendAt]
    rw [aget_aset_ne]
    intro e
    exact h ⟨p.1, e⟩

/-- The attributes of a schema whose complex attributes have named sub-attributes. -/
theorem mkSchema_top_named {u : Str} {as : List Attr} (hs : ∀ d ∈ as, ∀ s ∈ d.subs, s.rep.attr ≠ []) {a : Attr}
    (ha : a ∈ (mkSchema u as).attrs.top) :
    ∃ d ∈ schemasAttr :: as, a = bindAttr d { schema := u, attr := d.rep.attr } := by
  have hm : a ∈ (schemasAttr :: as).flatMap (bindWithSubs u false) ∧ a.rep.sub.isEmpty = true := List.mem_filter.mp ha
  obtain ⟨hm, hsub⟩ := hm
  rw [List.mem_flatMap] at hm
  obtain ⟨d, hd, hm⟩ := hm
  rcases mem_bindWithSubs.mp hm with rfl | ⟨s, hs', rfl⟩
  · exact ⟨d, hd, rfl⟩
  · exfalso
    rcases List.mem_cons.mp hd with rfl | hd
    · cases hs'
    · rw [bindAttr_rep] at hsub
      exact hs d hd s hs' (by simpa using hsub)

/-- A list of complex values is processed item by item; then come the post-processors. -/
theorem complex_list_split {m : Mode} {info : AttrInfo} {subs : List Attr} {ps ds : List Proc} (hd : ComplexDecl m info)
    (hm : info.multi = true) (hs : PlainSubs subs) (hsane : SaneAll subs) (hp : info.parsers = [] ∧ info.dumpers = [])
    {xs : List Val} {w : Val} {j : Issues}
    (h : (Attr.complex info subs ps ds).process m (.list xs) = .ok (w, j)) :
    ∃ ys is1, (Attr.complex info subs [] []).process m (.list xs) = .ok (.list ys, is1) ∧ is1.WF ∧
      ys.length = xs.length ∧ is1.errorsAt [] = [] ∧
      ((w = .list ys ∧ j = is1 ∧ is1.hasIssues = true) ∨
       (is1 = {} ∧ runProcs ((Attr.complex info subs ps ds).cprocs m) (.list ys) {} = .ok (w, j))) := by
  obtain ⟨r1, is1, h1, hcase⟩ := complex_split h
  have hw1 : is1.WF := process_wf _ (by
    rw [Attr.Sane]
    refine ⟨?_, hsane⟩
    intro p hp'
    simp [hp.1, hp.2] at hp') h1
  obtain ⟨ys, rfl, hlen, hbad, hgood, hlocs⟩ := C27_multi m info _ [] [] hd hm hs hsane
    (by cases m <;> simp [Attr.cprocs]) xs r1 is1 h1
  refine ⟨ys, is1, h1, hw1, hlen, ?_, ?_⟩
  · cases hc : is1.errorsAt [] with
    | nil => rfl
    | cons e es =>
      rcases hlocs [] (by rw [hc]; simp) with ⟨i, x, -, -, h'⟩ | ⟨i, -, s, -, l', h'⟩ | ⟨p, hp', -⟩
      · cases h'
      · cases h'
      · cases m <;> simp [Attr.cprocs] at hp'
  · rcases hcase with ⟨rfl, rfl, hc⟩ | ⟨hni, hrun⟩
    · cases hi : j.hasIssues with
      | true => exact .inl ⟨rfl, rfl, rfl⟩
      | false =>
        exfalso
        rcases hc with hc | hc | hc
        · rw [hi] at hc; cases hc
        · rw [eq_empty_of_noIssues hw1 hi] at hc; cases hc
        · cases hc
    · have he := eq_empty_of_noIssues hw1 hni
      subst he
      exact .inr ⟨rfl, hrun⟩

namespace BulkA

/-! ### Requests -/

/-- The parts of an operation of a request. -/
def requestSubs : List Attr := [methodA, idA, versionA, pathA, dataA]

theorem requestSubs_plain : PlainSubs requestSubs := by
  refine ⟨?_, ?_, ?_⟩
  · simp [requestSubs, AttrRep.Plain, methodA, idA, versionA, pathA, dataA, mkAttr, Attr.rep, Attr.info]
  · simp [requestSubs, methodA, idA, versionA, pathA, dataA, mkAttr, Attr.rep, Attr.info, methodWord, idWord, versionWord,
      pathWord, dataWord]
  · have hl : requestSubs.map (fun s => lower s.rep.attr) =
        ["method".toList, "bulkid".toList, "version".toList, "path".toList, "data".toList] := by
      simp only [requestSubs, List.map_cons, List.map_nil, methodA, idA, versionA, pathA, dataA, mkAttr, Attr.rep, Attr.info]
      rw [PyEnv.lower_ascii _ (by decide), PyEnv.lower_ascii _ (by decide), PyEnv.lower_ascii _ (by decide),
        PyEnv.lower_ascii _ (by decide), PyEnv.lower_ascii _ (by decide)]
      rfl
    rw [hl]; decide

theorem requestSubs_sane : SaneAll requestSubs := by
  rw [saneAll_iff]
  intro a ha
  simp only [requestSubs, List.mem_cons, List.not_mem_nil, or_false] at ha
  rcases ha with rfl | rfl | rfl | rfl | rfl <;>
    (intro p hp; rcases hp with hp | hp <;> simp at hp)

/-- `Operations`, bound to the schema of requests. -/
def requestOpsB : Attr := bindAttr requestOps (requestRep [])

/-- Its description. -/
def opsInfo (u : Str) : AttrInfo :=
  { rep := { schema := u, attr := opsWord }, type := .complex, required := true, multi := true, caseExact := false,
    canonical := none, validateCanon := false }

theorem requestOps_subs : requestOps.subs = requestSubs := by
  unfold requestOps mkComplex
  rw [show [methodA, idA, versionA, pathA, dataA] = requestSubs from rfl, ofList_all requestSubs_plain.keys]
  rfl

theorem requestOpsB_eq : requestOpsB = .complex (opsInfo requestUrn) requestSubs [validateRequest, validateSinglePrimary]
    [validateSinglePrimary] := by
  unfold requestOpsB requestOps mkComplex
  rw [show [methodA, idA, versionA, pathA, dataA] = requestSubs from rfl, ofList_all requestSubs_plain.keys]
  rfl

theorem opsInfo_decl (u : Str) (m : Mode) : ComplexDecl m (opsInfo u) := ⟨rfl, rfl, by cases m <;> rfl⟩

/-- The names of the schema. -/
def requestNames : List (AttrRep × List AttrRep) := @declNames (@schemasAttr asciiEnv :: [@failA asciiEnv, @requestOps asciiEnv])

theorem requestNames_eq : declNames (schemasAttr :: [failA, requestOps]) = requestNames := rfl

theorem request_wf : requestSchema.WF :=
  mkSchema_wf (declarations_of requestNames_eq (by decide +kernel)) (by decide +kernel)
    (fun d hd => noClash_of requestNames_eq (by decide +kernel) (urns := [requestUrn]) (by decide +kernel) d hd _ (by simp))

theorem requestOpsB_mem : requestOpsB ∈ requestSchema.attrs.top :=
  mkSchema_mem (u := requestUrn) (as := [failA, requestOps]) (d := requestOps) (by simp)

theorem requestOpsB_rep : requestOpsB.rep = requestRep [] := bindAttr_rep _ _

theorem request_top : ∀ a ∈ requestSchema.attrs.top, a = bindAttr schemasAttr { schema := requestUrn, attr := "schemas".toList } ∨
    a = bindAttr failA { schema := requestUrn, attr := "failOnErrors".toList } ∨ a = requestOpsB := by
  intro a ha
  obtain ⟨d, hd, rfl⟩ := mkSchema_top_named (u := requestUrn) (as := [failA, requestOps]) (by
    intro d hd s hs
    simp only [List.mem_cons, List.not_mem_nil, or_false] at hd
    rcases hd with rfl | rfl
    · cases hs
    · rw [requestOps_subs] at hs
      exact requestSubs_plain.named s hs) ha
  simp only [List.mem_cons, List.not_mem_nil, or_false] at hd
  rcases hd with rfl | rfl | rfl
  · exact .inl rfl
  · exact .inr (.inl rfl)
  · exact .inr (.inr rfl)

end BulkA

namespace BulkA

/-! ### The check of the operations of a request -/

omit [PyEnv] in
theorem missingAt_wf {i : Nat} {w : Str} {b : Bool} {s : Issues} (hs : s.WF) : (missingAt i w b s).WF := by
  unfold missingAt; split
  · exact hs.add _ _ _
  · exact hs

omit [PyEnv] in
theorem missingAt_errors {i : Nat} {w : Str} {b : Bool} {s : Issues} {l : Loc} (hl : ∀ l', l ≠ .idx i :: l') :
    (missingAt i w b s).errorsAt l = s.errorsAt l := by
  unfold missingAt; split
  · rw [errorsAt_add, if_neg (fun e => hl _ e.symm), List.append_nil]
  · rfl

omit [PyEnv] in
theorem missingAt_has {i : Nat} {w : Str} {b : Bool} {s : Issues} :
    (missingAt i w b s).hasIssues = false ↔ s.hasIssues = false ∧ b = false := by
  unfold missingAt; split
  · rename_i h; simp [hasIssues_add, h]
  · rename_i h; simp at h; simp [h]

omit [PyEnv] in
theorem methodExists_wf {i : Nat} {v : Val} {s : Issues} (hs : s.WF) : (methodExists i v s).WF := by
  unfold methodExists
  refine hs.merge ?_ _
  split
  · exact WF.empty.add _ _ _
  · exact WF.empty

omit [PyEnv] in
theorem methodExists_errors {i : Nat} {v : Val} {s : Issues} {l : Loc} (hl : ∀ l', l ≠ .idx i :: l') :
    (methodExists i v s).errorsAt l = s.errorsAt l := by
  unfold methodExists
  rw [errorsAt_merge_other]
  rintro ⟨t, rfl⟩
  exact hl _ rfl

omit [PyEnv] in
theorem methodExists_has {i : Nat} {v : Val} {s : Issues} :
    (methodExists i v s).hasIssues = false ↔ s.hasIssues = false ∧ v.isNoneOrMissing = false := by
  unfold methodExists
  rw [hasIssues_merge_false]
  split
  · rename_i h; simp [hasIssues_add, h]
  · rename_i h; simp at h; simp [h]; intro; rfl

theorem checkPath_spec {i : Nat} {method path : Val} {s r : Issues} (h : checkPath i method path s = .ok r) :
    (s.WF → r.WF) ∧ (∀ l, (∀ l', l ≠ .idx i :: l') → r.errorsAt l = s.errorsAt l) ∧
    (r.hasIssues = false → s.hasIssues = false ∧
      (method.isText postWord = true → ∃ p, path = .str p ∧ isTypePath p = true) ∧
      ((method.isText getWord || method.isText patchWord || method.isText putWord || method.isText deleteWord) = true →
        method.isText postWord = false → ∃ p, path = .str p ∧ isObjectPath p = true)) := by
  have hadd : ∀ (c : Nat) (l : Loc), (∀ l', l ≠ .idx i :: l') →
      (s.add ⟨c, []⟩ false [.idx i, .name pathWord]).errorsAt l = s.errorsAt l := by
    intro c l hl
    rw [errorsAt_add, if_neg (fun e => hl _ e.symm), List.append_nil]
  unfold checkPath at h
  split at h
  · rename_i hm
    split at h
    · rename_i p
      cases h
      split
      · rename_i hp
        exact ⟨id, fun _ _ => rfl, fun hn => ⟨hn, fun _ => ⟨p, rfl, hp⟩, fun _ h' => by rw [hm] at h'; cases h'⟩⟩
      · exact ⟨fun hs => hs.add _ _ _, hadd 34, fun hn => by rw [hasIssues_add] at hn; cases hn⟩
    · cases h
  · rename_i hm
    split at h
    · rename_i hm2
      split at h
      · rename_i p
        cases h
        split
        · rename_i hp
          exact ⟨id, fun _ _ => rfl, fun hn => ⟨hn, fun h' => absurd h' hm, fun _ _ => ⟨p, rfl, hp⟩⟩⟩
        · exact ⟨fun hs => hs.add _ _ _, hadd 35, fun hn => by rw [hasIssues_add] at hn; cases hn⟩
      · cases h
    · rename_i hm2
      cases h
      exact ⟨id, fun _ _ => rfl, fun hn => ⟨hn, fun h' => absurd h' hm, fun h' => absurd h' hm2⟩⟩

/-- An operation about which the check of a request reports nothing. -/
structure RequestOk (o o' : Val) : Prop where
  method : ∃ v, o.getItem { attr := methodWord } = .ok v ∧ v.isNoneOrMissing = false ∧ dropData v o = .ok o' ∧
    (v.isText postWord = true → ∃ b, o.getItem { attr := idWord } = .ok b ∧ b.isNoneOrMissing = false) ∧
    (∃ p, o'.getItem { attr := pathWord } = .ok p ∧ p.isNoneOrMissing = false ∧
      (v.isText postWord = true → ∃ t, p = .str t ∧ isTypePath t = true) ∧
      ((v.isText getWord || v.isText patchWord || v.isText putWord || v.isText deleteWord) = true →
        v.isText postWord = false → ∃ t, p = .str t ∧ isObjectPath t = true)) ∧
    ∃ d, o'.getItem { attr := dataWord } = .ok d ∧ (hasData v = true → d.isNoneOrMissing = false)

theorem checkRequestOp_spec {i : Nat} {o o' : Val} {s r : Issues} (h : checkRequestOp i o s = .ok (o', r)) :
    (s.WF → r.WF) ∧ (∀ l, (∀ l', l ≠ .idx i :: l') → r.errorsAt l = s.errorsAt l) ∧
    (r.hasIssues = false → s.hasIssues = false ∧ RequestOk o o') := by
  unfold checkRequestOp at h
  split at h
  · cases h
  rename_i method hme
  dsimp only at h
  split at h
  · cases h
  rename_i id hid
  split at h
  · cases h
  rename_i o2 hdrop
  split at h
  · cases h
  rename_i path hpath
  split at h
  · cases h
  rename_i s3 hp
  split at h
  · cases h
  rename_i data hdata
  cases h
  have hp' : (((missingAt i idWord (method.isText postWord && id.isNoneOrMissing) (methodExists i method s)).WF → s3.WF)) ∧
      (∀ l, (∀ l', l ≠ .idx i :: l') → s3.errorsAt l =
        (missingAt i idWord (method.isText postWord && id.isNoneOrMissing) (methodExists i method s)).errorsAt l) ∧
      (s3.hasIssues = false →
        (missingAt i idWord (method.isText postWord && id.isNoneOrMissing) (methodExists i method s)).hasIssues = false ∧
        path.isNoneOrMissing = false ∧
      (method.isText postWord = true → ∃ p, path = .str p ∧ isTypePath p = true) ∧
      ((method.isText getWord || method.isText patchWord || method.isText putWord || method.isText deleteWord) = true →
        method.isText postWord = false → ∃ p, path = .str p ∧ isObjectPath p = true)) := by
    generalize missingAt i idWord (method.isText postWord && id.isNoneOrMissing) (methodExists i method s) = s2 at hp
    unfold pathOrMissing at hp
    split at hp
    · cases hp
      refine ⟨fun hs => hs.add _ _ _, ?_, fun hn => by rw [hasIssues_add] at hn; cases hn⟩
      intro l hl
      rw [errorsAt_add, if_neg (fun e => hl _ e.symm), List.append_nil]
    · rename_i hne
      obtain ⟨a1, a2, a3⟩ := checkPath_spec hp
      exact ⟨a1, a2, fun hn => ⟨(a3 hn).1, by simpa using hne, (a3 hn).2⟩⟩
  obtain ⟨a1, a2, a3⟩ := hp'
  refine ⟨?_, ?_, ?_⟩
  · intro hs
    exact missingAt_wf (a1 (missingAt_wf (methodExists_wf hs)))
  · intro l hl
    rw [missingAt_errors hl, a2 l hl, missingAt_errors hl, methodExists_errors hl]
  · intro hn
    rw [missingAt_has] at hn
    obtain ⟨b1, b2, b3, b4⟩ := a3 hn.1
    rw [missingAt_has, methodExists_has] at b1
    refine ⟨b1.1.1, ⟨method, hme, b1.1.2, hdrop, ?_, ⟨path, hpath, b2, b3, b4⟩, data, hdata, ?_⟩⟩
    · intro hpost
      have := b1.2
      rw [hpost] at this
      exact ⟨id, hid, by simpa using this⟩
    · intro hd
      have := hn.2
      rw [hd] at this
      simpa using this

theorem requestLoop_spec {k : Nat} {os os' : List Val} {s r : Issues} (h : requestLoop k os s = .ok (os', r)) :
    (s.WF → r.WF) ∧ os'.length = os.length ∧ r.errorsAt [] = s.errorsAt [] ∧
    (r.hasIssues = false → s.hasIssues = false ∧ ∀ (i : Nat) (o : Val), os[i]? = some o → ∃ o', os'[i]? = some o' ∧ RequestOk o o') := by
  induction os generalizing k s os' with
  | nil => rw [requestLoop] at h; cases h; exact ⟨id, rfl, rfl, fun hn => ⟨hn, by simp⟩⟩
  | cons o os ih =>
    rw [requestLoop] at h
    split at h
    · cases h
    rename_i o1 s1 ho
    split at h
    · cases h
    rename_i os1 s2 hos
    cases h
    obtain ⟨a1, a2, a3⟩ := checkRequestOp_spec ho
    obtain ⟨b1, b2, b3, b4⟩ := ih hos
    refine ⟨fun hs => b1 (a1 hs), by simp [b2], by rw [b3, a2 [] (by simp)], ?_⟩
    intro hn
    obtain ⟨c1, c2⟩ := b4 hn
    obtain ⟨d1, d2⟩ := a3 c1
    refine ⟨d1, ?_⟩
    intro i z hz
    cases i with
    | zero => simp only [List.getElem?_cons_zero, Option.some.injEq] at hz; subst hz; exact ⟨o1, rfl, d2⟩
    | succ i => simpa using c2 i z (by simpa using hz)

/-- What becomes of the operations of a request. -/
theorem request_process {xs : List Val} {w : Val} {j : Issues} (h : requestOpsB.process .parse (.list xs) = .ok (w, j)) :
    ∃ os : List Val, w = .list os ∧ os.length = xs.length ∧ j.WF ∧ (∀ e ∈ j.errorsAt [], e.code = 9) ∧
      (j.hasIssues = false → ∃ ys, (Attr.complex (opsInfo requestUrn) requestSubs [] []).process .parse (.list xs) = .ok (.list ys, {}) ∧
        ∀ (i : Nat) (y : Val), ys[i]? = some y → ∃ o, os[i]? = some o ∧ RequestOk y o) := by
  rw [requestOpsB_eq] at h
  obtain ⟨ys, is1, h1, hw, hlen, hnil, hcase⟩ := complex_list_split (opsInfo_decl _ _) rfl requestSubs_plain requestSubs_sane
    ⟨rfl, rfl⟩ h
  rcases hcase with ⟨rfl, rfl, hi⟩ | ⟨rfl, hrun⟩
  · exact ⟨ys, rfl, hlen, hw, by rw [hnil]; simp, fun hn => by rw [hi] at hn; cases hn⟩
  · simp only [Attr.cprocs, runProcs, validateRequest] at hrun
    cases hv : requestLoop 0 ys {} with
    | error e => rw [hv] at hrun; cases hrun
    | ok q =>
      obtain ⟨os, iv⟩ := q
      rw [hv] at hrun
      simp only at hrun
      obtain ⟨a1, a2, a3, a4⟩ := requestLoop_spec hv
      have hwv := a1 WF.empty
      cases hsp : validateSinglePrimary (.list os) with
      | error e => rw [hsp] at hrun; cases hrun
      | ok q =>
        obtain ⟨w', ip⟩ := q
        rw [hsp] at hrun
        obtain ⟨rfl, hwp⟩ := validateSinglePrimary_wf hsp
        cases hrun
        refine ⟨os, rfl, by rw [a2, hlen], (WF.empty.merge hwv _).merge hwp _, ?_, ?_⟩
        · intro e he
          rw [errorsAt_merge hwp, errorsAt_merge hwv] at he
          simp only [a3, errorsAt_empty, List.nil_append, List.prefix_nil, if_true, List.length_nil,
            List.drop_nil, List.append_nil, ite_self] at he
          unfold validateSinglePrimary at hsp
          simp only at hsp
          split at hsp
          · cases hsp
          · cases hsp
            split at he
            · rw [errorsAt_add] at he
              simp at he
              rw [he]
            · simp at he
        · intro hn
          rw [hasIssues_merge_false, hasIssues_merge_false] at hn
          exact ⟨ys, h1, (a4 hn.1.2).2⟩

theorem procSane_validateRequest : ProcSane validateRequest := by
  intro v r is h
  unfold validateRequest at h
  split at h
  · split at h
    · cases h
    · rename_i hh
      cases h
      exact (requestLoop_spec hh).1 WF.empty
  · cases h

theorem request_sane : SaneAll requestSchema.attrs.top := by
  rw [saneAll_iff]
  intro a ha
  rcases request_top a ha with rfl | rfl | rfl
  · intro p hp
    rcases hp with hp | hp <;> exact absurd hp (by simp)
  · intro p hp
    rcases hp with hp | hp <;> exact absurd hp (by simp)
  · rw [requestOpsB_eq]
    refine ⟨?_, requestSubs_sane⟩
    intro p hp
    simp only [opsInfo, List.not_mem_nil, List.mem_cons, or_false, false_or] at hp
    rcases hp with (rfl | rfl) | rfl
    · exact procSane_validateRequest
    · exact fun _ _ _ h => (validateSinglePrimary_wf h).2
    · exact fun _ _ _ h => (validateSinglePrimary_wf h).2

end BulkA
end Scim
