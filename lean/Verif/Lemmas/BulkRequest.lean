import Verif.Lemmas.BulkSchema
import Verif.Lemmas.Validators
import Verif.Spec.Bulk

/-! From the body of a bulk request to its operations. -/

namespace Scim
open Issues
variable [PyEnv]

/-- A string attribute without post-processors, when nothing is reported. -/
theorem string_clean {i : AttrInfo} (ht : i.type = .string) (hm : i.multi = false) (hp : i.parsers = []) {z w : Val}
    {j : Issues} (h : (Attr.simple i).process .parse z = .ok (w, j)) (hj : j.hasIssues = false) :
    w = z ∧ (z = .null ∨ ∃ s, z = .str s) := by
  by_cases hz : z.isNone = true
  · rw [isNone_iff.mp hz, C25_null] at h
    cases h
    exact ⟨(isNone_iff.mp hz).symm, .inl (isNone_iff.mp hz)⟩
  · rw [single_process hm (by simpa using hz)] at h
    rcases one_string ht z with ⟨s, rfl, ⟨hc, e⟩ | ⟨hc, hv, e⟩⟩ | ⟨hne, e⟩
    · rw [e] at h
      simp only [has_empty, AttrInfo.procs, hp, runProcs] at h
      cases h
      exact ⟨rfl, .inr ⟨s, rfl⟩⟩
    · rw [e] at h
      simp only [hasIssues_add] at h
      cases h
      rw [hasIssues_add] at hj; cases hj
    · rw [e] at h
      have : (Issues.merge {} (blocking 2)).hasIssues = true := rfl
      simp only [this] at h
      cases h
      rw [this] at hj; cases hj

namespace BulkA

theorem data_process (m : Mode) (z : Val) : dataA.process m z = .ok (z, {}) := by
  by_cases hz : z.isNone = true
  · rw [isNone_iff.mp hz]; exact C25_null m _
  · unfold dataA mkAttr
    rw [single_process rfl (by simpa using hz), one_unknown rfl rfl]
    cases m <;> rfl

/-- An operation of a request about which nothing is reported has the parts of the input. -/
theorem request_item {x y : Val} (hs : SubResult .parse requestSubs x y)
    (hc : ∀ s ∈ requestSubs, ∀ z w j, x.getItem s.rep = .ok z → z.isMissing = false →
      s.process .parse z = .ok (w, j) → j.hasIssues = false) :
    (∀ s ∈ requestSubs, y.getItem s.rep = x.getItem s.rep) ∧
    (∀ w ∈ [methodWord, idWord, pathWord], ∀ z, x.getItem { attr := w } = .ok z → z.isNoneOrMissing = true ∨ ∃ s, z = .str s) := by
  have hmiss : ∀ {z : Val}, z.isMissing = true → z = .missing := by
    intro z hz; cases z <;> simp [Val.isMissing] at hz; rfl
  have key : ∀ s ∈ requestSubs, ∀ z, x.getItem s.rep = .ok z → y.getItem s.rep = .ok z ∧
      (z.isNoneOrMissing = true ∨ (∃ t, z = .str t) ∨ s = dataA) := by
    intro s hsm z hz
    cases hm : z.isMissing with
    | true =>
      rw [hmiss hm] at hz ⊢
      exact ⟨hs.absent s hsm hz, .inl rfl⟩
    | false =>
      obtain ⟨w, j, hp, hw⟩ := hs.present s hsm z hz hm
      have hj := hc s hsm z w j hz hm hp
      have hcase : (∃ i : AttrInfo, s = .simple i ∧ i.type = .string ∧ i.multi = false ∧ i.parsers = []) ∨ s = dataA := by
        simp only [requestSubs, List.mem_cons, List.not_mem_nil, or_false] at hsm
        rcases hsm with rfl | rfl | rfl | rfl | rfl
        · exact .inl ⟨_, rfl, rfl, rfl, rfl⟩
        · exact .inl ⟨_, rfl, rfl, rfl, rfl⟩
        · exact .inl ⟨_, rfl, rfl, rfl, rfl⟩
        · exact .inl ⟨_, rfl, rfl, rfl, rfl⟩
        · exact .inr rfl
      rcases hcase with ⟨i, rfl, e1, e2, e3⟩ | rfl
      · obtain ⟨rfl, h2⟩ := string_clean e1 e2 e3 hp hj
        refine ⟨hw, ?_⟩
        rcases h2 with rfl | h2
        · exact .inl rfl
        · exact .inr (.inl h2)
      · rw [data_process] at hp
        cases hp
        exact ⟨hw, .inr (.inr rfl)⟩
  refine ⟨?_, ?_⟩
  · intro s hsm
    obtain ⟨z, hz⟩ := hs.read s hsm
    rw [hz, (key s hsm z hz).1]
  · intro w hw z hz
    have hd : ∀ s : Attr, s.rep.attr ≠ dataWord → s ≠ dataA := by rintro s h rfl; exact h rfl
    simp only [List.mem_cons, List.not_mem_nil, or_false] at hw
    rcases hw with rfl | rfl | rfl
    · rcases (key methodA (by simp [requestSubs]) z hz).2 with h | h | h
      · exact .inl h
      · exact .inr h
      · exact absurd h (hd _ (show methodWord ≠ dataWord by decide))
    · rcases (key idA (by simp [requestSubs]) z hz).2 with h | h | h
      · exact .inl h
      · exact .inr h
      · exact absurd h (hd _ (show idWord ≠ dataWord by decide))
    · rcases (key pathA (by simp [requestSubs]) z hz).2 with h | h | h
      · exact .inl h
      · exact .inr h
      · exact absurd h (hd _ (show pathWord ≠ dataWord by decide))

theorem request_lower {s : Attr} (hs : s ∈ requestSubs) : lower s.rep.attr ≠ [] := by
  simp only [requestSubs, List.mem_cons, List.not_mem_nil, or_false] at hs
  rcases hs with rfl | rfl | rfl | rfl | rfl
  · rw [show lower methodA.rep.attr = _ from PyEnv.lower_ascii methodWord (by decide)]; decide
  · rw [show lower idA.rep.attr = _ from PyEnv.lower_ascii idWord (by decide)]; decide
  · rw [show lower versionA.rep.attr = _ from PyEnv.lower_ascii versionWord (by decide)]; decide
  · rw [show lower pathA.rep.attr = _ from PyEnv.lower_ascii pathWord (by decide)]; decide
  · rw [show lower dataA.rep.attr = _ from PyEnv.lower_ascii dataWord (by decide)]; decide

/-- The operations of a request about which nothing is reported. -/
theorem request_clean {xs os : List Val} (h : requestOpsB.process .parse (.list xs) = .ok (.list os, {})) :
    os.length = xs.length ∧ ∀ (i : Nat) (x : Val), xs[i]? = some x → ∃ y o, os[i]? = some o ∧ y.Reach ∧ y.NoKeyFor [] ∧
      (∀ s ∈ requestSubs, y.getItem s.rep = x.getItem s.rep) ∧
      (∀ w ∈ [methodWord, idWord, pathWord], ∀ z, x.getItem { attr := w } = .ok z → z.isNoneOrMissing = true ∨ ∃ s, z = .str s) ∧
      RequestOk y o := by
  obtain ⟨os', e, hlen, -, -, hall⟩ := request_process h
  cases e
  obtain ⟨ys, h1, hok⟩ := hall rfl
  obtain ⟨ys', e, hlen', hbad, hgood, -⟩ := C27_multi .parse (opsInfo requestUrn) _ [] [] (opsInfo_decl _ _) rfl
    requestSubs_plain requestSubs_sane (by simp [Attr.cprocs]) xs _ _ h1
  cases e
  have hreach := multi_reach (m := .parse) (info := opsInfo requestUrn) rfl (opsInfo_decl _ _) h1
  refine ⟨hlen, ?_⟩
  intro i x hx
  cases hxc : x.isCont with
  | false => exact absurd rfl (hbad i x hx hxc).2
  | true =>
    obtain ⟨y, hy, hsr, hiss⟩ := hgood i x hx hxc
    obtain ⟨o, ho, hro⟩ := hok i y hy
    have hcl := request_item hsr (by
      intro s hs z w' j' hz hm hp
      rw [← Bool.not_eq_true]
      intro hj
      have hwj : j'.WF := process_wf s (saneAll_iff.mp requestSubs_sane s hs) hp
      obtain ⟨l, hl⟩ := (hasIssues_iff_errors hwj).mp hj
      have := hiss s hs z w' j' hz hm hp l hl
      exact hl this.symm)
    refine ⟨y, o, ho, hreach y (List.mem_of_getElem? hy), ?_, hcl.1, hcl.2, hro⟩
    intro k hk
    obtain ⟨s, hs, rfl, -⟩ := hsr.declared k hk
    rw [show lower ([] : Str) = [] from PyEnv.lower_ascii [] (by simp)]
    exact request_lower hs

end BulkA

namespace V
open BulkA (requestRep responseRep)

/-! ### The loop over the operations -/

omit [PyEnv] in
theorem opPartLoc_ne (i : Nat) (w : Str) : ¬ opPartLoc i w <+: opsLoc := by
  intro h
  have := h.length_le
  simp [opPartLoc, opsLoc, bodyLoc] at this

theorem mergeCopy_ok {s c r : Issues} {l : Loc} (h : s.mergeCopy c l = .ok r) : r = s.merge c l := by
  unfold Issues.mergeCopy at h
  split at h
  · cases h; rfl
  · cases h

theorem parseOpFor_spec {vs : List (Str × Schema)} {i : Nat} {o path data method o' : Val} {s r : Issues}
    (h : parseOpFor vs i o path data method s = .ok (o', r)) :
    r.errorsAt opsLoc = s.errorsAt opsLoc ∧ (s.hasIssues = true → r.hasIssues = true) := by
  unfold parseOpFor at h
  split at h
  · cases h; exact ⟨rfl, id⟩
  split at h
  · cases h
  split at h
  · cases h
  split at h
  · cases h
    refine ⟨?_, fun _ => by rw [hasIssues_add]⟩
    rw [errorsAt_add, if_neg, List.append_nil]
    intro e
    exact opPartLoc_ne i BulkA.pathWord (by rw [e]; exact List.prefix_refl _)
  · unfold parseOpData at h
    split at h
    · cases h
    split at h
    · cases h
    rename_i hm
    split at h
    · cases h
    cases h
    rw [mergeCopy_ok hm]
    refine ⟨errorsAt_merge_other (opPartLoc_ne _ _), ?_⟩
    intro hs
    exact (hasIssues_merge _ _ _).mpr (.inl hs)

theorem bulkOne_spec {vs : List (Str × Schema)} {i : Nat} {o path data method o' : Val} {s r : Issues}
    (h : bulkOne vs i o path data method s = .ok (o', r)) :
    r.errorsAt opsLoc = s.errorsAt opsLoc ∧ (s.hasIssues = true → r.hasIssues = true) := by
  unfold bulkOne at h
  split at h
  · exact parseOpFor_spec h
  · cases h; exact ⟨rfl, id⟩

theorem bulkLoop_spec {vs : List (Str × Schema)} {k : Nat} {os ps ds ms os' : List Val} {s r : Issues}
    (h : bulkLoop vs k os ps ds ms s = .ok (os', r)) :
    os'.length = os.length ∧ r.errorsAt opsLoc = s.errorsAt opsLoc ∧ (s.hasIssues = true → r.hasIssues = true) := by
  induction os generalizing k ps ds ms os' s with
  | nil => rw [bulkLoop] at h; cases h; exact ⟨rfl, rfl, id⟩; simp
  | cons o os ih =>
    cases ps with
    | nil => rw [bulkLoop] at h; cases h; exact ⟨rfl, rfl, id⟩; simp
    | cons p ps =>
    cases ds with
    | nil => rw [bulkLoop] at h; cases h; exact ⟨rfl, rfl, id⟩; simp
    | cons d ds =>
    cases ms with
    | nil => rw [bulkLoop] at h; cases h; exact ⟨rfl, rfl, id⟩; simp
    | cons m ms =>
      rw [bulkLoop] at h
      split at h
      · cases h
      rename_i o1 s1 ho
      split at h
      · cases h
      rename_i os1 s2 hos
      cases h
      obtain ⟨a1, a2⟩ := bulkOne_spec ho
      obtain ⟨b1, b2, b3⟩ := ih hos
      exact ⟨by simp [b1], by rw [b2, a1], fun hs => b3 (a2 hs)⟩

/-- Without issues the loop handles every operation. -/
theorem bulkLoop_clean {vs : List (Str × Schema)} {k : Nat} {os ps ds ms os' : List Val} {r : Issues}
    (h : bulkLoop vs k os ps ds ms {} = .ok (os', r)) (hn : r.hasIssues = false)
    (h1 : ps.length = os.length) (h2 : ds.length = os.length) (h3 : ms.length = os.length) :
    r = {} ∧ ∀ (i : Nat) (o p d m : Val), os[i]? = some o → ps[i]? = some p → ds[i]? = some d → ms[i]? = some m →
      ∃ o', os'[i]? = some o' ∧ parseOpFor vs (k + i) o p d m {} = .ok (o', {}) := by
  induction os generalizing k ps ds ms os' with
  | nil => rw [bulkLoop] at h; cases h; exact ⟨rfl, by simp⟩; simp
  | cons o os ih =>
    cases ps with
    | nil => simp at h1
    | cons p ps =>
    cases ds with
    | nil => simp at h2
    | cons d ds =>
    cases ms with
    | nil => simp at h3
    | cons m ms =>
      rw [bulkLoop] at h
      split at h
      · cases h
      rename_i o1 s1 ho
      split at h
      · cases h
      rename_i os1 s2 hos
      cases h
      have hs1 : s1.hasIssues = false := by
        rw [← Bool.not_eq_true]
        intro hs
        rw [(bulkLoop_spec hos).2.2 hs] at hn; cases hn
      have ho' : parseOpFor vs k o p d m {} = .ok (o1, s1) := by
        unfold bulkOne at ho
        rwa [if_pos (canProceed_empty _)] at ho
      have he : s1 = {} := by
        unfold parseOpFor at ho'
        split at ho'
        · cases ho'; rfl
        split at ho'
        · cases ho'
        split at ho'
        · cases ho'
        split at ho'
        · cases ho'; rw [hasIssues_add] at hs1; cases hs1
        unfold parseOpData at ho'
        split at ho'
        · cases ho'
        split at ho'
        · cases ho'
        rename_i hm
        split at ho'
        · cases ho'
        cases ho'
        have e := mergeCopy_ok hm
        rw [e] at hs1 ⊢
        rw [hasIssues_merge_false] at hs1
        exact merge_empty_clean _ hs1.2
      subst he
      obtain ⟨c1, c2⟩ := ih hos (by simpa using h1) (by simpa using h2) (by simpa using h3)
      refine ⟨c1, ?_⟩
      intro i
      cases i with
      | zero => intro o' p' d' m' a b c e; simp at a b c e; subst a b c e; exact ⟨o1, rfl, ho'⟩
      | succ i =>
        intro o' p' d' m' a b c e
        have := c2 i o' p' d' m' (by simpa using a) (by simpa using b) (by simpa using c) (by simpa using e)
        rw [show k + (i + 1) = k + 1 + i by omega]
        simpa using this

/-- The sub-attribute of an attribute, read from an object without the URN among its keys. -/
theorem getItem_sub_noKey {d : List (Str × Val)} {lc : List (Str × Str)} {u a w : Str} (hn : aget (lower u) lc = none)
    (hw : w ≠ []) :
    (Val.cont d lc).getItem { schema := u, attr := a, sub := w } = match (Val.cont d lc).getItem { schema := u, attr := a } with
      | .error e => .error e
      | .ok y => Val.getX true y { attr := w } := by
  rw [getItem_noKey (r := { schema := u, attr := a, sub := w }) hn, getItem_noKey (r := { schema := u, attr := a }) hn]
  have : w.isEmpty = false := by cases w <;> simp at hw ⊢
  cases h1 : aget (lower a) lc with
  | none => simp [Val.getX]
  | some k =>
    cases h2 : aget k d with
    | none => simp [h2]
    | some v => simp [h2, this]

theorem bulk_word_name {w : Str} (h : w ∈ [BulkA.methodWord, BulkA.idWord, BulkA.versionWord, BulkA.pathWord, BulkA.dataWord,
    BulkA.locationWord, BulkA.statusWord, BulkA.responseWord]) : isAttrName w = true := by
  apply isAttrName_ascii
  · revert w; decide
  · revert w; decide

/-- Reading a part of all operations. -/
theorem getItem_part {d : List (Str × Val)} {lc : List (Str × Str)} {u a w : Str} {y : Val} (hn : aget (lower u) lc = none)
    (hw : w ∈ [BulkA.methodWord, BulkA.idWord, BulkA.versionWord, BulkA.pathWord, BulkA.dataWord,
      BulkA.locationWord, BulkA.statusWord, BulkA.responseWord])
    (hy : (Val.cont d lc).getItem { schema := u, attr := a } = .ok y) :
    (Val.cont d lc).getItem { schema := u, attr := a, sub := w } = Val.getX true y { attr := w } := by
  rw [getItem_sub_noKey hn, hy]
  rintro rfl
  revert hw; decide

theorem request_no_root {body b : Val} {is0 : Issues} (hobj : body.isCont = true ∨ body.isDict = true)
    (h : BulkA.requestSchema.parse body = .ok (b, is0)) : is0.canProceed [opsLoc] = true := by
  have hw0 : is0.WF := schema_process_wf BulkA.request_wf BulkA.request_sane h
  apply canProceed_of_noErrors hw0
  intro q hq
  apply Classical.byContradiction
  intro hne
  have hq' : q = [] ∨ q.head? = some (.name "body".toList) := by
    cases q with
    | nil => exact .inl rfl
    | cons k q =>
      obtain ⟨t, ht⟩ := hq
      simp only [opsLoc, bodyLoc, List.cons_append, List.nil_append, List.cons.injEq] at ht
      right; rw [ht.1]; rfl
  obtain ⟨-, c2⟩ := C82_locations .parse BulkA.requestSchema BulkA.request_wf BulkA.request_sane body _ is0 hobj h
  obtain ⟨a, ha, x, y, i, l', -, -, -, e, -⟩ := c2 q (by
    rintro rfl
    rcases hq' with hq' | hq'
    · cases hq'
    · simp only [List.head?_cons, Option.some.injEq, LKey.name.injEq] at hq'
      exact absurd hq' (by decide)) hne
  have hr : a.reportLoc.head? ≠ some (.name "body".toList) ∧ a.reportLoc ≠ [] := by
    unfold Attr.reportLoc
    rcases BulkA.request_top a ha with rfl | rfl | rfl
    · rw [bindAttr_rep]; decide
    · rw [bindAttr_rep]; decide
    · rw [BulkA.requestOpsB_rep]; decide
  cases hrl : a.reportLoc with
  | nil => exact hr.2 hrl
  | cons k ks =>
    rw [hrl] at hr e
    rcases hq' with rfl | hq'
    · cases e
    · rw [e] at hq'
      exact hr.1 hq'

/-- Storing the operations. -/
theorem setOps_get {s : Schema} (hs : s.WF) {data b b' : Val} {m : Mode} {is0 : Issues} (hobj : (data.isCont || data.isDict) = true)
    (h : s.process m data = .ok (b, is0)) (hcore : ∀ a ∈ s.attrs.top, a.rep.ext = false)
    (ho : ∃ a ∈ s.attrs.top, a.rep.attr = BulkA.opsWord)
    {os : List Val} (hset : b.setItem { attr := BulkA.opsWord } (.list os) = .ok b') {u : Str}
    (hu : ∀ a ∈ s.attrs.top, lower a.rep.attr ≠ lower u) :
    b'.getItem { schema := u, attr := BulkA.opsWord } = .ok (.list os) := by
  obtain ⟨htr, ⟨dd, lc, rfl, hnk⟩, -⟩ := process_spec hs hobj h
  have hreach := schema_process_reach hobj h
  obtain ⟨c', hc', hget⟩ := C03_read_after_write hreach { attr := BulkA.opsWord } rfl rfl (.list os)
  rw [hset] at hc'
  cases hc'
  apply hget { schema := u, attr := BulkA.opsWord } rfl rfl
  intro k hk
  have hk' : k = BulkA.opsWord ∨ k ∈ (Val.cont dd lc).keys := by
    simp only [Val.setItem, Bool.false_eq_true, if_false, Val.setLocal, List.isEmpty_nil, if_true, Val.setPlain,
      Except.ok.injEq] at hset
    rw [← hset] at hk
    simp only [Val.keys] at hk ⊢
    rw [keys_aset] at hk
    split at hk
    · exact .inr hk
    · rcases List.mem_append.mp hk with h | h
      · exact .inr h
      · exact .inl (by simpa using h)
  rcases hk' with rfl | hk'
  · obtain ⟨a, ha, e⟩ := ho
    rw [← e]
    exact hu a ha
  · rcases htr.declared k hk' with ⟨a, ha, -, rfl⟩ | ⟨a, ha, he, -⟩
    · exact hu a ha
    · rw [hcore a ha] at he; cases he

/-- `parse_request` in terms of the operations of the body. -/
theorem parseBulk_bridge {maxOps : Option Int} {vs : List (Str × Schema)} {body headers query : Val} {req : Request}
    {is : Issues} (hobj : body.isCont = true ∨ body.isDict = true)
    (h : parseBulk maxOps vs body headers query = .ok (req, is)) :
    ∃ b is0 is2 m xs os j ps ds ms os' is3, BulkA.requestSchema.parse body = .ok (b, is0) ∧ is0.WF ∧
      Checker.call {} b BulkA.requestSchema.attrs .response = .ok is2 ∧ is2.WF ∧
      maxOps = some m ∧ body.toCont.getItem (requestRep []) = .ok (.list xs) ∧
      BulkA.requestOpsB.process .parse (.list xs) = .ok (.list os, j) ∧
      (∀ l, is0.errorsAt (.name BulkA.opsWord :: l) = j.errorsAt l) ∧
      b.getItem (requestRep []) = .ok (.list os) ∧
      getMap os { attr := BulkA.pathWord } = .ok ps ∧ getMap os { attr := BulkA.dataWord } = .ok ds ∧
      getMap os { attr := BulkA.methodWord } = .ok ms ∧
      bulkLoop vs 0 os ps ds ms ((Issues.empty.merge is0 bodyLoc).merge is2 bodyLoc) = .ok (os', is3) ∧
      checkMax maxOps os'.length is3 = .ok is ∧ os'.length = xs.length ∧ req.headers = headers ∧ req.query = query ∧
      (is.hasIssues = true → req.body = .null) ∧
      (is.hasIssues = false → req.body.getItem (requestRep []) = .ok (.list os')) := by
  unfold parseBulk at h
  split at h
  · cases h
  rename_i b is0 hb
  have hw0 : is0.WF := schema_process_wf BulkA.request_wf BulkA.request_sane hb
  split at h
  · cases h
  rename_i is2 hcall
  have hw2 : is2.WF := call_wf hcall
  have hobj' : (body.isCont || body.isDict) = true := by simpa using hobj
  obtain ⟨htr, ⟨dd, lc, rfl, hnk⟩, -⟩ := process_spec BulkA.request_wf hobj' hb
  have hnk' : aget (lower BulkA.requestUrn) lc = none := hnk
  have hreach := schema_process_reach hobj' hb
  have hrep : BulkA.requestOpsB.rep = requestRep [] := BulkA.requestOpsB_rep
  obtain ⟨x, hx⟩ := htr.read BulkA.requestOpsB BulkA.requestOpsB_mem
  rw [hrep] at hx
  have hlow : ∀ a ∈ BulkA.requestSchema.attrs.top, lower a.rep.attr ≠ lower BulkA.requestUrn := fun a ha =>
    BulkA.request_wf.noClash a (BulkA.request_wf.top_all _ ha) BulkA.requestUrn
      (by simp [Schema.schemas, BulkA.requestSchema, mkSchema])
  unfold parseBulkBody at h
  rw [request_no_root hobj hb] at h
  simp only [Bool.not_true, Bool.false_eq_true, if_false] at h
  have hparts : ∀ y, (Val.cont dd lc).getItem (requestRep []) = .ok y → ∀ w ∈ [BulkA.methodWord, BulkA.pathWord, BulkA.dataWord],
      (Val.cont dd lc).getItem (requestRep w) = Val.getX true y { attr := w } := by
    intro y hy w hw
    refine getItem_part hnk' ?_ hy
    revert hw; revert w; decide
  split at h
  case h_1 =>
    rename_i ops paths datas methods hops hpaths hdatas hmethods
    rw [hparts _ hops _ (by simp)] at hpaths hdatas hmethods
    obtain ⟨ps, e, hps⟩ := getX_list (bulk_word_name (by simp)) hpaths
    cases e
    obtain ⟨ds, e, hds⟩ := getX_list (bulk_word_name (by simp)) hdatas
    cases e
    obtain ⟨ms, e, hms⟩ := getX_list (bulk_word_name (by simp)) hmethods
    cases e
    cases hm : x.isMissing with
    | true =>
      exfalso
      have : x = .missing := by cases x <;> simp [Val.isMissing] at hm; rfl
      subst this
      have ha := htr.absent BulkA.requestOpsB BulkA.requestOpsB_mem (by rw [hrep]; rfl) (by rw [hrep]; exact hx)
      rw [hrep, hops] at ha
      cases ha
    | false =>
    obtain ⟨y, j, hp, hy⟩ := htr.present BulkA.requestOpsB BulkA.requestOpsB_mem x (by rw [hrep]; exact hx) hm
    rw [hrep, hops] at hy
    cases hy
    cases hnone : x.isNone with
    | true =>
      rw [isNone_iff.mp hnone, C25_null] at hp
      cases hp
    | false =>
    cases hlist : x.isList with
    | false =>
      rw [BulkA.requestOpsB_eq] at hp
      have := multi_non_list (info := BulkA.opsInfo BulkA.requestUrn) rfl hnone hlist hp
      cases this
    | true =>
    obtain ⟨xs, rfl⟩ : ∃ xs, x = .list xs := by cases x <;> simp [Val.isList] at hlist; exact ⟨_, rfl⟩
    obtain ⟨os, e, hlen, hwj, -, -⟩ := BulkA.request_process hp
    cases e
    unfold parseBulkOps at h
    split at h
    · cases h
    rename_i os' is3 hloop
    split at h
    · cases h
    rename_i b' hset
    split at h
    · cases h
    rename_i is4 hmax
    cases h
    obtain ⟨m, rfl⟩ : ∃ m, maxOps = some m := by
      unfold checkMax at hmax
      split at hmax
      · cases hmax
      · exact ⟨_, rfl⟩
    obtain ⟨l1, -, -⟩ := bulkLoop_spec hloop
    refine ⟨_, is0, is2, m, xs, ops, j, paths, datas, methods, os', is3, hb, hw0, hcall, hw2, rfl, hx, hp, ?_, hops, hps, hds, hms,
      hloop, hmax, by rw [l1, hlen], rfl, rfl, ?_, ?_⟩
    · intro l
      obtain ⟨c1, -⟩ := C82_locations .parse BulkA.requestSchema BulkA.request_wf BulkA.request_sane body _ is0 hobj hb
      obtain ⟨y', i', hp', c2⟩ := c1 BulkA.requestOpsB BulkA.requestOpsB_mem _ (by rw [hrep]; exact hx) hm
      rw [hp] at hp'
      cases hp'
      have hrl : BulkA.requestOpsB.reportLoc = [.name BulkA.opsWord] := by unfold Attr.reportLoc; rw [hrep]; rfl
      rw [hrl] at c2
      apply c2
      intro e
      simp only [List.singleton_append, List.cons.injEq, LKey.name.injEq] at e
      exact absurd e.1 (by decide)
    · intro hi; simp [hi]
    · intro hi
      simp only [hi, Bool.false_eq_true, if_false]
      refine setOps_get BulkA.request_wf hobj' hb ?_ ⟨_, BulkA.requestOpsB_mem, by rw [hrep]; rfl⟩ hset hlow
      intro a ha
      rcases BulkA.request_top a ha with rfl | rfl | rfl
      · rw [bindAttr_rep]
      · rw [bindAttr_rep]
      · rw [BulkA.requestOpsB_rep]; rfl
  all_goals cases h

end V
end Scim
