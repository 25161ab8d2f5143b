import Verif.Lemmas.BulkRequest
import Verif.Lemmas.Under
import Verif.Props.Responses

/-! Bulk requests (C80, C87). -/

namespace Scim
open Issues
variable [PyEnv]

theorem checkPresence_codes {c : Checker} {v : Val} {d : Direction} {a : Attr} {l : Loc} {e : VErr}
    (h : e ∈ (c.checkPresence v d a).errorsAt l) : e.code = 15 ∨ e.code = 19 := by
  unfold Checker.checkPresence at h
  repeat' split at h
  all_goals first
    | (simp at h; done)
    | (rw [errorsAt_add] at h; split at h <;> simp at h; subst h; simp)

/-- **C80** A request is reported as too large exactly when its body lists more operations than configured; its body
is then withheld. -/
theorem C80_request (maxOps : Option Int) (vs : List (Str × Schema)) (body headers query : Val) (req : Request) (is : Issues)
    (hobj : body.isCont = true ∨ body.isDict = true)
    (h : V.parseBulk maxOps vs body headers query = .ok (req, is)) :
    ∃ max xs, maxOps = some max ∧ body.toCont.getItem { schema := BulkA.requestUrn, attr := "Operations".toList } = .ok (.list xs) ∧
      (37 ∈ is.codesAt [.name "body".toList, .name "Operations".toList] ↔ (xs.length : Int) > max) ∧
      ((xs.length : Int) > max → req.body = .null) := by
  obtain ⟨b, is0, is2, m, xs, os, j, ps, ds, ms, os', is3, hb, hw0, hcall, hw2, rfl, hx, hp, hloc, -, -, -, -, hloop, hmax,
    hlen, -, -, hnull, -⟩ := V.parseBulk_bridge hobj h
  obtain ⟨-, e1, -⟩ := V.bulkLoop_spec hloop
  obtain ⟨-, -, -, -, hj9, -⟩ := BulkA.request_process hp
  -- what stands at the operations before the comparison
  have h3 : 37 ∉ is3.codesAt V.opsLoc := by
    rw [mem_codesAt, e1, errorsAt_merge hw2, errorsAt_merge hw0]
    rintro ⟨e, he, hc⟩
    have hpre : V.bodyLoc <+: V.opsLoc := List.prefix_append _ _
    simp only [errorsAt_empty, List.nil_append, if_pos hpre, List.mem_append] at he
    rcases he with he | he
    · have he' : e ∈ is0.errorsAt [.name BulkA.opsWord] := he
      rw [hloc] at he'
      rw [hj9 e he'] at hc; cases hc
    · obtain ⟨a, -, v, -, he⟩ := (call_errors _ _ _ _ _ hcall _ _).mp he
      rcases checkPresence_codes he with h' | h' <;> rw [h'] at hc <;> cases hc
  refine ⟨m, xs, rfl, hx, ?_, ?_⟩
  · show 37 ∈ is.codesAt V.opsLoc ↔ _
    unfold V.checkMax at hmax
    simp only [Except.ok.injEq] at hmax
    rw [hlen] at hmax
    split at hmax
    · rename_i hgt
      simp only [hgt, iff_true]
      rw [← hmax, mem_codesAt]
      exact ⟨⟨37, []⟩, by rw [errorsAt_add]; simp, rfl⟩
    · rename_i hgt
      rw [← hmax]
      simp only [hgt, iff_false]
      exact h3
  · intro hgt
    apply hnull
    unfold V.checkMax at hmax
    simp only [Except.ok.injEq] at hmax
    rw [hlen, if_pos hgt] at hmax
    rw [← hmax, hasIssues_add]

/-! ### Paths -/

theorem slash_not_word : isWord '/' = false := by
  rw [PyEnv.isWord_ascii _ (by decide)]; decide

omit [PyEnv] in
theorem takeWhile_append_stop {α : Type} {p : α → Bool} {xs : List α} {y : α} {ys : List α} (h : ∀ x ∈ xs, p x = true)
    (hy : p y = false) : (xs ++ y :: ys).takeWhile p = xs := by
  induction xs with
  | nil => simp [hy]
  | cons x xs ih =>
    rw [List.cons_append, List.takeWhile_cons, h x (by simp)]
    simp only [if_true]
    rw [ih (fun x hx => h x (List.mem_cons_of_mem _ hx))]

/-- The path of an operation that passed the check, and the name read from it. -/
theorem typePath_target {t : Str} (h : BulkA.isTypePath t = true) :
    ∃ name, BulkTarget "POST".toList t name ∧ V.resourceName (.str BulkA.postWord) (.str t) = .ok name := by
  unfold BulkA.isTypePath at h
  split at h
  · rename_i s
    refine ⟨s, .collection h, ?_⟩
    have hd : ('/' :: s).dropWhile (· ≠ '/') = '/' :: s := by simp [List.dropWhile]
    show V.resourceName (.prim (.str BulkA.postWord)) (.prim (.str ('/' :: s))) = _
    unfold V.resourceName
    simp only [hd]
    rfl
  · cases h

theorem objectPath_target {m t : Str} (h : BulkA.isObjectPath t = true)
    (hm : m ∈ ["GET".toList, "PUT".toList, "PATCH".toList, "DELETE".toList]) :
    ∃ name, BulkTarget m t name ∧ V.resourceName (.str m) (.str t) = .ok name := by
  unfold BulkA.isObjectPath at h
  split at h
  · rename_i s
    simp only [Bool.and_eq_true, Bool.not_eq_true', List.isEmpty_eq_false_iff] at h
    obtain ⟨h1, h2⟩ := h
    unfold BulkA.isObjectRest at h2
    split at h2
    · rename_i rest hrest
      have hs : s = s.takeWhile isWord ++ '/' :: rest := by
        rw [← hrest]; exact (List.takeWhile_append_dropWhile).symm
      have hword : ∀ c ∈ s.takeWhile isWord, isWord c = true := fun c hc => by
        have := List.all_takeWhile (p := isWord) (l := s)
        exact List.all_eq_true.mp this c hc
      refine ⟨s.takeWhile isWord, ?_, ?_⟩
      · have := BulkTarget.member (method := m) (name := s.takeWhile isWord) (rest := rest) hm (by
          unfold isWordRun
          rw [Bool.and_eq_true]
          refine ⟨by simpa using h1, List.all_eq_true.mpr hword⟩) (by
          intro hc
          have := List.all_eq_true.mp h2 _ hc
          simp at this)
        rwa [List.cons_append, ← hs] at this
      · have hd : ('/' :: s).dropWhile (· ≠ '/') = '/' :: s := by simp [List.dropWhile]
        have hp : (Val.str m).isText BulkA.postWord = false := by
          rw [← Bool.not_eq_true]
          intro h'
          rw [isText_iff] at h'
          have : m = BulkA.postWord := by simpa [Val.str] using h'
          subst this
          revert hm; decide
        show V.resourceName (.str m) (.prim (.str ('/' :: s))) = _
        unfold V.resourceName
        simp only [hd, hp, Bool.false_eq_true, if_false, Except.ok.injEq]
        conv => lhs; rw [hs]
        apply takeWhile_append_stop
        · intro c hc
          simp only [ne_eq, decide_not, Bool.not_eq_true', decide_eq_false_iff_not]
          rintro rfl
          have := hword _ hc
          rw [slash_not_word] at this; cases this
        · simp
    · cases h2
  · cases h

theorem mem_five {v : Val} {m : V.Method} (h : V.methodOf v = some m) :
    ∃ t, v = .str t ∧ (t = BulkA.postWord ∨ t ∈ ["GET".toList, "PUT".toList, "PATCH".toList, "DELETE".toList]) := by
  unfold V.methodOf at h
  split at h
  · rename_i h'; exact ⟨_, isText_iff.mp h', .inr (by decide)⟩
  split at h
  · rename_i h'; exact ⟨_, isText_iff.mp h', .inl rfl⟩
  split at h
  · rename_i h'; exact ⟨_, isText_iff.mp h', .inr (by decide)⟩
  split at h
  · rename_i h'; exact ⟨_, isText_iff.mp h', .inr (by decide)⟩
  split at h
  · rename_i h'; exact ⟨_, isText_iff.mp h', .inr (by decide)⟩
  · cases h

theorem text_iff {s t : Str} : (Val.str s).isText t = true ↔ s = t := by
  rw [isText_iff]
  simp [Val.str]

/-- The parts of an operation other than its data survive the deletion and the replacement of the data. -/
theorem kept_lower {w : Str} (h : w ∈ keptParts) : lower w ≠ lower BulkA.dataWord := by
  rw [PyEnv.lower_ascii, PyEnv.lower_ascii _ (by decide)]
  · revert w; decide
  · revert w; decide

theorem delItem_keys {c c' : Val} (hc : c.Reach) {w : Str} (h0 : c.NoKeyFor []) (h : c.delItem { attr := w } = .ok c') :
    ∀ k ∈ c'.keys, k ∈ c.keys := by
  obtain ⟨data, lc, rfl, hi⟩ := hc.inv
  simp only [Val.delItem, Val.delX, Bool.false_and, Bool.false_eq_true, ↓reduceIte, hi.noKey (schema := []) h0,
    List.isEmpty_nil] at h
  intro k hk
  split at h
  · cases h; exact hk
  · split at h
    · cases h
      simp only [Val.keys] at hk ⊢
      exact mem_keys_adel hk
    · cases h

theorem dropData_kept {v y o : Val} (hr : y.Reach) (h0 : y.NoKeyFor []) (h : BulkA.dropData v y = .ok o) :
    o.Reach ∧ o.NoKeyFor [] ∧ (∀ w ∈ keptParts, o.getItem { attr := w } = y.getItem { attr := w }) ∧ (BulkA.hasData v = true → o = y) := by
  unfold BulkA.dropData at h
  split at h
  · rename_i hv
    refine ⟨.del _ hr h, fun k hk => h0 k (delItem_keys hr h0 h k hk), fun w hw => C04_delete_frame hr { attr := BulkA.dataWord } { attr := w } rfl (kept_lower hw) h0 h h0, ?_⟩
    intro hd
    exfalso
    unfold BulkA.hasData at hd
    simp only [Bool.or_eq_true] at hv hd
    have key : ∀ a ∈ [BulkA.getWord, BulkA.deleteWord], ∀ b ∈ [BulkA.postWord, BulkA.putWord, BulkA.patchWord],
        v.isText a = true → v.isText b = true → False := by
      intro a ha b hb h1 h2
      have hne : a ≠ b := by
        simp only [List.mem_cons, List.not_mem_nil, or_false] at ha hb
        rcases ha with rfl | rfl <;> rcases hb with rfl | rfl | rfl <;> decide
      have := isText_ne h1 hne
      rw [h2] at this; cases this
    rcases hv with hv | hv <;> rcases hd with (hd | hd) | hd
    all_goals exact key _ (by simp) _ (by simp) hv hd
  · cases h
    exact ⟨hr, h0, fun _ _ => rfl, fun _ => rfl⟩

/-- Only objects are accepted. -/
theorem parseBulk_object {maxOps : Option Int} {vs : List (Str × Schema)} {body headers query : Val} {req : Request} {is : Issues}
    (h : V.parseBulk maxOps vs body headers query = .ok (req, is)) (hn : is.hasIssues = false) :
    body.isCont = true ∨ body.isDict = true := by
  unfold V.parseBulk at h
  split at h
  · cases h
  rename_i b is0 hb
  split at h
  · cases h
  rename_i is2 hcall
  have key : ((Issues.empty.merge is0 V.bodyLoc).merge is2 V.bodyLoc).hasIssues = false := by
    rw [← Bool.not_eq_true]
    intro hs
    unfold V.parseBulkBody at h
    split at h
    · cases h; rw [hs] at hn; cases hn
    · split at h
      · unfold V.parseBulkOps at h
        split at h
        · cases h
        rename_i hloop
        split at h
        · cases h
        split at h
        · cases h
        rename_i hmax
        cases h
        have h1 := (V.bulkLoop_spec hloop).2.2 hs
        unfold V.checkMax at hmax
        split at hmax
        · cases hmax
        · simp only [Except.ok.injEq] at hmax
          split at hmax
          · rw [← hmax, hasIssues_add] at hn; cases hn
          · rw [← hmax, h1] at hn; cases hn
      all_goals cases h
  rw [hasIssues_merge_false, hasIssues_merge_false] at key
  have := (process_noIssues hb key.1.2).1
  simpa using this

/-- **C87** When a request is accepted, every one of its operations has a method, a path that fits the method and, to
create something, a `bulkId`; it leads to a known kind of resource; and the data of an operation that creates or changes
something would be accepted in a single request and is replaced by what that request gives. -/
theorem C87_accepted (maxOps : Option Int) (vs : List (Str × Schema)) (body headers query : Val) (req : Request) (is : Issues)
    (h : V.parseBulk maxOps vs body headers query = .ok (req, is)) (hn : is.hasIssues = false) :
    ∃ xs os : List Val, body.toCont.getItem { schema := BulkA.requestUrn, attr := "Operations".toList } = .ok (.list xs) ∧
      req.body.getItem { schema := BulkA.requestUrn, attr := "Operations".toList } = .ok (.list os) ∧ os.length = xs.length ∧
      ∀ (i : Nat) (x : Val), xs[i]? = some x → ∃ o method path name, os[i]? = some o ∧
        x.getItem { attr := "method".toList } = .ok (.str method) ∧ x.getItem { attr := "path".toList } = .ok (.str path) ∧
        BulkTarget method path name ∧
        (method = "POST".toList → ∃ id, x.getItem { attr := "bulkId".toList } = .ok (.str id)) ∧
        (∀ w ∈ keptParts, o.getItem { attr := w } = x.getItem { attr := w }) ∧
        (method ≠ "DELETE".toList → ∃ s, aget name vs = some s ∧
          (method ≠ "GET".toList → ∃ d r is', x.getItem { attr := "data".toList } = .ok d ∧ d.isNoneOrMissing = false ∧
            singleRequest method s d = .ok (r, is') ∧ is'.hasIssues = false ∧ o.getItem { attr := "data".toList } = .ok r.body)) := by
  have hobj := parseBulk_object h hn
  obtain ⟨b, is0, is2, m, xs, os, j, ps, ds, ms, os', is3, hb, hw0, hcall, hw2, rfl, hx, hp, hloc, hops, hps, hds, hms, hloop,
    hmax, hlen, -, -, -, hbody⟩ := V.parseBulk_bridge hobj h
  -- nothing is reported anywhere
  have h3 : is3 = is := by
    unfold V.checkMax at hmax
    simp only [Except.ok.injEq] at hmax
    split at hmax
    · rw [← hmax, hasIssues_add] at hn; cases hn
    · exact hmax
  subst h3
  have hstart : ((Issues.empty.merge is0 V.bodyLoc).merge is2 V.bodyLoc).hasIssues = false := by
    rw [← Bool.not_eq_true]
    intro hs
    rw [(V.bulkLoop_spec hloop).2.2 hs] at hn; cases hn
  rw [hasIssues_merge_false, hasIssues_merge_false] at hstart
  have e0 := eq_empty_of_noIssues hw0 hstart.1.2
  have e2 := eq_empty_of_noIssues hw2 hstart.2
  subst e0 e2
  have hloop' : V.bulkLoop vs 0 os ps ds ms {} = .ok (os', is3) := hloop
  obtain ⟨os1, e, hlen1, hwj, -, -⟩ := BulkA.request_process hp
  cases e
  have hj : j = {} := noIssues_of_errors hwj (fun l => (hloc l).symm)
  subst hj
  obtain ⟨-, hclean⟩ := BulkA.request_clean hp
  obtain ⟨g1, g1'⟩ := getMap_spec hps
  obtain ⟨g2, g2'⟩ := getMap_spec hds
  obtain ⟨g3, g3'⟩ := getMap_spec hms
  obtain ⟨-, hall⟩ := V.bulkLoop_clean hloop' hn g1 g2 g3
  refine ⟨xs, os', hx, hbody hn, hlen, ?_⟩
  intro i x hxi
  obtain ⟨y, o, ho, hyr, hy0, hsame, hstr, ⟨v, hv, hvn, hdrop, hid, ⟨p, hpp, hpn, hpost, hobjp⟩, d, hd, hdn⟩⟩ := hclean i x hxi
  obtain ⟨hor, hor0, hkept, hdata⟩ := dropData_kept hyr hy0 hdrop
  obtain ⟨p', q1, q2⟩ := g1' i o ho
  rw [hpp] at q2; cases q2
  obtain ⟨d', q3, q4⟩ := g2' i o ho
  rw [hd] at q4; cases q4
  obtain ⟨v', q5, q6⟩ := g3' i o ho
  rw [hkept BulkA.methodWord (by decide), hv] at q6; cases q6
  obtain ⟨o', ho', hone⟩ := hall i o p d v ho q1 q3 q5
  have hxm : x.getItem { attr := BulkA.methodWord } = .ok v := by
    have := hsame BulkA.methodA (by simp [BulkA.requestSubs])
    exact this.symm.trans hv
  have hxp : x.getItem { attr := BulkA.pathWord } = .ok p := by
    have := hsame BulkA.pathA (by simp [BulkA.requestSubs])
    rw [← hpp, hkept BulkA.pathWord (by decide)]
    exact this.symm
  have hxk : ∀ w ∈ keptParts, y.getItem { attr := w } = x.getItem { attr := w } := by
    intro w hw
    simp only [keptParts, List.mem_cons, List.not_mem_nil, or_false] at hw
    rcases hw with rfl | rfl | rfl | rfl
    · exact hsame BulkA.methodA (by simp [BulkA.requestSubs])
    · exact hsame BulkA.idA (by simp [BulkA.requestSubs])
    · exact hsame BulkA.versionA (by simp [BulkA.requestSubs])
    · exact hsame BulkA.pathA (by simp [BulkA.requestSubs])
  have hidx : v.isText BulkA.postWord = true → ∃ id, x.getItem { attr := "bulkId".toList } = .ok (.str id) := by
    intro h'
    obtain ⟨bi, hbi, hbn⟩ := hid h'
    have hbi' : x.getItem { attr := BulkA.idWord } = .ok bi := by
      have := hsame BulkA.idA (by simp [BulkA.requestSubs])
      exact this.symm.trans hbi
    rcases hstr BulkA.idWord (by simp) bi hbi' with h'' | ⟨s, rfl⟩
    · rw [hbn] at h''; cases h''
    · exact ⟨s, hbi'⟩
  unfold V.parseOpFor at hone
  split at hone
  · -- a deletion
    rename_i hdel
    cases hone
    have hvd := isText_iff.mp hdel
    subst hvd
    have hnp : (Val.str BulkA.deleteWord).isText BulkA.postWord = false := by decide
    obtain ⟨t, rfl, ht⟩ := hobjp (by decide) hnp
    obtain ⟨name, hname, -⟩ := objectPath_target (m := BulkA.deleteWord) ht (by decide)
    refine ⟨o, BulkA.deleteWord, t, name, ho', hxm, hxp, hname, ?_, ?_, ?_⟩
    · intro e; exact absurd e (by decide)
    · intro w hw; rw [hkept w hw, hxk w hw]
    · intro e; exact absurd rfl e
  · rename_i hdel
    split at hone
    · cases hone
    rename_i name hname
    split at hone
    · cases hone
    rename_i m' hm'
    obtain ⟨t, rfl, ht⟩ := mem_five hm'
    -- the path
    obtain ⟨pt, rfl, htarget⟩ : ∃ pt, p = .str pt ∧ BulkTarget t pt name := by
      rcases ht with rfl | ht
      · obtain ⟨pt, rfl, hpt⟩ := hpost (text_iff.mpr rfl)
        obtain ⟨name', a1, a2⟩ := typePath_target hpt
        rw [a2] at hname; cases hname
        exact ⟨pt, rfl, a1⟩
      · have hg : ((Val.str t).isText BulkA.getWord || (Val.str t).isText BulkA.patchWord ||
            (Val.str t).isText BulkA.putWord || (Val.str t).isText BulkA.deleteWord) = true := by
          simp only [List.mem_cons, List.not_mem_nil, or_false] at ht
          rcases ht with rfl | rfl | rfl | rfl <;> decide
        have hnp : (Val.str t).isText BulkA.postWord = false := by
          simp only [List.mem_cons, List.not_mem_nil, or_false] at ht
          rcases ht with rfl | rfl | rfl | rfl <;> decide
        obtain ⟨pt, rfl, hpt⟩ := hobjp hg hnp
        obtain ⟨name', a1, a2⟩ := objectPath_target hpt ht
        rw [a2] at hname; cases hname
        exact ⟨pt, rfl, a1⟩
    split at hone
    · -- an unknown resource
      exfalso
      have := congrArg (fun r : PyM (Val × Issues) => match r with | .ok q => q.2.hasIssues | _ => false) hone
      simp only [hasIssues_add] at this
      cases this
    rename_i s hs
    unfold V.parseOpData at hone
    split at hone
    · cases hone
    rename_i r is' hreq
    split at hone
    · cases hone
    rename_i is4 hmc
    split at hone
    · cases hone
    rename_i o2 hset
    cases hone
    have hset' : o.setItem { attr := BulkA.dataWord } r.body = .ok o' := by
      obtain ⟨dd, lc, rfl, -⟩ := hor.inv
      exact hset
    have ho0 : o'.NoKeyFor [] := by
      obtain ⟨dd, lc, rfl, -⟩ := hor.inv
      simp only [Val.setPlain, Except.ok.injEq] at hset
      rw [← hset]
      intro k hk
      simp only [Val.keys] at hk
      rw [keys_aset] at hk
      have hk' : k ∈ dd.map (·.1) ∨ k = BulkA.dataWord := by
        split at hk
        · exact .inl hk
        · rcases List.mem_append.mp hk with hk | hk
          · exact .inl hk
          · exact .inr (by simpa using hk)
      rcases hk' with hk | rfl
      · exact hor0 k hk
      · rw [PyEnv.lower_ascii _ (by decide), PyEnv.lower_ascii _ (by simp)]; decide
    have hcl : (is'.get V.bodyLoc).hasIssues = false := by
      have e := V.mergeCopy_ok hmc
      have : (Issues.merge {} (is'.get V.bodyLoc) (V.opPartLoc (0 + i) BulkA.dataWord)).hasIssues = false := by rw [← e]; rfl
      rw [hasIssues_merge_false] at this
      exact this.2
    refine ⟨o', t, pt, name, ho', hxm, hxp, htarget, fun e => hidx (text_iff.mpr e), ?_, ?_⟩
    · intro w hw
      rw [C04_write_frame hor { attr := BulkA.dataWord } { attr := w } rfl rfl _ (kept_lower hw) hset' ho0, hkept w hw, hxk w hw]
    · intro _
      refine ⟨s, hs, ?_⟩
      intro hget
      have hhas : BulkA.hasData (.str t) = true := by
        rcases ht with rfl | ht
        · decide
        · simp only [List.mem_cons, List.not_mem_nil, or_false] at ht
          rcases ht with rfl | rfl | rfl | rfl
          · exact absurd rfl hget
          · decide
          · decide
          · exact absurd (text_iff.mpr rfl) hdel
      have hsingle : singleRequest t s d = .ok (r, is') := by
        rw [← hreq]
        have e : ∀ (w : Str) (mm : V.Method), V.methodOf (.str w) = some mm → mm = m' ∨ w ≠ t := by
          intro w mm hw
          by_cases ew : w = t
          · left; subst ew; rw [hw] at hm'; cases hm'; rfl
          · exact .inr ew
        rcases ht with rfl | ht
        · rcases e BulkA.postWord .post (by decide) with rfl | e'
          · rfl
          · exact absurd rfl e'
        · simp only [List.mem_cons, List.not_mem_nil, or_false] at ht
          rcases ht with rfl | rfl | rfl | rfl
          · exact absurd rfl hget
          · rcases e BulkA.putWord .put (by decide) with rfl | e'
            · rfl
            · exact absurd rfl e'
          · rcases e BulkA.patchWord .patch (by decide) with rfl | e'
            · rfl
            · exact absurd rfl e'
          · exact absurd (text_iff.mpr rfl) hdel
      have hoy := hdata hhas
      subst hoy
      refine ⟨d, r, is', ?_, hdn hhas, ?_, ?_, ?_⟩
      · rw [← hd]; exact (hsame BulkA.dataA (by simp [BulkA.requestSubs])).symm
      · exact hsingle
      · exact (singleRequest_under hsingle).clean hcl
      · obtain ⟨c', hc', hg⟩ := C03_read_after_write hor { attr := BulkA.dataWord } rfl rfl r.body
        rw [hset'] at hc'; cases hc'
        exact hg { attr := BulkA.dataWord } rfl rfl ho0

end Scim

namespace Scim.Examples.BulkRequests
local instance bulkRequestsEnv : PyEnv := asciiEnv
open V

/-- what is reported about a request, and the data of its operations -/
def outcome (r : PyM (Request × Issues)) : Option (List (Loc × List Nat) × Val) :=
  r.toOption.map fun p => (p.2.issues.map (fun q => (q.1, q.2.map (·.code))),
    match p.1.body.getItem (BulkA.requestRep BulkA.dataWord) with
    | .ok (.list ds) => .list (ds.map fun d => match d.getItem { attr := "displayName".toList } with | .ok v => v | _ => .null)
    | _ => .null)

/-- the names a server knows -/
def known : List (Str × Schema) := byName [("Groups".toList, GroupA.schema)]

/-- a new group -/
def data (name : Val) : Val := .dict [("schemas".toList, .list [.str GroupA.urn]), ("displayName".toList, name)]

/-- an operation -/
def op (method path : String) (more : List (Str × Val)) : Val :=
  .dict ([("method".toList, .str method.toList), ("path".toList, .str path.toList)] ++ more)

/-- a bulk request -/
def bulk (ops : List Val) : Val := .dict [("schemas".toList, .list [.str BulkA.requestUrn]), ("Operations".toList, .list ops)]

def create (name : Val) : Val := op "POST" "/Groups" [("bulkId".toList, .str "q".toList), ("data".toList, data name)]
def delete : Val := op "DELETE" "/Groups/1" []

/-- **C80**, **C87** a request of two operations is accepted when two are allowed, and not when only one is -/
example : outcome (parseBulk (some 2) known (bulk [create (.str "a".toList), delete]) .null .null) =
    some ([], .list [.str "a".toList, .null]) := by decide +kernel
example : (outcome (parseBulk (some 1) known (bulk [create (.str "a".toList), delete]) .null .null)).map (·.1) =
    some [([.name "body".toList, .name "Operations".toList], [37])] := by decide +kernel
/-- data that a single request would refuse, and a resource that is not known -/
example : (outcome (parseBulk (some 9) known (bulk [create (.int 3), op "PUT" "/Users/2" [("data".toList, data (.str []))]]) .null .null)).map
    (·.1) = some [([.name "body".toList, .name "Operations".toList, .idx 0, .name "data".toList, .name "displayName".toList], [2]),
      ([.name "body".toList, .name "Operations".toList, .idx 1, .name "path".toList], [36])] := by decide +kernel
/-- a path that does not fit the method -/
example : (outcome (parseBulk (some 9) known (bulk [op "DELETE" "/Groups" []]) .null .null)).map (·.1) =
    some [([.name "body".toList, .name "Operations".toList, .idx 0, .name "path".toList], [35])] := by decide +kernel

end Scim.Examples.BulkRequests
