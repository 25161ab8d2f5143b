import Verif.Lemmas.ListTotality
import Verif.Props.Lists

/-! # C98: list responses are checked without an exception, whatever the filter, the sorter and the attributes asked for -/

namespace Scim
open Issues V
variable [PyEnv]

namespace ListA

/-- What is recorded stays recorded, what is blocked stays blocked. -/
structure Keeps (a b : Issues) : Prop where
  key : ∀ l, (aget l a.issues).isSome → (aget l b.issues).isSome
  stop : ∀ l, (aget l a.stop).isSome → (aget l b.stop).isSome

omit [PyEnv] in
theorem Keeps.refl (a : Issues) : Keeps a a := ⟨fun _ h => h, fun _ h => h⟩

omit [PyEnv] in
theorem Keeps.trans {a b c : Issues} (h : Keeps a b) (h' : Keeps b c) : Keeps a c :=
  ⟨fun l hl => h'.key l (h.key l hl), fun l hl => h'.stop l (h.stop l hl)⟩

omit [PyEnv] in
theorem Keeps.merge (a o : Issues) (l : Loc) : Keeps a (a.merge o l) :=
  ⟨fun _ h => (issues_merge_isSome _ _ _ _).mpr (.inl h), fun _ h => (stop_merge_isSome _ _ _ _).mpr (.inl h)⟩

omit [PyEnv] in
theorem not_stop {is : Issues} {l : Loc} {ls : List Loc} (h : is.canProceed ls = true) (hm : l ∈ ls) : ¬ (aget l is.stop).isSome := by
  have : is.canProceedAt l = true := by
    unfold canProceed at h
    split at h
    · cases hm
    · exact List.all_eq_true.mp h _ hm
  rw [canProceedAt_iff] at this
  rw [this l (List.prefix_refl l)]
  simp

theorem mem_all {a : Attr} (ha : a ∈ schema.attrs.top) : a ∈ schema.attrs.all := (List.mem_filter.mp ha).1

/-- The read of an attribute of a list response. -/
theorem read {d lc} (hv : CoreView schema d lc) {a : Attr} (ha : a ∈ schema.attrs.top) {w : Str} (hr : a.rep = rep w) :
    (Val.cont d lc).getItem (rep w) = .ok ((aget w d).getD .missing) := by
  have := hv.get wf ha (simple_top ha).2
  rw [hr] at this
  exact this

/-- What is known about the list of resources after `dump`. -/
structure Dumped (schemas : List Schema) (is : Issues) (xs ys : List Val) (ids : List (Option Nat)) : Prop where
  lenY : ys.length = xs.length
  lenI : ids.length = xs.length
  json : ∀ x ∈ xs, ∀ s ∈ schemas, JsonBody s x
  keys : schemas.length ≠ 1 → ∀ rk, .dict rk ∈ xs → ∀ key ∈ rk.map (·.1), lower key ≠ lower urn ∧ ∀ s ∈ schemas, lower key ≠ lower s.urn
  found : schemasFor schemas (xs.map asItem) = .ok ids
  solid : SolidList ys
  items : ∀ (k : Nat) x t, xs[k]? = some x → ids[k]? = some t →
    (∃ l, (aget ([.name resourcesWord, .idx k] ++ l) is.issues).isSome) ∨
    ∃ n s y is0, t = some n ∧ schemas[n]? = some s ∧ s.dump x = .ok (y, is0) ∧ ys[k]? = some y ∧ x.isDict = true ∧ IsFine s y ∧ is0.hasIssues = false

/-- The outcome of `dump` when it does not end early. -/
structure Outcome (schemas : List Schema) (r : Val) (is : Issues) : Prop where
  view : ∃ d lc, r = .cont d lc ∧ CoreView schema d lc
  total : NumberOk r is totalWord
  start : NumberOk r is startWord
  items : NumberOk r is itemsWord
  resources : r.getItem (rep resourcesWord) = .ok .missing ∨ (aget [.name resourcesWord] is.issues).isSome ∨
    ∃ xs ys ids, r.getItem (rep resourcesWord) = .ok (.list ys) ∧ Dumped schemas is xs ys ids

theorem inferAll_total {schemas : List Schema} : ∀ {xs : List Val}, (∀ x ∈ xs, ∃ t, infer schemas x = .ok t) →
    ∃ ids, inferAll schemas xs = .ok ids
  | [], _ => ⟨[], rfl⟩
  | x :: xs, h => by
    obtain ⟨t, ht⟩ := h x (by simp)
    obtain ⟨ids, hi⟩ := inferAll_total (xs := xs) (fun z hz => h z (List.mem_cons_of_mem _ hz))
    exact ⟨t :: ids, by rw [inferAll, ht]; dsimp only; rw [hi]⟩

theorem inferAll_get {schemas : List Schema} : ∀ {xs : List Val} {ids}, inferAll schemas xs = .ok ids → ∀ (k : Nat) x, xs[k]? = some x →
    ∃ t, ids[k]? = some t ∧ infer schemas x = .ok t
  | [], _, _, k, x, hx => by simp at hx
  | y :: xs, ids, h, k, x, hx => by
    rw [inferAll] at h
    split at h
    · cases h
    rename_i t ht
    split at h
    · cases h
    rename_i ts hts
    cases h
    cases k with
    | zero => simp only [List.getElem?_cons_zero, Option.some.injEq] at hx; subst hx; exact ⟨t, rfl, ht⟩
    | succ k => simp only [List.getElem?_cons_succ] at hx ⊢; exact inferAll_get hts k x hx

theorem inferAll_of_get {schemas : List Schema} : ∀ {xs : List Val} {ids}, ids.length = xs.length →
    (∀ (k : Nat) x t, xs[k]? = some x → ids[k]? = some t → infer schemas x = .ok t) → inferAll schemas xs = .ok ids
  | [], [], _, _ => rfl
  | [], _ :: _, h, _ => by simp at h
  | _ :: _, [], h, _ => by simp at h
  | x :: xs, t :: ids, h, hk => by
    have h0 := hk 0 x t rfl rfl
    have h1 := inferAll_of_get (xs := xs) (ids := ids) (by simpa using h) (fun k y u hy hu => hk (k + 1) y u (by simpa using hy) (by simpa using hu))
    rw [inferAll, h0]; dsimp only; rw [h1]

theorem schemasFor_total {schemas : List Schema} (hne : schemas ≠ []) {xs : List Val} (hj : ∀ x ∈ xs, ∀ s ∈ schemas, JsonBody s x)
    (hk : schemas.length ≠ 1 → ∀ rk, .dict rk ∈ xs → ∀ key ∈ rk.map (·.1), lower key ≠ lower urn ∧ ∀ s ∈ schemas, lower key ≠ lower s.urn) :
    ∃ ids, schemasFor schemas (xs.map asItem) = .ok ids := by
  unfold schemasFor
  split
  · exact ⟨_, rfl⟩
  · rename_i hl
    apply inferAll_total
    intro x hx
    obtain ⟨x, hm, rfl⟩ := List.mem_map.mp hx
    obtain ⟨t, ht, -⟩ := infer_total hne (hj x hm) (fun rk e => by subst e; exact hk hl rk hm)
    exact ⟨t, ht⟩

/-- Resources written without issues are taken for the same schemas again. -/
theorem schemasFor_again {schemas : List Schema} (hne : schemas ≠ []) (hall : ∀ s ∈ schemas, s.Listable) {is : Issues}
    {xs ys : List Val} {ids : List (Option Nat)} (h : Dumped schemas is xs ys ids)
    (hc : ∀ k l, ¬ (aget ([.name resourcesWord, .idx k] ++ l) is.issues).isSome) : schemasFor schemas ys = .ok ids := by
  have hids := h.found
  unfold schemasFor at hids ⊢
  split at hids
  · rename_i h1
    rw [if_pos h1]
    cases hids
    congr 1
    rw [List.map_map]
    apply List.ext_getElem
    · simp [h.lenY]
    · intro k h1 h2; simp
  · rename_i h1
    rw [if_neg h1]
    apply inferAll_of_get (by rw [h.lenI, h.lenY])
    intro k y t hy ht
    obtain ⟨x, hx⟩ : ∃ x, xs[k]? = some x := by
      have : k < xs.length := by
        rw [← h.lenY]; exact (List.getElem?_eq_some_iff.mp hy).1
      exact ⟨xs[k], List.getElem?_eq_getElem this⟩
    have hxm := List.mem_of_getElem? hx
    rcases h.items k x t hx ht with ⟨l, hl⟩ | ⟨n, s, y', is0, rfl, hs, hd, hy', -, -⟩
    · exact absurd hl (hc k l)
    · rw [hy'] at hy; cases hy
      obtain ⟨t', ht', hi⟩ := inferAll_get hids k (asItem x) (by rw [List.getElem?_map, hx]; rfl)
      rw [ht'] at ht; cases ht
      obtain ⟨t, h2, h3⟩ := infer_total hne (h.json x hxm) (fun rk e => by subst e; exact h.keys h1 rk hxm)
      rw [h2] at hi; cases hi
      obtain ⟨rk, strs, rfl, hst, hf, hr⟩ := h3 rfl
      rw [hf]
      have hsm := List.mem_of_getElem? hs
      exact infer_again (hall s hsm) hsm hst hr hd

theorem presenceLoop_total (c : Checker) {schemas : List Schema} (hall : ∀ s ∈ schemas, s.Listable) :
    ∀ (i : Nat) (ys : List Val) (ids : List (Option Nat)) (is : Issues),
      (∀ (k : Nat) y t, ys[k]? = some y → ids[k]? = some t → ∃ n s, t = some n ∧ schemas[n]? = some s ∧ IsFine s y) →
      ∃ o, presenceLoop c schemas i ys ids is = .ok o
  | _, [], _, is, _ => ⟨is, by unfold presenceLoop; rfl⟩
  | _, _ :: _, [], is, _ => ⟨is, by unfold presenceLoop; rfl⟩
  | i, y :: ys, t :: ids, is, h => by
    obtain ⟨n, s, rfl, hs, hf⟩ := h 0 y t rfl rfl
    rw [presenceLoop]
    simp only [attrsOf, hs]
    have hsu := hall s (List.mem_of_getElem? hs)
    obtain ⟨o, ho⟩ := checker_total hsu.wf hsu.owned hf c .response
    rw [ho]
    exact presenceLoop_total c hall (i + 1) ys ids _ (fun k y t hy ht => h (k + 1) y t (by simpa using hy) (by simpa using ht))

theorem process_of_dump {data r : Val} {is : Issues} (h : schema.dump data = .ok (r, is)) : schema.process .dump data = .ok (r, is) := by
  unfold Schema.dump at h
  split at h
  · cases h
  · rename_i r0 is0 hp
    rw [if_pos (by rfl)] at h
    cases h
    exact hp

theorem dump_total {schemas : List Schema} (hne : schemas ≠ []) (hall : ∀ s ∈ schemas, s.Listable) {kvs : List (Str × Val)}
    (ht : (Val.dict kvs).Tame) (hb : ListBody schemas kvs) :
    ∃ r is, dump schemas (.dict kvs) = .ok (r, is) ∧ ((aget [] is.issues).isSome ∨ Outcome schemas r is) := by
  obtain ⟨r, is, hd, -, -⟩ := C97_dump schema wf (noShadow_of_noExt wf rfl) owned standard (fun h => by cases h) (.dict kvs)
    ⟨ht, fun _ e => by cases e; exact hb.ordinary⟩
  have hp := process_of_dump hd
  have hw := schema_dump_wf wf sane hd
  obtain ⟨d, lc, rfl, hv⟩ := process_view wf (by rfl) hp
  have n1 := number_ok hp total_mem (i := _) rfl rfl rfl rfl rfl total_rep
  have n2 := number_ok hp start_mem (i := _) rfl rfl rfl rfl rfl start_rep
  have n3 := number_ok hp items_mem (i := _) rfl rfl rfl rfl rfl items_rep
  unfold dump
  rw [hd]
  dsimp only
  split
  · rename_i hc
    refine ⟨_, _, rfl, .inl ?_⟩
    have : is.canProceed = false := by simpa using hc
    rw [canProceed_nil_false_iff] at this
    exact aget_isSome_iff.mpr (hw.stopSub _ (aget_isSome_iff.mp this))
  · have hread := read hv resources_mem resources_rep
    have hsame := resources_value hp
    rw [hread] at hsame ⊢
    by_cases h1 : (aget resourcesWord d).getD .missing = .missing
    · rw [h1] at hread ⊢
      exact ⟨_, _, rfl, .inr ⟨⟨d, lc, rfl, hv⟩, n1, n2, n3, .inl hread⟩⟩
    by_cases h2 : ∃ zs, (aget resourcesWord d).getD .missing = .list zs
    · obtain ⟨zs, h2⟩ := h2
      rw [h2] at hread hsame ⊢
      obtain ⟨k, xs, hkx, hkl, rfl⟩ := resources_items hb hsame.symm
      have hj := hb.resources k xs hkx hkl
      have hkeys := fun h => hb.several h k xs hkx hkl
      obtain ⟨ids, hids⟩ := schemasFor_total hne hj hkeys
      have hlen := schemasFor_length hids
      rw [List.length_map] at hlen
      dsimp only
      unfold dumpList
      have hci : ∃ is1, checkItems (Val.cont d lc) (xs.map asItem).length is = .ok is1 ∧ Keeps is is1 := by
        unfold checkItems
        split
        · rw [read hv items_mem items_rep]
          exact ⟨_, rfl, Keeps.merge _ _ _⟩
        · exact ⟨_, rfl, Keeps.refl _⟩
      obtain ⟨is1, hci, hk1⟩ := hci
      obtain ⟨ys, is2, hl, hly, hsol, hk2, hitems⟩ := dumpLoop_total hall 0 xs ids is1 hlen hj
      obtain ⟨lc', hset, hv'⟩ := hv.set wf resources_mem (simple_top resources_mem).2 (.list ys)
      rw [resources_rep] at hset hv'
      rw [hci]; dsimp only
      rw [hids]; dsimp only
      rw [hl]; dsimp only
      rw [hset]
      have hmono : ∀ l, (aget l is.issues).isSome → (aget l is2.issues).isSome := fun l h => hk2 l (hk1.key l h)
      have hnum : ∀ {a : Attr} (_ : a ∈ schema.attrs.top) {w : Str} (_ : a.rep = rep w) (_ : w ≠ resourcesWord),
          NumberOk (.cont d lc) is w → NumberOk (.cont (aset (rep resourcesWord).attr (.list ys) d) lc') is2 w := by
        intro a ha w hr hw hn
        obtain ⟨v, g1, g2⟩ := hn.mono hmono
        refine ⟨v, ?_, g2⟩
        rw [← g1, read hv ha hr, read hv' ha hr, aget_aset_ne (k := (rep resourcesWord).attr) (fun e => hw e.symm)]
      refine ⟨_, _, rfl, .inr ⟨⟨_, lc', rfl, hv'⟩, hnum total_mem total_rep (by decide) n1, hnum start_mem start_rep (by decide) n2,
        hnum items_mem items_rep (by decide) n3, .inr (.inr ⟨xs, ys, ids, ?_, ?_⟩)⟩⟩
      · rw [read hv' resources_mem resources_rep]
        simp [rep]
      · refine ⟨hly, hlen, hj, hkeys, hids, hsol, ?_⟩
        intro k x t hx ht
        have := hitems k x t hx ht
        rwa [Nat.zero_add] at this
    · have hmono : ∀ l, (aget l is.issues).isSome → (aget l (is.add ⟨2, []⟩ false [.name resourcesWord]).issues).isSome :=
        fun l h => issues_add_isSome _ _ _ _ _ (.inl h)
      have hout : Outcome schemas (.cont d lc) (is.add ⟨2, []⟩ false [.name resourcesWord]) :=
        ⟨⟨d, lc, rfl, hv⟩, n1.mono hmono, n2.mono hmono, n3.mono hmono, .inr (.inl (issues_add_isSome _ _ _ _ _ (.inr rfl)))⟩
      generalize (aget resourcesWord d).getD .missing = z at h1 h2 ⊢
      cases z <;> first
        | exact ⟨_, _, rfl, .inr hout⟩
        | exact absurd rfl h1
        | exact absurd ⟨_, rfl⟩ h2

/-! ### The checks of the numbers -/

/-- A read number: absent, null, an integer, or blocked. -/
def NumberAt (b : Val) (is : Issues) (w : Str) : Prop :=
  ∃ v, b.getItem (rep w) = .ok v ∧ (v = .missing ∨ v = .null ∨ (∃ t, v.IsInt t) ∨ (aget (bodyLoc ++ [.name w]) is.stop).isSome)

theorem checkStart_total {b : Val} {is : Issues} (h : NumberAt b is startWord) (n : Int) :
    ∃ o, checkStart n b is = .ok o ∧ Keeps is o := by
  unfold checkStart
  split
  · rename_i hc
    obtain ⟨v, hv, hk⟩ := h
    rw [hv]
    dsimp only
    split
    · rename_i ht
      rcases hk with rfl | rfl | ⟨t, hi⟩ | hs
      · cases ht
      · cases ht
      · unfold validateStartIndex
        rw [pyLt_ints (.int n) hi]
        exact ⟨_, rfl, Keeps.merge _ _ _⟩
      · exact absurd hs (not_stop hc (by simp))
    · exact ⟨_, rfl, Keeps.refl _⟩
  · exact ⟨_, rfl, Keeps.refl _⟩

theorem checkNumbers_total {b : Val} {is : Issues} (count : Option Int) (n : Nat)
    (ht : ∃ v, b.getItem (rep totalWord) = .ok v ∧ ((∃ t, v.IsInt t) ∨ (aget (bodyLoc ++ [.name totalWord]) is.stop).isSome))
    (hs : ∃ v, b.getItem (rep startWord) = .ok v) (hi : ∃ v, b.getItem (rep itemsWord) = .ok v) :
    ∃ o, checkNumbers count n b is = .ok o ∧ Keeps is o := by
  unfold checkNumbers
  split
  · rename_i hc
    obtain ⟨v, hv, hk⟩ := ht
    rw [hv]
    dsimp only
    rcases hk with ⟨t, ht⟩ | hk
    · obtain ⟨o, ho, -⟩ := C73_number count v t ht n
      rw [ho]
      dsimp only
      unfold checkPages
      split
      · obtain ⟨x, hx⟩ := hs
        obtain ⟨y, hy⟩ := hi
        obtain ⟨o', ho', -⟩ := C73_pages count v t ht n x y
        rw [hx]; dsimp only
        rw [hy]; dsimp only
        rw [ho']
        exact ⟨_, rfl, (Keeps.merge _ _ _).trans (Keeps.merge _ _ _)⟩
      · exact ⟨_, rfl, Keeps.merge _ _ _⟩
    · exact absurd hk (not_stop hc (by simp))
  · exact ⟨_, rfl, Keeps.refl _⟩

theorem checkResources_total {schemas : List Schema} (hne : schemas ≠ []) (hall : ∀ s ∈ schemas, s.Listable) (f : Option Op)
    (so : Option SorterCfg) (c : Option Checker) {is0 : Issues} {xs ys : List Val} {ids : List (Option Nat)}
    (h : Dumped schemas is0 xs ys ids) (hc : ∀ k l, ¬ (aget ([.name resourcesWord, .idx k] ++ l) is0.issues).isSome) (is : Issues) :
    ∃ o, checkResources schemas f so c ys is = .ok o := by
  unfold checkResources
  rw [schemasFor_again hne hall h hc]
  dsimp only
  have h1 : ∃ o, filteredIf schemas ids f ys = .ok o := by
    cases f with
    | none => exact ⟨_, rfl⟩
    | some o => exact filtered_total o schemas ids false h.solid
  have h2 : ∃ o, sortedIf schemas ids so ys = .ok o := by
    cases so with
    | none => exact ⟨_, rfl⟩
    | some s => exact sorted_total s h.solid _
  have h3 : ∃ o, validateResourcesPresence (c.getD {}) ys schemas ids = .ok o := by
    refine presenceLoop_total _ hall 0 ys ids {} ?_
    intro k y t hy ht
    obtain ⟨x, hx⟩ : ∃ x, xs[k]? = some x := by
      have : k < xs.length := by
        rw [← h.lenY]; exact (List.getElem?_eq_some_iff.mp hy).1
      exact ⟨xs[k], List.getElem?_eq_getElem this⟩
    rcases h.items k x t hx ht with ⟨l, hl⟩ | ⟨n, s, y', _, rfl, hs, _, hy', -, hf⟩
    · exact absurd hl (hc k l)
    · rw [hy'] at hy; cases hy
      exact ⟨n, s, rfl, hs, hf.1⟩
  obtain ⟨o1, h1⟩ := h1
  obtain ⟨o2, h2⟩ := h2
  obtain ⟨o3, h3⟩ := h3
  rw [h1]; dsimp only
  rw [h2]; dsimp only
  rw [h3]
  exact ⟨_, rfl⟩

/-- A missing total is reported. -/
theorem total_required {b : Val} {is : Issues} (h : Checker.call {} b schema.attrs .response = .ok is) {v : Val}
    (hv : b.getItem (rep totalWord) = .ok v) (he : v = .missing ∨ v = .null) : [.name totalWord] ∈ is.issues.map (·.1) := by
  have hmem := (call_errors {} b schema.attrs .response is h [.name totalWord] ⟨15, []⟩).mpr ⟨total, mem_all total_mem, v, ?_, ?_⟩
  · rw [← aget_isSome_iff]
    unfold errorsAt at hmem
    cases hk : aget [.name totalWord] is.issues with
    | none => rw [hk] at hmem; cases hmem
    | some _ => rfl
  · have h1 : total.rep.sub = [] := by rw [total_rep]; rfl
    have h2 : b.getItem total.rep = .ok v := by rw [total_rep]; exact hv
    have h3 : v.isInvalid = false := by rcases he with rfl | rfl <;> rfl
    have := Observed.top (attrs := schema.attrs) h1 h2 h3
    rw [total_rep] at this
    rw [show (rep totalWord).attr = totalWord from rfl] at this
    exact this
  · rcases he with rfl | rfl <;> exact List.mem_cons_self

end ListA

open ListA in
/-- **C98** a list response is checked without an exception, whatever the filter, the sorter, the pages and the attributes
that were asked for. -/
theorem C98_list (schemas : List Schema) (hne : schemas ≠ []) (hall : ∀ s ∈ schemas, s.Listable) (status : Int) (body headers : Val)
    (ht : body.Tame) (hb : ∀ kvs, body = .dict kvs → ListBody schemas kvs) (start : Int) (count : Option Int) (f : Option Op)
    (so : Option SorterCfg) (c : Option Checker) :
    ∃ resp is, dumpList schemas status body headers start count f so c = .ok (resp, is) := by
  by_cases hd : body.isDict = true
  · obtain ⟨kvs, rfl⟩ : ∃ kvs, body = .dict kvs := by cases body <;> simp [Val.isDict] at hd; exact ⟨_, rfl⟩
    obtain ⟨r, is, hr, ho⟩ := ListA.dump_total hne hall ht (hb kvs rfl)
    unfold V.dumpList
    rw [hr]
    dsimp only
    split
    · exact ⟨_, _, rfl⟩
    · rename_i hc
      have hc : (Issues.empty.merge is bodyLoc).canProceed [bodyLoc] = true := by simpa using hc
      rcases ho with ho | ho
      · refine absurd ?_ (not_stop hc (List.mem_singleton.mpr rfl))
        rw [stop_merge_isSome]
        exact .inr ⟨[], aget_isSome_iff.mp ho, by simp⟩
      · obtain ⟨d, lc, rfl, hv⟩ := ho.view
        obtain ⟨o, hcall⟩ := checker_total wf ListA.owned (fine_of_view hv) {} .response
        rw [hcall]
        dsimp only
        have hk0 : ∀ l, (aget l is.issues).isSome → (aget (bodyLoc ++ l) (Issues.empty.merge is bodyLoc).stop).isSome ∧
            (aget (bodyLoc ++ l) (Issues.empty.merge is bodyLoc).issues).isSome := by
          intro l hl
          rw [stop_merge_isSome, issues_merge_isSome]
          exact ⟨.inr ⟨l, aget_isSome_iff.mp hl, rfl⟩, .inr ⟨l, aget_isSome_iff.mp hl, rfl⟩⟩
        have hk1 := Keeps.merge (Issues.empty.merge is bodyLoc) o bodyLoc
        have hk2 := hk1.trans (Keeps.merge _ (statusIs 200 status) statusLoc)
        obtain ⟨is3, h3, hk3⟩ := checkStart_total (is := ((Issues.empty.merge is bodyLoc).merge o bodyLoc).merge (statusIs 200 status) statusLoc)
          (b := .cont d lc) (by
            obtain ⟨v, g1, g2⟩ := ho.start
            refine ⟨v, g1, ?_⟩
            rcases g2 with g | g | g | g
            · exact .inl g
            · exact .inr (.inl g)
            · exact .inr (.inr (.inl g))
            · exact .inr (.inr (.inr (hk2.stop _ (hk0 _ g).1)))) start
        rw [h3]
        dsimp only
        split
        · exact ⟨_, _, rfl⟩
        · rename_i hc3
          have hc3 : is3.canProceed [bodyLoc ++ [.name resourcesWord]] = true := by simpa using hc3
          have hkeep := hk2.trans hk3
          have rest : ∀ ys, (∀ is4, Keeps is3 is4 → is4.hasIssues [bodyLoc ++ [.name resourcesWord]] = false →
              ∃ o, checkResources schemas f so c ys is4 = .ok o) →
              ∃ resp is, dumpListRest schemas headers count f so c (.cont d lc) ys is3 = .ok (resp, is) := by
            intro ys hys
            unfold dumpListRest
            obtain ⟨is4, h4, hk4⟩ := checkNumbers_total (b := .cont d lc) (is := is3) count ys.length (by
              obtain ⟨v, g1, g2⟩ := ho.total
              refine ⟨v, g1, ?_⟩
              have hreq : v = .missing ∨ v = .null → (aget (bodyLoc ++ [.name totalWord]) is3.stop).isSome := by
                intro he
                apply (Keeps.trans (Keeps.merge _ (statusIs 200 status) statusLoc) hk3).stop
                rw [stop_merge_isSome]
                exact .inr ⟨_, total_required hcall g1 he, rfl⟩
              rcases g2 with g | g | g | g
              · exact .inr (hreq (.inl g))
              · exact .inr (hreq (.inr g))
              · exact .inl g
              · exact .inr (hkeep.stop _ (hk0 _ g).1)) ⟨_, ho.start.choose_spec.1⟩ ⟨_, ho.items.choose_spec.1⟩
            rw [h4]
            dsimp only
            split
            · exact ⟨_, _, rfl⟩
            · rename_i hni
              obtain ⟨o, ho⟩ := hys is4 hk4 (by simpa using hni)
              rw [ho]
              exact ⟨_, _, rfl⟩
          rcases ho.resources with h | h | ⟨xs, ys, ids, h, hD⟩
          · rw [h]
            refine rest [] (fun is4 _ _ => ?_)
            refine checkResources_total hne hall f so c (is0 := {}) (xs := []) (ids := []) ⟨rfl, rfl, by simp, by simp, ?_, by simp only [SolidList], by simp⟩
              (fun k l hk => by cases hk) is4
            unfold schemasFor
            split <;> rfl
          · exact absurd (hkeep.stop _ (hk0 _ h).1) (not_stop hc3 (List.mem_singleton.mpr rfl))
          · rw [h]
            refine rest ys (fun is4 hk4 hni => ?_)
            refine checkResources_total hne hall f so c hD (fun k l hk => ?_) is4
            refine noKey_below hni ([.idx k] ++ l) ?_
            have := (hkeep.trans hk4).key _ (hk0 _ hk).2
            rwa [List.append_assoc]
  · obtain ⟨c, hp⟩ := process_rejects (m := .dump) (s := schema) ht (by simpa using hd)
    have hdump : ListA.dump schemas body = .ok (.invalid, blocking c) := by
      unfold ListA.dump Schema.dump
      rw [hp]
      rfl
    unfold V.dumpList
    rw [hdump]
    exact ⟨_, _, rfl⟩

/-! ### Users and groups -/

omit [PyEnv] in
theorem typedAll_all {as : List Attr} : typedAll as = true ↔ ∀ a ∈ as, a.typed = true := by
  induction as with
  | nil => simp [typedAll]
  | cons a as ih => simp [typedAll, ih]

theorem bind_typed {a : Attr} (h : a.typed = true) (r : AttrRep) : (bindAttr a r).typed = true := by
  cases a with
  | simple i => simpa [bindAttr, Attr.typed] using h
  | complex i subs ps ds => simpa [bindAttr, Attr.typed] using h

omit [PyEnv] in
theorem subs_typed {a : Attr} (h : a.typed = true) : ∀ s ∈ a.subs, s.typed = true := by
  cases a with
  | simple i => intro s hs; cases hs
  | complex i subs ps ds => exact typedAll_all.mp (by simpa [Attr.typed, Attr.subs] using h)

theorem typed_bind {as : List Attr} (h : typedAll as = true) {urn : Str} {ext : Bool} :
    ∀ a ∈ as.flatMap (bindWithSubs urn ext), a.typed = true := by
  intro a ha
  obtain ⟨d, hd, hm⟩ := List.mem_flatMap.mp ha
  have := typedAll_all.mp h d hd
  rcases mem_bindWithSubs.mp hm with rfl | ⟨s, hs, rfl⟩
  · exact bind_typed this _
  · exact bind_typed (subs_typed this s hs) _

theorem apart_bind {as : List Attr} {u : Str} (h : ∀ d ∈ as, lower d.rep.attr ≠ lower u) {urn : Str} {ext : Bool} :
    ∀ a ∈ as.flatMap (bindWithSubs urn ext), lower a.rep.attr ≠ lower u := by
  intro a ha
  obtain ⟨d, hd, hm⟩ := List.mem_flatMap.mp ha
  rcases mem_bindWithSubs.mp hm with rfl | ⟨s, hs, rfl⟩ <;> (rw [bindAttr_rep]; exact h d hd)

theorem lower_list_urn : lower ListA.urn = lowAscii ListA.urn := lower_asciiStr (by decide +kernel)

/-- The schema of users, with its extension, can be used in lists. -/
theorem user_listable : userSchema.Listable := by
  refine ⟨user_wf, user_noShadow, user_owned, user_standard, typedAll_all.mpr ?_, fun _ => user_meta_mem, ?_, ?_⟩
  · intro a ha
    have ha := (user_wf.top_all a ha)
    rw [user_all, user_core_all] at ha
    rcases List.mem_append.mp ha with ha | ha
    · exact typed_bind (by rfl) a ha
    · exact typed_bind (by rfl) a ha
  · intro u hu
    have hs : userSchema.schemas = [UserA.urn, UserA.enterpriseUrn] := by unfold userSchema; rfl
    rw [hs] at hu
    simp only [List.mem_cons, List.not_mem_nil, or_false] at hu
    rcases hu with rfl | rfl
    · rw [lower_list_urn, lower_user_urn]; decide +kernel
    · rw [lower_list_urn, lower_enterprise_urn]; decide +kernel
  · intro a ha
    have ha := (user_wf.top_all a ha)
    rw [user_all, user_core_all] at ha
    rcases List.mem_append.mp ha with ha | ha
    · exact apart_bind (fun d hd => noClash_of userNames_eq (by decide +kernel) (urns := [ListA.urn]) (by decide +kernel) d hd _ (by simp)) a ha
    · exact apart_bind (fun d hd => noClash_of enterpriseNames_eq (by decide +kernel) (urns := [ListA.urn]) (by decide +kernel) d hd _ (by simp)) a ha

theorem group_all : GroupA.schema.attrs.all = (schemasAttr :: idAttr :: externalIdAttr :: metaAttr ::
    [GroupA.displayNameA, GroupA.membersA]).flatMap (bindWithSubs GroupA.urn false) := by
  obtain ⟨_, h2⟩ := bind_facts (urn := GroupA.urn) (ext := false) group_decl
  exact ofList_all (keys_of_lnames h2)

theorem group_typed : typedAll GroupA.schema.attrs.top = true := by
  refine typedAll_all.mpr ?_
  intro a ha
  have ha := (group_wf.top_all a ha)
  rw [group_all] at ha
  exact typed_bind (by rfl) a ha

theorem group_apart : ∀ a ∈ GroupA.schema.attrs.top, lower a.rep.attr ≠ lower ListA.urn := by
  intro a ha
  have ha := (group_wf.top_all a ha)
  rw [group_all] at ha
  exact apart_bind (fun d hd => noClash_of groupNames_eq (by decide +kernel) (urns := [ListA.urn]) (by decide +kernel) d hd _ (by simp)) a ha

theorem group_urns : ∀ u ∈ GroupA.schema.schemas, lower u ≠ lower ListA.urn := by
  intro u hu
  have hs : GroupA.schema.schemas = [GroupA.urn] := rfl
  rw [hs] at hu
  rw [List.mem_singleton.mp hu, lower_list_urn, lower_asciiStr (s := GroupA.urn) (by decide +kernel)]
  decide +kernel

attribute [local irreducible] GroupA.schema in
/-- The schema of groups can be used in lists. -/
theorem group_listable : GroupA.schema.Listable :=
  ⟨group_wf, group_noShadow, group_owned, group_standard, group_typed, fun _ => group_meta_mem, group_urns, group_apart⟩

attribute [local irreducible] GroupA.schema in
/-- **C98** lists of users, lists of groups, and lists of both. -/
theorem C98_users_groups (schemas : List Schema) (h : schemas = [userSchema] ∨ schemas = [GroupA.schema] ∨
      schemas = [userSchema, GroupA.schema]) (status : Int) (body headers : Val)
    (ht : body.Tame) (hb : ∀ kvs, body = .dict kvs → ListBody schemas kvs) (start : Int) (count : Option Int) (f : Option Op)
    (so : Option SorterCfg) (c : Option Checker) :
    ∃ resp is, dumpList schemas status body headers start count f so c = .ok (resp, is) := by
  refine C98_list schemas ?_ ?_ status body headers ht hb start count f so c
  · rcases h with rfl | rfl | rfl <;> simp
  · intro s hs
    have : s = userSchema ∨ s = GroupA.schema := by
      rcases h with rfl | rfl | rfl
      · exact .inl (by simpa using hs)
      · exact .inr (by simpa using hs)
      · simpa using hs
    rcases this with rfl | rfl
    · exact user_listable
    · exact group_listable

end Scim

/-! ## Concrete cases (ASCII run-time library) -/

namespace Scim.Examples.ListTotality
open Scim.Examples

local instance listTotalityEnv : PyEnv := asciiEnv

/-- A user, a group, something that is neither, and a number. -/
def exItems : List Val :=
  [.dict [("schemas".toList, .list [.str UserA.urn]), ("userName".toList, .int 1)],
   .dict [("Schemas".toList, .list [.str GroupA.urn]), ("displayName".toList, .str "g".toList)],
   .dict [("schemas".toList, .str "x".toList)], .int 1]

/-- A list response with many faults. -/
def exList : List (Str × Val) :=
  [("schemas".toList, .list [.str ListA.urn]), ("totalResults".toList, .int 1), ("startIndex".toList, .str "x".toList),
   ("itemsPerPage".toList, .int 2), ("resources".toList, .list exItems)]

theorem exList_tame : (Val.dict exList).Tame := by
  simp only [exList, exItems, Val.Tame, TamePairs, TameList, Val.str, Val.int]
  decide +kernel

/-- An object without keys spelled like a URN is a JSON body when its schemas are not a list with something else than text. -/
theorem json_of {s : Schema} {kvs : List (Str × Val)} {v : Val} (ht : (Val.dict kvs).Tame)
    (hk : kvs.all (fun p => s.schemas.all (fun u => !(lower p.1 == lower u))) = true)
    (hv : (Val.dict kvs).toCont.getItem { schema := s.urn, attr := "schemas".toList } = .ok v) (hs : SchemasOk v)
    (hb : handlesAllB s.attrs.top (Val.dict kvs).toCont = true := by decide +kernel) : JsonBody s (.dict kvs) := by
  refine ⟨ht, fun kvs' e => ?_⟩
  cases e
  refine ⟨ht, ?_, ?_, handlesAll_of_test _ _ hb⟩
  · intro k v hm u hu e
    have := List.all_eq_true.mp (List.all_eq_true.mp hk (k, v) hm) u hu
    simp [e] at this
  · intro x hx
    rw [hv] at hx
    cases hx
    exact hs

theorem schemasOk_text (s : Str) : SchemasOk (.list [.str s]) := fun xs e => by cases e; exact ⟨[s], rfl⟩

/-- The hypotheses of C98 are met, with two schemas. -/
theorem exList_ok : ListBody [userSchema, GroupA.schema] exList := by
  have hitems : ∀ k xs, (k, Val.list xs) ∈ exList → lower k = lower ListA.resourcesWord → xs = exItems := by
    intro k xs hm hl
    simp only [exList, List.mem_cons, List.not_mem_nil, or_false, Prod.mk.injEq] at hm
    rcases hm with ⟨rfl, _⟩ | ⟨rfl, _⟩ | ⟨rfl, _⟩ | ⟨rfl, _⟩ | ⟨rfl, h⟩
    · exact absurd hl (by decide +kernel)
    · exact absurd hl (by decide +kernel)
    · exact absurd hl (by decide +kernel)
    · exact absurd hl (by decide +kernel)
    · cases h; rfl
  have htame : ∀ x ∈ exItems, x.Tame := by
    simp only [exItems, List.mem_cons, List.not_mem_nil, or_false, forall_eq_or_imp, forall_eq, Val.Tame, TamePairs, TameList,
      Val.str, Val.int]
    decide +kernel
  refine ⟨(json_of (s := ListA.schema) exList_tame (by decide +kernel) (v := .list [.str ListA.urn]) (by decide +kernel)
    (schemasOk_text _)).2 _ rfl, by decide +kernel, ?_, ?_⟩
  · intro k xs hm hl r hr s hs
    rw [hitems k xs hm hl] at hr
    have ht := htame r hr
    have hs : s = userSchema ∨ s = GroupA.schema := by simpa using hs
    simp only [exItems, List.mem_cons, List.not_mem_nil, or_false] at hr
    rcases hs with rfl | rfl <;> rcases hr with rfl | rfl | rfl | rfl
    · exact json_of ht (by decide +kernel) (v := .list [.str UserA.urn]) (by decide +kernel) (schemasOk_text _)
    · exact json_of ht (by decide +kernel) (v := .list [.str GroupA.urn]) (by decide +kernel) (schemasOk_text _)
    · exact json_of ht (by decide +kernel) (v := .str "x".toList) (by decide +kernel) (fun _ e => by cases e)
    · exact ⟨ht, fun _ e => by cases e⟩
    · exact json_of ht (by decide +kernel) (v := .list [.str UserA.urn]) (by decide +kernel) (schemasOk_text _)
    · exact json_of ht (by decide +kernel) (v := .list [.str GroupA.urn]) (by decide +kernel) (schemasOk_text _)
    · exact json_of ht (by decide +kernel) (v := .str "x".toList) (by decide +kernel) (fun _ e => by cases e)
    · exact ⟨ht, fun _ e => by cases e⟩
  · intro _ k xs hm hl rk hrk
    rw [hitems k xs hm hl] at hrk
    simp only [exItems, List.mem_cons, List.not_mem_nil, or_false, Val.dict.injEq, reduceCtorEq, Val.int] at hrk
    have key : ∀ ks : List Str, ks.all (fun k => decide (lower k ≠ lower ListA.urn) &&
        [userSchema, GroupA.schema].all (fun s => decide (lower k ≠ lower s.urn))) = true →
        ∀ key ∈ ks, lower key ≠ lower ListA.urn ∧ ∀ s ∈ [userSchema, GroupA.schema], lower key ≠ lower s.urn := by
      intro ks h key hk
      have := List.all_eq_true.mp h key hk
      rw [Bool.and_eq_true, List.all_eq_true] at this
      exact ⟨of_decide_eq_true this.1, fun s hs => of_decide_eq_true (this.2 s hs)⟩
    rcases hrk with rfl | rfl | rfl <;> exact key _ (by decide +kernel)

/-- The response is answered with issues. -/
example : (match V.dumpList [userSchema, GroupA.schema] 201 (.dict exList) .null 1 none none none none with
    | .ok (_, is) => is.issues.map (fun e => (e.1.drop 1, e.2.map (·.code)))
    | .error _ => []) =
    [([.name "startIndex".toList], [2]), ([.name "itemsPerPage".toList], [11]), ([.name "Resources".toList], [11]),
     ([.name "Resources".toList, .idx 0, .name "userName".toList], [2]),
     ([.name "Resources".toList, .idx 2], [27]), ([.name "Resources".toList, .idx 3], [27]), ([], [16])] := by decide +kernel

/-! ### What the hypotheses exclude -/

/-- **C98** with several schemas, a resource with a key spelled like its main URN raises, although the resource itself is
written without complaint; with one schema it does not. -/
theorem C98_urn_raises :
    let user : Val := .dict [("schemas".toList, .list [.str UserA.urn]), ("id".toList, .str "1".toList),
      (UserA.urn, .dict [("userName".toList, .str "u".toList)])]
    let body : Val := .dict [("schemas".toList, .list [.str ListA.urn]), ("totalResults".toList, .int 1), ("Resources".toList, .list [user])]
    (match V.dumpList [userSchema, GroupA.schema] 200 body .null 1 none none none none with
      | .ok _ => none | .error e => some e) = some .attributeError ∧
    (match V.dumpList [userSchema] 200 body .null 1 none none none none with
      | .ok _ => none | .error e => some e) = none := by
  constructor <;> decide +kernel

/-- **C98** with several schemas, a list within the schemas of a resource raises. -/
theorem C98_schemas_raise :
    (match V.dumpList [userSchema, GroupA.schema] 200 (.dict [("schemas".toList, .list [.str ListA.urn]), ("totalResults".toList, .int 1),
        ("Resources".toList, .list [.dict [("schemas".toList, .list [.list []])]])]) .null 1 none none none none with
      | .ok _ => none | .error e => some e) = some .typeError := by
  decide +kernel

end Scim.Examples.ListTotality
