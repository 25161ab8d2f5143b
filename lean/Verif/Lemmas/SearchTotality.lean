import Verif.Lemmas.RequestTotality
import Verif.Lemmas.Search
import Verif.Props.Totality

/-! The search request does not raise. -/

namespace Scim
variable [PyEnv]
open Issues

/-- A text with one post-processor. -/
theorem text_total {a : AttrInfo} (ht : a.type = .string) (hm : a.multi = false) (hc : a.validateCanon = false)
    {p : Proc} (hp : a.procs .parse = [p]) {x : Val} (hx : x.TameC) (hok : ∀ s, x = .str s → ∃ o, p (.str s) = .ok o) :
    ∃ o, a.process .parse x = .ok o := by
  rw [info_process_eq]
  split
  · exact ⟨_, rfl⟩
  · unfold AttrInfo.base
    rw [hm]
    simp only [Bool.false_eq_true, if_false]
    obtain ⟨⟨z, i⟩, ho⟩ := processOne_total a [] x {} (by rw [ht]; trivial)
    rw [ho]
    dsimp only
    split
    · exact ⟨_, rfl⟩
    · rename_i hi
      obtain ⟨s, rfl, rfl⟩ := one_text ht hc ho (by simpa using hi)
      obtain ⟨⟨r, j⟩, hr⟩ := hok s rfl
      rw [hp]
      simp only [runProcs, hr]
      exact ⟨_, rfl⟩

/-- A list of texts with one post-processor. -/
theorem texts_total {a : AttrInfo} (ht : a.type = .string) (hm : a.multi = true) (hc : a.validateCanon = false)
    {p : Proc} (hp : a.procs .parse = [p]) {x : Val} (hx : x.TameC)
    (hok : ∀ ss : List Str, ∃ o, p (.list (ss.map Val.str)) = .ok o) : ∃ o, a.process .parse x = .ok o := by
  rw [info_process_eq]
  split
  · exact ⟨_, rfl⟩
  · unfold AttrInfo.base
    rw [hm]
    simp only [if_true]
    cases x with
    | list xs =>
      simp only [Val.TameC] at hx
      obtain ⟨⟨ys, i⟩, ho⟩ := processItems_total (m := .parse) a 0 xs {} (by rw [ht]; exact fun _ _ => trivial)
      simp only [ho]
      split
      · exact ⟨_, rfl⟩
      · rename_i hi
        obtain ⟨ss, rfl, rfl⟩ := items_text ht hc ho (by simpa using hi)
        obtain ⟨⟨r, j⟩, hr⟩ := hok ss
        rw [hp]
        simp only [runProcs, hr]
        exact ⟨_, rfl⟩
    | _ => exact ⟨_, rfl⟩

namespace SearchA

theorem parseRep_total (s : Str) : ∃ o, parseRep (.str s) = .ok o := by
  simp only [parseRep, Val.str]
  split <;> exact ⟨_, rfl⟩

theorem parseRepsLoop_total (k : Nat) (ss : List Str) (is : Issues) : ∃ o, parseRepsLoop k (ss.map Val.str) is = .ok o := by
  induction ss generalizing k is with
  | nil => exact ⟨_, rfl⟩
  | cons s ss ih =>
    obtain ⟨⟨y, i⟩, hy⟩ := parseRep_total s
    obtain ⟨⟨ys, j⟩, hr⟩ := ih (k + 1) (is.merge i [.idx k])
    simp only [List.map_cons, parseRepsLoop, hy, hr]
    exact ⟨_, rfl⟩

theorem parseReps_total (ss : List Str) : ∃ o, parseReps (.list (ss.map Val.str)) = .ok o := by
  obtain ⟨⟨ys, j⟩, h⟩ := parseRepsLoop_total 0 ss {}
  simp only [parseReps, h]
  exact ⟨_, rfl⟩

/-- The attribute `sortBy`. -/
theorem sortBy_out {x y : Val} {i : Issues} (h : (bindAttr sortByA (rep sortByWord)).process .parse x = .ok (y, i)) :
    (y = .null ∨ ∃ r, y = .obj (.rep r)) ∨ [] ∈ i.issues.map (·.1) := by
  have hs : bindAttr sortByA (rep sortByWord) = .simple (bindAttr sortByA (rep sortByWord)).info := rfl
  rw [hs, Attr.process, info_process_eq] at h
  have h1 : (bindAttr sortByA (rep sortByWord)).info.type = .string := rfl
  have h2 : (bindAttr sortByA (rep sortByWord)).info.multi = false := rfl
  have h3 : (bindAttr sortByA (rep sortByWord)).info.validateCanon = false := rfl
  have h4 : (bindAttr sortByA (rep sortByWord)).info.procs .parse = [parseRep] := rfl
  generalize (bindAttr sortByA (rep sortByWord)).info = a at *
  split at h
  · rename_i hn
    cases h
    exact .inl (.inl (null_of_isNone hn))
  · unfold AttrInfo.base at h
    rw [h2] at h
    simp only [Bool.false_eq_true, if_false, AttrInfo.processOne, h1, AttrType.conv, AttrType.parse, h3, Bool.and_false] at h
    by_cases hx : ∃ s, x = .str s
    · obtain ⟨s, rfl⟩ := hx
      have : ((({} : Issues).merge {} [])).hasIssues = false := rfl
      simp only [stringConv, Val.str, this, Bool.false_eq_true, if_false, h4, runProcs, parseRep] at h
      split at h
      · cases h
      · rename_i v' j' hv
        cases h
        split at hv
        · cases hv; exact .inl (.inr ⟨_, rfl⟩)
        · cases hv
          right
          rw [← aget_isSome_iff, issues_merge_isSome]
          exact .inr ⟨[], by simp [Issues.add, extendAt, aset], rfl⟩
    · have hb : stringConv x = .ok badType := by
        unfold stringConv
        split
        · exact absurd ⟨_, rfl⟩ hx
        · rfl
      have hi : (({} : Issues).merge badType.2 []).hasIssues = true := by rw [hasIssues_merge]; right; rfl
      rw [hb] at h
      simp only [hi, if_true] at h
      cases h
      right
      rw [← aget_isSome_iff, issues_merge_isSome]
      exact .inr ⟨[], by simp [badType, blocking, Issues.add, extendAt, aset], rfl⟩

/-- Each attribute of a search request is processed without an exception. -/
theorem attr_total {a : Attr} (ha : a ∈ schema.attrs.top) {x : Val} (hx : x.TameC) (hh : a.Handles x)
    (hf : a.rep = rep "filter".toList → ∀ s, x = .str s → ∃ o, Filter.parse s = .ok o) :
    ∃ o, a.process .parse x = .ok o := by
  obtain ⟨d, hd, rfl⟩ := mkSchema_top_named (u := urn) (as := [attributesA, excludeA, filterA, sortByA, sortOrderA,
      startA, countA]) (by
        intro d hd s hs
        simp only [List.mem_cons, List.not_mem_nil, or_false] at hd
        rcases hd with rfl | rfl | rfl | rfl | rfl | rfl | rfl <;> cases hs) ha
  simp only [List.mem_cons, List.not_mem_nil, or_false] at hd
  rcases hd with rfl | rfl | rfl | rfl | rfl | rfl | rfl | rfl
  · exact info_total (bindAttr schemasAttr _).info _ hh (.inl rfl)
  · exact texts_total (a := (bindAttr attributesA _).info) rfl rfl rfl rfl hx parseReps_total
  · exact texts_total (a := (bindAttr excludeA _).info) rfl rfl rfl rfl hx parseReps_total
  · refine text_total (a := (bindAttr filterA _).info) rfl rfl rfl (p := filterProc) rfl hx ?_
    intro s hs
    obtain ⟨⟨o, i⟩, ho⟩ := hf rfl s hs
    simp only [filterProc, Val.str, ho]
    cases o <;> exact ⟨_, rfl⟩
  · exact text_total (a := (bindAttr sortByA _).info) rfl rfl rfl (p := parseRep) rfl hx (fun s _ => parseRep_total s)
  · exact info_total (bindAttr sortOrderA _).info _ hh (.inl rfl)
  · exact info_total (bindAttr startA _).info _ hh (.inl rfl)
  · exact info_total (bindAttr countA _).info _ hh (.inl rfl)

/-- Reading a declared attribute of the parsed body. -/
theorem read_ok {body v : Val} {is : Issues} (hobj : (body.isCont || body.isDict) = true)
    (h : schema.parse body = .ok (v, is)) {d : Attr}
    (hd : d ∈ [attributesA, excludeA, filterA, sortByA, sortOrderA, startA, countA]) (n : Str) (he : d.rep.attr = n) :
    ∃ y, v.getItem (rep n) = .ok y ∧
      (y = .missing ∨ ∃ x i, (bindAttr d (rep n)).process .parse x = .ok (y, i) ∧
        ∀ m ∈ i.issues.map (·.1), (aget ([.name n] ++ m) is.stop).isSome) := by
  obtain ⟨htr, -, is1, h1, sv, -, h2⟩ := process_spec wf hobj h
  have hm : bindAttr d (rep n) ∈ schema.attrs.top := by
    subst he; exact mkSchema_mem (d := d) hd
  have hrep : (bindAttr d (rep n)).rep = rep n := bindAttr_rep _ _
  obtain ⟨x, hx⟩ := htr.read _ hm
  rw [hrep] at hx
  cases hmi : x.isMissing with
  | true =>
    have : x = .missing := by cases x <;> simp [Val.isMissing] at hmi; rfl
    subst this
    have := htr.absent _ hm (by rw [hrep]; rfl) (by rw [hrep]; exact hx)
    rw [hrep] at this
    exact ⟨.missing, this, .inl rfl⟩
  | false =>
    obtain ⟨y, i, hp, hg⟩ := htr.present _ hm x (by rw [hrep]; exact hx) hmi
    rw [hrep] at hg
    refine ⟨y, hg, .inr ⟨x, i, hp, ?_⟩⟩
    intro m hmm
    have hk : (aget ([.name n] ++ m) is1.stop).isSome := by
      rw [h1, stop_merge_isSome]
      refine .inr ⟨_, aget_isSome_iff.mp (mergeAll_isSome (.inr ⟨((bindAttr d (rep n)).topLoc, i), ?_, m, hmm, ?_⟩)), rfl⟩
      · exact List.mem_map.mpr ⟨(_, y, i), List.mem_filterMap.mpr ⟨_, hm, topOut_of (by rw [hrep]; exact hx) hmi hp⟩, rfl⟩
      · simp only [Attr.topLoc, hrep]; rfl
    rcases h2 with ⟨-, xs, is2, -, -, rfl⟩ | ⟨-, rfl⟩
    · rw [stop_merge_isSome]; exact .inl hk
    · exact hk

theorem setItem_total {v : Val} (hr : v.Reach) (w : Str) (z : Val) : ∃ v', v.setItem { attr := w } z = .ok v' := by
  obtain ⟨dd, lc, rfl, -⟩ := hr.inv
  exact ⟨_, rfl⟩

/-- A search request with a JSON object for a body. -/
theorem parse_total {kvs : List (Str × Val)} (hord : Ordinary schema kvs)
    (hf : ∀ s, (Val.dict kvs).toCont.getItem (rep "filter".toList) = .ok (.str s) → ∃ o, Filter.parse s = .ok o) :
    ∃ r is, parse (.dict kvs) = .ok (r, is) := by
  obtain ⟨v0, is0, hp⟩ := process_total_of (m := .parse) wf hord (by
    intro a ha x hx hxt hxh _
    refine attr_total ha hxt hxh ?_
    intro hr s hs
    rw [hr, hs] at hx
    exact hf s hx)
  have hobj : ((Val.dict kvs).isCont || (Val.dict kvs).isDict) = true := rfl
  have hr := schema_process_reach hobj hp
  unfold parse
  rw [Schema.parse, hp]
  simp only
  split
  · exact ⟨_, _, rfl⟩
  have k0 : v0.NoKeyFor [] := noKey_word hobj hp (by decide +kernel) (by decide +kernel)
  have ku : v0.NoKeyFor urn := noKey_word hobj hp (by decide +kernel) (by decide +kernel)
  obtain ⟨yi, hyi, -⟩ := read_ok hobj hp (d := attributesA) (by simp) attributesWord rfl
  obtain ⟨ye, hye, -⟩ := read_ok hobj hp (d := excludeA) (by simp) excludeWord rfl
  obtain ⟨ys, hys, hys'⟩ := read_ok hobj hp (d := sortByA) (by simp) sortByWord rfl
  -- the presence checker
  have step : ∃ v1 is1, (if is0.canProceed [[.name attributesWord], [.name excludeWord]] then addChecker v0 is0
        else .ok (v0, is0)) = .ok (v1, is1) ∧ v1.Reach ∧ v1.getItem (rep sortByWord) = .ok ys ∧
      ∀ l, (aget l is0.stop).isSome → (aget l is1.stop).isSome := by
    split
    · unfold addChecker
      rw [hyi, hye]
      simp only
      have hmono : ∀ l, (aget l is0.stop).isSome → (aget l (if (yi.truthy && ye.truthy) = true then
          (is0.add ⟨30, []⟩ false [.name attributesWord]).add ⟨30, []⟩ false [.name excludeWord] else is0).stop).isSome := by
        intro l hl
        split
        · rw [stop_add_isSome, stop_add_isSome]; exact .inl (.inl hl)
        · exact hl
      split
      · obtain ⟨v1, hv1⟩ := setItem_total hr checkerWord (.obj (.checker { reps := repsOf yi, incl := some true }))
        obtain ⟨a, -, -, -, fr⟩ := put hr k0 ku (by decide +kernel) (by decide +kernel) (by decide +kernel) hv1
        rw [hv1]
        refine ⟨_, _, rfl, a, ?_, hmono⟩
        rw [← hys]
        exact fr urn sortByWord (.inr rfl) (word_ne (by decide +kernel) (by decide +kernel) (by decide +kernel))
      · exact ⟨_, _, rfl, hr, hys, hmono⟩
    · exact ⟨_, _, rfl, hr, hys, fun _ h => h⟩
  obtain ⟨v1, is1, h1, hr1, hs1, hmono⟩ := step
  rw [h1]
  simp only
  split
  · rename_i hc
    unfold addSorter
    rw [hs1]
    have hcase : ys.truthy = false ∨ ∃ r, ys = .obj (.rep r) := by
      rcases hys' with rfl | ⟨x, i, hpx, hstop⟩
      · exact .inl rfl
      · rcases sortBy_out hpx with (rfl | ⟨r, rfl⟩) | hk
        · exact .inl rfl
        · exact .inr ⟨r, rfl⟩
        · exfalso
          simp only [Issues.canProceed, List.all_cons, List.all_nil, Bool.and_true] at hc
          have := (canProceedAt_iff _ _).1 hc _ (List.prefix_refl _)
          have h2 := hmono _ (hstop [] hk)
          rw [List.append_nil, this] at h2
          cases h2
    rcases hcase with ht | ⟨r, rfl⟩
    · simp only [ht, Bool.false_eq_true, if_false]; exact ⟨_, _, rfl⟩
    · have ht : (Val.obj (.rep r)).truthy = true := rfl
      obtain ⟨v2, hv2⟩ := setItem_total hr1 sorterWord (.obj (.sorter { rep := r, asc := false }))
      simp only [ht, if_true, hv2]
      exact ⟨_, _, rfl⟩
  · exact ⟨_, _, rfl⟩

end SearchA
end Scim
