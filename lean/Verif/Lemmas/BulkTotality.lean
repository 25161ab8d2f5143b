import Verif.Spec.BulkTotality
import Verif.Props.BulkRequests
import Verif.Lemmas.BulkResponse
import Verif.Lemmas.PatchTotality

/-! Helper lemmas for C104: bulk requests. -/

namespace Scim
open Issues
variable [PyEnv]

/-! ### Where the errors of a list of objects come from -/

theorem mergeSubs_cause {loc : Loc} {outs : List (Str × Val × Issues)} (hw : ∀ o ∈ outs, o.2.2.WF) {acc : Issues} {l : Loc}
    (h : (mergeSubs loc acc outs).errorsAt l ≠ []) :
    acc.errorsAt l ≠ [] ∨ ∃ o ∈ outs, ∃ l', l = loc ++ .name o.1 :: l' ∧ o.2.2.errorsAt l' ≠ [] := by
  unfold mergeSubs at h
  induction outs generalizing acc with
  | nil => exact .inl h
  | cons o outs ih =>
    rw [List.foldl_cons] at h
    rcases ih (fun o ho => hw o (List.mem_cons_of_mem _ ho)) h with h' | ⟨o', ho', l', e, he⟩
    · rw [errorsAt_merge (hw o (by simp))] at h'
      by_cases ha : acc.errorsAt l = []
      · rw [ha, List.nil_append] at h'
        split at h'
        · rename_i hpre
          obtain ⟨t, rfl⟩ := hpre
          rw [List.drop_left] at h'
          exact .inr ⟨o, by simp, t, by simp, h'⟩
        · exact absurd rfl h'
      · exact .inl ha
    · exact .inr ⟨o', List.mem_cons_of_mem _ ho', l', e, he⟩

theorem subOut_some {m : Mode} {item : Val} {s : Attr} {o} (h : subOut m item s = some o) :
    ∃ z, item.getItem s.rep = .ok z ∧ z.isMissing = false ∧ s.process m z = .ok (o.2.1, o.2.2) ∧ o.1 = s.rep.attr := by
  unfold subOut at h
  split at h
  · cases h
  · cases h
  · rename_i x hx hg
    split at h
    · cases h
    · rename_i p is hp
      cases h
      exact ⟨x, hg, by cases x <;> first | rfl | exact absurd rfl hx, hp, rfl⟩

theorem complexItems_cause {m : Mode} {subs : List Attr} (hs : PlainSubs subs) (hsane : SaneAll subs)
    {k : Nat} {xs ys : List Val} {acc is : Issues}
    (h : complexItems (fun loc item is => processSubs m subs loc item .emptyCont is) k xs acc = .ok (ys, is)) {l : Loc}
    (hl : is.errorsAt l ≠ []) :
    acc.errorsAt l ≠ [] ∨ ∃ (i : Nat) (x : Val), xs[i]? = some x ∧ ∃ s ∈ subs, ∃ z w j l', x.toCont.getItem s.rep = .ok z ∧
      z.isMissing = false ∧ s.process m z = .ok (w, j) ∧ l = .idx (k + i) :: .name s.rep.attr :: l' ∧ j.errorsAt l' ≠ [] := by
  induction xs generalizing k acc ys with
  | nil => simp only [complexItems] at h; cases h; exact .inl hl
  | cons x xs ih =>
    simp only [complexItems] at h
    split at h
    · cases h
    · rename_i item s1 hx
      split at h
      · cases h
      · rename_i items s2 hr
        cases h
        rcases ih hr with h' | ⟨i, x', hi, s, hsm, z, w, j, l', a1, a2, a3, a4, a5⟩
        · rw [← mkCont_nil] at hx
          obtain ⟨-, e, -⟩ := processSubs_spec subs [.idx k] x.toCont [] acc item s1 hs.plain (lower_nodup_attr hs.distinct)
            (by simp) hx
          rw [e] at h'
          have hsrc : ∀ o ∈ subs.filterMap (subOut m x.toCont), ∃ s ∈ subs, subOut m x.toCont s = some o :=
            fun o ho => List.mem_filterMap.mp ho
          rcases mergeSubs_cause (by
            intro o ho
            obtain ⟨s, hsm, e⟩ := hsrc o ho
            obtain ⟨z, -, -, hp, -⟩ := subOut_some e
            exact process_wf s (saneAll_iff.mp hsane s hsm) hp) h' with h' | ⟨o, ho, l', e1, e2⟩
          · exact .inl h'
          · obtain ⟨s, hsm, e⟩ := hsrc o ho
            obtain ⟨z, hz, hm, hp, hn⟩ := subOut_some e
            refine .inr ⟨0, x, rfl, s, hsm, z, _, _, l', hz, hm, hp, ?_, e2⟩
            rw [e1, hn]; rfl
        · refine .inr ⟨i + 1, x', hi, s, hsm, z, w, j, l', a1, a2, a3, ?_, a5⟩
          rw [a4, show k + 1 + i = k + (i + 1) by omega]

/-- An error about a list of objects is about an item that is no object or comes from a part of an item. -/
theorem multi_cause {m : Mode} {info : AttrInfo} {subs : List Attr} (hd : ComplexDecl m info) (hm : info.multi = true)
    (hs : PlainSubs subs) (hsane : SaneAll subs) {xs : List Val} {r : Val} {is : Issues}
    (h : (Attr.complex info subs [] []).process m (.list xs) = .ok (r, is)) {l : Loc} (hl : is.errorsAt l ≠ []) :
    (∃ (i : Nat) (x : Val), xs[i]? = some x ∧ x.isCont = false ∧ l = [.idx i]) ∨
    ∃ (i : Nat) (x : Val), xs[i]? = some x ∧ x.isCont = true ∧ ∃ s ∈ subs, ∃ z w j l', x.getItem s.rep = .ok z ∧
      z.isMissing = false ∧ s.process m z = .ok (w, j) ∧ l = .idx i :: .name s.rep.attr :: l' ∧ j.errorsAt l' ≠ [] := by
  rw [complex_process_eq, info_process_eq] at h
  simp only [Val.isNone, Bool.false_eq_true, if_false, AttrInfo.base, hm, if_true, hd.procs, runProcs] at h
  cases hpi : info.processItems m 0 xs {} with
  | error e => rw [hpi] at h; simp at h
  | ok q =>
    obtain ⟨zs, is0⟩ := q
    rw [hpi] at h
    simp only [ite_self] at h
    obtain ⟨p1, p2, -⟩ := processItems_spec hpi
    have hlen := processItems_length hpi
    have hstop := processItems_stop hpi rfl
    simp only [(canProceed_nil_iff _).2 hstop, Bool.not_true, Bool.false_or, Val.isNone, Bool.false_eq_true, if_false, complexBody, hm,
      if_true] at h
    cases hci : complexItems (fun loc item is => processSubs m subs loc item .emptyCont is) 0 zs is0 with
    | error e => rw [hci] at h; simp at h
    | ok q =>
      obtain ⟨ys, is1⟩ := q
      rw [hci] at h
      have hfin : is = is1 := by
        simp only at h
        split at h
        · cases h; rfl
        · cases m <;> (simp only [Attr.cprocs, runProcs] at h; cases h; rfl)
      subst hfin
      have hitem : ∀ (i : Nat) x, xs[i]? = some x → ∃ z, zs[i]? = some z ∧
          ((x.isCont = true ∧ z = x ∧ ∀ l, is0.errorsAt (.idx i :: l) = []) ∨
           (x.isCont = false ∧ z = .invalid ∧ ∀ l, is0.errorsAt (.idx i :: l) ≠ [] → l = [])) := by
        intro i x hx
        obtain ⟨z, i1, hz, ho, he⟩ := p1 i x hx
        rw [complex_one hd] at ho
        refine ⟨z, hz, ?_⟩
        cases hxc : x.isCont with
        | true =>
          rw [hxc, if_pos rfl] at ho
          cases ho
          refine .inl ⟨rfl, rfl, ?_⟩
          intro l
          have := he l
          rw [Nat.zero_add] at this
          rw [this]; rfl
        | false =>
          rw [hxc] at ho
          simp only [Bool.false_eq_true, if_false] at ho
          cases ho
          refine .inr ⟨rfl, rfl, ?_⟩
          intro l
          have := he l
          rw [Nat.zero_add] at this
          rw [this, errorsAt_merge (wf_blocking 2), errorsAt_blocking]
          cases l <;> simp
      rcases complexItems_cause hs hsane hci hl with h0 | ⟨i, z, hz, s, hsm, y, w, j, l', a1, a2, a3, a4, a5⟩
      · left
        have : ∃ i l', i < xs.length ∧ l = .idx (0 + i) :: l' := by
          apply Classical.byContradiction
          intro hcon
          apply h0
          rw [p2 l]
          · rfl
          · intro i l' hi e
            exact hcon ⟨i, l', hi, e⟩
        obtain ⟨i, l', hi, rfl⟩ := this
        rw [Nat.zero_add] at h0 ⊢
        have hx := List.getElem?_eq_getElem hi
        obtain ⟨z, -, ⟨-, -, h1⟩ | ⟨h1, -, h2⟩⟩ := hitem i _ hx
        · exact absurd (h1 l') h0
        · exact ⟨i, _, hx, h1, by rw [h2 l' h0]⟩
      · right
        rw [Nat.zero_add] at a4
        have hi : i < xs.length := by rw [← hlen]; exact (List.getElem?_eq_some_iff.mp hz).1
        have hx := List.getElem?_eq_getElem hi
        obtain ⟨z', hz', ⟨h1, rfl, -⟩ | ⟨h1, rfl, h2⟩⟩ := hitem i _ hx
        · rw [hz] at hz'
          cases hz'
          have e : xs[i].toCont = xs[i] := by cases hh : xs[i] <;> rw [hh] at h1 <;> simp [Val.isCont] at h1; rw [Val.toCont]
          rw [e] at a1
          exact ⟨i, _, hx, h1, s, hsm, y, w, j, l', a1, a2, a3, a4, a5⟩
        · rw [hz] at hz'
          cases hz'
          exfalso
          rw [Val.toCont, getItem_noKey (r := s.rep) rfl] at a1
          · cases a1; cases a2
          all_goals simp

/-! ### The parts of an operation -/

/-- A string attribute without post-processors. -/
theorem string_parse {i : AttrInfo} (ht : i.type = .string) (hm : i.multi = false) (hp : i.parsers = []) {z w : Val}
    {j : Issues} (h : (Attr.simple i).process .parse z = .ok (w, j)) :
    (w = z ∧ j = {} ∧ (z = .null ∨ ∃ s, z = .str s ∧ (i.validateCanon = true → i.isCanonical (.str s) = true))) ∨
    (w = .invalid ∧ j.errorsAt [] ≠ [] ∧ z.isNone = false ∧ ∀ s, z = .str s → i.validateCanon = true ∧ i.isCanonical (.str s) = false) := by
  by_cases hz : z.isNone = true
  · rw [isNone_iff.mp hz, C25_null] at h
    cases h
    exact .inl ⟨(isNone_iff.mp hz).symm, rfl, .inl (isNone_iff.mp hz)⟩
  · rw [single_process hm (by simpa using hz)] at h
    rcases one_string ht z with ⟨s, rfl, ⟨hc, e⟩ | ⟨hc, hv, e⟩⟩ | ⟨hne, e⟩
    · rw [e] at h
      simp only [has_empty, AttrInfo.procs, hp, runProcs] at h
      cases h
      refine .inl ⟨rfl, rfl, .inr ⟨s, rfl, ?_⟩⟩
      intro hv
      rw [hv] at hc
      simpa using hc
    · rw [e] at h
      simp only [hasIssues_add] at h
      cases h
      refine .inr ⟨rfl, ?_, rfl, ?_⟩
      · rw [errorsAt_add]; simp
      · intro s' e'; cases e'; exact ⟨hv, hc⟩
    · rw [e] at h
      have : (Issues.merge {} (blocking 2)).hasIssues = true := rfl
      simp only [this] at h
      cases h
      refine .inr ⟨rfl, ?_, by simpa using hz, fun s e => absurd e (hne s)⟩
      rw [errorsAt_merge (wf_blocking 2), errorsAt_blocking]
      simp

namespace BulkA

theorem request_string {s : Attr} (hs : s ∈ requestSubs) : s = dataA ∨ ∃ i : AttrInfo, s = .simple i ∧ i.type = .string ∧
    i.multi = false ∧ i.parsers = [] ∧ (s = methodA ∨ i.validateCanon = false) := by
  simp only [requestSubs, List.mem_cons, List.not_mem_nil, or_false] at hs
  rcases hs with rfl | rfl | rfl | rfl | rfl
  · exact .inr ⟨_, rfl, rfl, rfl, rfl, .inl rfl⟩
  · exact .inr ⟨_, rfl, rfl, rfl, rfl, .inr rfl⟩
  · exact .inr ⟨_, rfl, rfl, rfl, rfl, .inr rfl⟩
  · exact .inr ⟨_, rfl, rfl, rfl, rfl, .inr rfl⟩
  · exact .inl rfl

/-- What the type check makes of a part of an operation: it stays as it is, or it is reported and replaced. -/
theorem request_part {s : Attr} (hs : s ∈ requestSubs) (hd : s ≠ dataA) {z w : Val} {j : Issues}
    (h : s.process .parse z = .ok (w, j)) :
    (w = z ∧ j = {} ∧ (z = .null ∨ ∃ t, z = .str t ∧ (s = methodA →
      lower t ∈ ["get".toList, "post".toList, "patch".toList, "put".toList, "delete".toList]))) ∨
    (w = .invalid ∧ j.errorsAt [] ≠ [] ∧ z.isNone = false ∧ ∀ t, z = .str t → s = methodA ∧
      lower t ∉ ["get".toList, "post".toList, "patch".toList, "put".toList, "delete".toList]) := by
  rcases request_string hs with rfl | ⟨i, rfl, h1, h2, h3, h4⟩
  · exact absurd rfl hd
  · have key : ∀ t, (Attr.simple i = methodA) → i.isCanonical (.str t) =
        ["get".toList, "post".toList, "patch".toList, "put".toList, "delete".toList].contains (lower t) := by
      intro t e
      rw [← method_canonical, ← e]; rfl
    have hvc : Attr.simple i = methodA → i.validateCanon = true := by
      intro e
      have : (Attr.simple i).info.validateCanon = true := by rw [e]; rfl
      exact this
    rcases string_parse h1 h2 h3 h with ⟨a1, a2, a3⟩ | ⟨a1, a2, a3, a4⟩
    · refine .inl ⟨a1, a2, ?_⟩
      rcases a3 with a3 | ⟨t, a3, a4⟩
      · exact .inl a3
      · refine .inr ⟨t, a3, fun e => ?_⟩
        have := a4 (hvc e)
        rw [key t e] at this
        simpa using this
    · refine .inr ⟨a1, a2, a3, ?_⟩
      intro t e
      obtain ⟨b1, b2⟩ := a4 t e
      rcases h4 with h4 | h4
      · refine ⟨h4, ?_⟩
        rw [key t h4] at b2
        intro hm
        rw [List.contains_iff_mem.mpr hm] at b2
        cases b2
      · rw [h4] at b1; cases b1

/-- The five methods pass the check of the spelling. -/
theorem five_lower {t : Str} (h : t ∈ bulkMethods) :
    lower t ∈ ["get".toList, "post".toList, "patch".toList, "put".toList, "delete".toList] := by
  rw [PyEnv.lower_ascii]
  · revert t; decide
  · revert t; decide

/-- An operation `x` and what the type check makes of it. -/
structure Checked (x y : Val) : Prop where
  method : ∃ v v', x.getItem { attr := methodWord } = .ok v ∧ y.getItem { attr := methodWord } = .ok v' ∧
    (v' = v ∨ (v' = .invalid ∧ ∀ t ∈ bulkMethods, v ≠ .str t))
  path : ∃ p p', x.getItem { attr := pathWord } = .ok p ∧ y.getItem { attr := pathWord } = .ok p' ∧
    ((p' = p ∧ (p.isNoneOrMissing = true ∨ ∃ t, p = .str t)) ∨ (p' = .invalid ∧ p.isNoneOrMissing = false ∧ ∀ t, p ≠ .str t))
  data : ∃ d, x.getItem { attr := dataWord } = .ok d ∧ y.getItem { attr := dataWord } = .ok d
  id : ∃ d, y.getItem { attr := idWord } = .ok d

theorem not_noneOrMissing {z : Val} (h1 : z.isMissing = false) (h2 : z.isNone = false) : z.isNoneOrMissing = false := by
  cases z with
  | prim p => cases p <;> first | rfl | cases h2
  | missing => cases h1
  | _ => rfl

theorem missing_of {z : Val} (h : z.isMissing = true) : z = .missing := by
  cases z <;> simp [Val.isMissing] at h; rfl

theorem checked_of {x y : Val} (hs : SubResult .parse requestSubs x y) : Checked x y := by
  have key : ∀ s ∈ requestSubs, s ≠ dataA → ∃ z w, x.getItem s.rep = .ok z ∧ y.getItem s.rep = .ok w ∧
      ((w = z ∧ (z.isNoneOrMissing = true ∨ ∃ t, z = .str t)) ∨ (w = .invalid ∧ z.isNoneOrMissing = false ∧ ∀ t, z = .str t → s = methodA ∧
      lower t ∉ ["get".toList, "post".toList, "patch".toList, "put".toList, "delete".toList])) := by
    intro s hsm hd
    obtain ⟨z, hz⟩ := hs.read s hsm
    cases hm : z.isMissing with
    | true =>
      rw [missing_of hm] at hz
      exact ⟨.missing, .missing, hz, hs.absent s hsm hz, .inl ⟨rfl, .inl rfl⟩⟩
    | false =>
      obtain ⟨w, j, hp, hw⟩ := hs.present s hsm z hz hm
      refine ⟨z, w, hz, hw, ?_⟩
      rcases request_part hsm hd hp with ⟨a1, -, a3⟩ | ⟨a1, -, a3, a4⟩
      · refine .inl ⟨a1, ?_⟩
        rcases a3 with rfl | ⟨t, e, -⟩
        · exact .inl rfl
        · exact .inr ⟨t, e⟩
      · exact .inr ⟨a1, not_noneOrMissing hm a3, a4⟩
  have hne : ∀ s : Attr, s.rep.attr ≠ dataWord → s ≠ dataA := by rintro s h rfl; exact h rfl
  refine ⟨?_, ?_, ?_, ?_⟩
  · obtain ⟨v, v', h1, h2, h3⟩ := key methodA (by simp [requestSubs]) (hne _ (show methodWord ≠ dataWord by decide))
    refine ⟨v, v', h1, h2, ?_⟩
    rcases h3 with ⟨e, -⟩ | ⟨e, -, h⟩
    · exact .inl e
    · refine .inr ⟨e, ?_⟩
      rintro t ht rfl
      exact (h t rfl).2 (five_lower ht)
  · obtain ⟨v, v', h1, h2, h3⟩ := key pathA (by simp [requestSubs]) (hne _ (show pathWord ≠ dataWord by decide))
    refine ⟨v, v', h1, h2, ?_⟩
    rcases h3 with h | ⟨e, h, h'⟩
    · exact .inl h
    · refine .inr ⟨e, h, ?_⟩
      rintro t rfl
      have := congrArg (fun a => a.rep.attr) (h' t rfl).1
      exact absurd this (show pathWord ≠ methodWord by decide)
  · obtain ⟨z, hz⟩ := hs.read dataA (by simp [requestSubs])
    refine ⟨z, hz, ?_⟩
    cases hm : z.isMissing with
    | true =>
      rw [missing_of hm] at hz ⊢
      exact hs.absent dataA (by simp [requestSubs]) hz
    | false =>
      obtain ⟨w, j, hp, hw⟩ := hs.present dataA (by simp [requestSubs]) z hz hm
      rw [data_process] at hp
      cases hp
      exact hw
  · obtain ⟨v, v', h1, h2, h3⟩ := key idA (by simp [requestSubs]) (hne _ (show idWord ≠ dataWord by decide))
    exact ⟨v', h2⟩

/-- The list of operations after the type check. -/
structure Items (xs ys : List Val) (is1 : Issues) : Prop where
  len : ys.length = xs.length
  bad : ∀ (i : Nat) x, xs[i]? = some x → x.isCont = false → is1.errorsAt [.idx i] ≠ []
  good : ∀ (i : Nat) x, xs[i]? = some x → x.isCont = true → ∃ y, ys[i]? = some y ∧ Checked x y ∧
    is1.errorsAt [.idx i] = [] ∧ is1.errorsAt [.idx i, .name dataWord] = [] ∧
    ∀ p, x.getItem { attr := pathWord } = .ok p →
      (is1.errorsAt [.idx i, .name pathWord] = [] ↔ p.isNoneOrMissing = true ∨ ∃ t, p = .str t)
  typed : is1.hasIssues = false ↔ ∀ x ∈ xs, TypedOperation x
  keys : ∀ y ∈ ys, y.Reach ∧ y.NoKeyFor [] ∧ y.NoKeyFor "primary".toList

theorem request_prim {s : Attr} (hs : s ∈ requestSubs) : lower s.rep.attr ≠ "primary".toList := by
  simp only [requestSubs, List.mem_cons, List.not_mem_nil, or_false] at hs
  rcases hs with rfl | rfl | rfl | rfl | rfl
  · rw [show lower methodA.rep.attr = _ from PyEnv.lower_ascii methodWord (by decide)]; decide
  · rw [show lower idA.rep.attr = _ from PyEnv.lower_ascii idWord (by decide)]; decide
  · rw [show lower versionA.rep.attr = _ from PyEnv.lower_ascii versionWord (by decide)]; decide
  · rw [show lower pathA.rep.attr = _ from PyEnv.lower_ascii pathWord (by decide)]; decide
  · rw [show lower dataA.rep.attr = _ from PyEnv.lower_ascii dataWord (by decide)]; decide

theorem kept_sub {w : Str} (h : w ∈ keptParts) : ∃ s ∈ requestSubs, s ≠ dataA ∧ s.rep = { attr := w } := by
  have hne : ∀ s : Attr, s.rep.attr ≠ dataWord → s ≠ dataA := by rintro s h rfl; exact h rfl
  simp only [keptParts, List.mem_cons, List.not_mem_nil, or_false] at h
  rcases h with rfl | rfl | rfl | rfl
  · exact ⟨methodA, by simp [requestSubs], hne _ (show methodWord ≠ dataWord by decide), rfl⟩
  · exact ⟨idA, by simp [requestSubs], hne _ (show idWord ≠ dataWord by decide), rfl⟩
  · exact ⟨versionA, by simp [requestSubs], hne _ (show versionWord ≠ dataWord by decide), rfl⟩
  · exact ⟨pathA, by simp [requestSubs], hne _ (show pathWord ≠ dataWord by decide), rfl⟩

theorem sub_kept {s : Attr} (h : s ∈ requestSubs) (hd : s ≠ dataA) : ∃ w ∈ keptParts, s.rep = { attr := w } := by
  simp only [requestSubs, List.mem_cons, List.not_mem_nil, or_false] at h
  rcases h with rfl | rfl | rfl | rfl | rfl
  · exact ⟨methodWord, by decide, rfl⟩
  · exact ⟨idWord, by decide, rfl⟩
  · exact ⟨versionWord, by decide, rfl⟩
  · exact ⟨pathWord, by decide, rfl⟩
  · exact absurd rfl hd

theorem items_of {xs ys : List Val} {is1 : Issues}
    (h : (Attr.complex (opsInfo requestUrn) requestSubs [] []).process .parse (.list xs) = .ok (.list ys, is1)) (hw : is1.WF) :
    Items xs ys is1 := by
  obtain ⟨ys', e, hlen, hbad, hgood, -⟩ := C27_multi .parse (opsInfo requestUrn) _ [] [] (opsInfo_decl _ _) rfl
    requestSubs_plain requestSubs_sane (by simp [Attr.cprocs]) xs _ _ h
  cases e
  have hcause := @multi_cause _ .parse (opsInfo requestUrn) requestSubs (opsInfo_decl _ _) rfl requestSubs_plain requestSubs_sane xs _ _ h
  have hreach := multi_reach (m := .parse) (info := opsInfo requestUrn) rfl (opsInfo_decl _ _) h
  have hpart : ∀ (i : Nat) x, xs[i]? = some x → x.isCont = true → ∀ s ∈ requestSubs, s ≠ dataA → ∀ z, x.getItem s.rep = .ok z →
      (is1.errorsAt [.idx i, .name s.rep.attr] = [] ↔ z.isNoneOrMissing = true ∨ ∃ t, z = .str t ∧ (s = methodA →
        lower t ∈ ["get".toList, "post".toList, "patch".toList, "put".toList, "delete".toList])) := by
    intro i x hx hc s hs hd z hz
    obtain ⟨y, hy, hsr, hiss⟩ := hgood i x hx hc
    constructor
    · intro hn
      cases hm : z.isMissing with
      | true => rw [missing_of hm]; exact .inl rfl
      | false =>
        obtain ⟨w, j, hp, hw'⟩ := hsr.present s hs z hz hm
        rcases request_part hs hd hp with ⟨-, -, rfl | a3⟩ | ⟨-, a2, -⟩
        · exact .inl rfl
        · exact .inr a3
        · exfalso
          have := hiss s hs z w j hz hm hp [] a2
          rw [hn] at this
          exact a2 this.symm
    · intro hz'
      apply Classical.byContradiction
      intro hne
      rcases hcause hne with ⟨i', x', -, -, e⟩ | ⟨i', x', hx', hc', s', hs', z', w, j, l', a1, a2, a3, a4, a5⟩
      · cases e
      · simp only [List.cons.injEq, LKey.idx.injEq, LKey.name.injEq] at a4
        obtain ⟨rfl, e1, rfl⟩ := a4
        rw [hx] at hx'
        cases hx'
        have es : s = s' := by
          have hn := requestSubs_plain.distinct
          exact eq_of_map_nodup (f := fun s : Attr => lower s.rep.attr) hn hs hs' (by rw [e1])
        subst es
        rw [hz] at a1
        cases a1
        rcases request_part hs hd a3 with ⟨-, b2, -⟩ | ⟨-, -, b3, b4⟩
        · rw [b2] at a5; exact a5 rfl
        · rcases hz' with hz' | ⟨t, e, ht⟩
          · rw [not_noneOrMissing a2 b3] at hz'; cases hz'
          · obtain ⟨c1, c2⟩ := b4 t e
            exact c2 (ht c1)
  have hroot : ∀ (i : Nat) x, xs[i]? = some x → x.isCont = true → is1.errorsAt [.idx i] = [] := by
    intro i x hx hc
    apply Classical.byContradiction
    intro hne
    rcases hcause hne with ⟨i', x', hx', hc', e⟩ | ⟨i', x', hx', hc', s', hs', z', w, j, l', a1, a2, a3, a4, a5⟩
    · cases e
      rw [hx] at hx'
      cases hx'
      rw [hc] at hc'; cases hc'
    · cases a4
  refine ⟨hlen, fun i x hx hc => (hbad i x hx hc).2, ?_, ?_, ?_⟩
  · intro i x hx hc
    obtain ⟨y, hy, hsr, hiss⟩ := hgood i x hx hc
    refine ⟨y, hy, checked_of hsr, hroot i x hx hc, ?_, ?_⟩
    · apply Classical.byContradiction
      intro hne
      rcases hcause hne with ⟨i', x', hx', hc', e⟩ | ⟨i', x', hx', hc', s', hs', z', w, j, l', a1, a2, a3, a4, a5⟩
      · cases e
      · simp only [List.cons.injEq, LKey.idx.injEq, LKey.name.injEq] at a4
        obtain ⟨rfl, e1, rfl⟩ := a4
        have es : dataA = s' := by
          have hn := requestSubs_plain.distinct
          exact eq_of_map_nodup (f := fun s : Attr => lower s.rep.attr) hn (by simp [requestSubs]) hs' (by
            rw [← e1]; rfl)
        subst es
        rw [data_process] at a3
        cases a3
        exact a5 rfl
    · intro p hp
      have hne : pathA ≠ dataA := by
        intro e
        exact absurd (congrArg (fun a => a.rep.attr) e) (show pathWord ≠ dataWord by decide)
      have := hpart i x hx hc pathA (by simp [requestSubs]) hne p hp
      rw [show pathA.rep.attr = pathWord from rfl] at this
      rw [this]
      constructor
      · rintro (h | ⟨t, h, -⟩)
        · exact .inl h
        · exact .inr ⟨t, h⟩
      · rintro (h | ⟨t, h⟩)
        · exact .inl h
        · refine .inr ⟨t, h, fun e => ?_⟩
          exact absurd (congrArg (fun a => a.rep.attr) e) (show pathWord ≠ methodWord by decide)
  · constructor
    · intro hn x hx
      have he := eq_empty_of_noIssues hw hn
      subst he
      obtain ⟨i, hi⟩ := List.getElem?_of_mem hx
      have hc : x.isCont = true := by
        cases hc : x.isCont with
        | true => rfl
        | false => exact absurd rfl (hbad i x hi hc).2
      refine ⟨hc, ?_, ?_⟩
      · intro w hw' v hv
        obtain ⟨s, hs, hd, hr⟩ := kept_sub hw'
        rcases (hpart i x hi hc s hs hd v (by rw [hr]; exact hv)).mp rfl with h | ⟨t, h, -⟩
        · exact .inl h
        · exact .inr ⟨t, h⟩
      · intro m hm
        have hne : methodA ≠ dataA := by
          intro e
          exact absurd (congrArg (fun a => a.rep.attr) e) (show methodWord ≠ dataWord by decide)
        rcases (hpart i x hi hc methodA (by simp [requestSubs]) hne _ hm).mp rfl with h | ⟨t, h, h'⟩
        · cases h
        · cases h
          exact h' rfl
    · intro hty
      rw [← Bool.not_eq_true]
      intro hi
      obtain ⟨l, hl⟩ := (hasIssues_iff_errors hw).mp hi
      rcases hcause hl with ⟨i, x, hx, hc, -⟩ | ⟨i, x, hx, hc, s, hs, z, w, j, l', a1, a2, a3, a4, a5⟩
      · rw [(hty x (List.mem_of_getElem? hx)).object] at hc; cases hc
      · by_cases hd : s = dataA
        · subst hd
          rw [data_process] at a3
          cases a3
          exact a5 rfl
        · obtain ⟨wd, hwd, hr⟩ := sub_kept hs hd
          have ht := hty x (List.mem_of_getElem? hx)
          rcases request_part hs hd a3 with ⟨-, b2, -⟩ | ⟨-, -, b3, b4⟩
          · rw [b2] at a5; exact a5 rfl
          · rcases ht.texts wd hwd z (by rw [← hr]; exact a1) with h | ⟨t, rfl⟩
            · rw [not_noneOrMissing a2 b3] at h; cases h
            · obtain ⟨rfl, c2⟩ := b4 t rfl
              exact c2 (ht.method t a1)
  · intro y hy
    have hk : ∀ k ∈ y.keys, ∃ s ∈ requestSubs, s.rep.attr = k := by
      obtain ⟨i, hi⟩ := List.getElem?_of_mem hy
      have hlt : i < xs.length := by
        rw [← hlen]
        exact (List.getElem?_eq_some_iff.mp hi).1
      have hx : xs[i]? = some xs[i] := List.getElem?_eq_getElem hlt
      cases hc : (xs[i]).isCont with
      | false =>
        obtain ⟨⟨y', hy', -, hk⟩, -⟩ := hbad i _ hx hc
        rw [hi] at hy'
        cases hy'
        rw [hk]; simp
      | true =>
        obtain ⟨y', hy', hsr, -⟩ := hgood i _ hx hc
        rw [hi] at hy'
        cases hy'
        intro k hk
        obtain ⟨s, hs, e, -⟩ := hsr.declared k hk
        exact ⟨s, hs, e⟩
    refine ⟨hreach y hy, ?_, ?_⟩
    · intro k hk'
      obtain ⟨s, hs, rfl⟩ := hk k hk'
      rw [show lower ([] : Str) = [] from PyEnv.lower_ascii [] (by simp)]
      exact request_lower hs
    · intro k hk'
      obtain ⟨s, hs, rfl⟩ := hk k hk'
      rw [show lower "primary".toList = "primary".toList from PyEnv.lower_ascii "primary".toList (by decide)]
      exact request_prim hs

/-! ### The check of the operations -/

/-- The path fits the method. -/
def PathOk (v p : Val) : Prop :=
  p.isNoneOrMissing = false ∧ (v.isText postWord = true → ∃ t, p = .str t ∧ isTypePath t = true) ∧
    ((v.isText getWord || v.isText patchWord || v.isText putWord || v.isText deleteWord) = true →
      v.isText postWord = false → ∃ t, p = .str t ∧ isObjectPath t = true)

theorem pathOrMissing_exact (i : Nat) (v : Val) {p : Val} (hp : p.isNoneOrMissing = true ∨ ∃ t, p = .str t) (s : Issues) :
    ∃ r, pathOrMissing i v p s = .ok r ∧ (∀ l, l ≠ [.idx i, .name pathWord] → r.errorsAt l = s.errorsAt l) ∧
      (s.errorsAt [.idx i, .name pathWord] = [] → (r.errorsAt [.idx i, .name pathWord] = [] ↔ PathOk v p)) := by
  have hadd : ∀ (c : Nat) (l : Loc), l ≠ [.idx i, .name pathWord] →
      (s.add ⟨c, []⟩ false [.idx i, .name pathWord]).errorsAt l = s.errorsAt l := by
    intro c l hl
    rw [errorsAt_add, if_neg (fun e => hl e.symm), List.append_nil]
  have hadd' : ∀ c : Nat, (s.add ⟨c, []⟩ false [.idx i, .name pathWord]).errorsAt [.idx i, .name pathWord] ≠ [] := by
    intro c
    rw [errorsAt_add, if_pos rfl]; simp
  unfold pathOrMissing
  by_cases hn : p.isNoneOrMissing = true
  · rw [if_pos hn]
    refine ⟨_, rfl, hadd 15, fun _ => ⟨fun h => absurd h (hadd' 15), fun h => ?_⟩⟩
    have := h.1
    rw [hn] at this
    cases this
  · rw [if_neg hn]
    obtain ⟨t, rfl⟩ : ∃ t, p = .str t := hp.resolve_left hn
    unfold checkPath
    by_cases hpost : v.isText postWord = true
    · rw [if_pos hpost]
      by_cases ht : isTypePath t = true
      · refine ⟨_, rfl, ?_, ?_⟩
        · intro l _; rw [if_pos ht]
        · intro hs
          rw [if_pos ht]
          exact ⟨fun _ => ⟨rfl, fun _ => ⟨t, rfl, ht⟩, fun _ h => (by rw [hpost] at h; cases h)⟩, fun _ => hs⟩
      · refine ⟨_, rfl, ?_, ?_⟩
        · intro l hl; rw [if_neg ht]; exact hadd 34 l hl
        · intro hs
          rw [if_neg ht]
          refine ⟨fun h => absurd h (hadd' 34), fun h => ?_⟩
          obtain ⟨t', e, h'⟩ := h.2.1 hpost
          cases e
          exact absurd h' ht
    · rw [if_neg hpost]
      by_cases hm : (v.isText getWord || v.isText patchWord || v.isText putWord || v.isText deleteWord) = true
      · rw [if_pos hm]
        by_cases ht : isObjectPath t = true
        · refine ⟨_, rfl, ?_, ?_⟩
          · intro l _; rw [if_pos ht]
          · intro hs
            rw [if_pos ht]
            exact ⟨fun _ => ⟨rfl, fun h => absurd h hpost, fun _ _ => ⟨t, rfl, ht⟩⟩, fun _ => hs⟩
        · refine ⟨_, rfl, ?_, ?_⟩
          · intro l hl; rw [if_neg ht]; exact hadd 35 l hl
          · intro hs
            rw [if_neg ht]
            refine ⟨fun h => absurd h (hadd' 35), fun h => ?_⟩
            obtain ⟨t', e, h'⟩ := h.2.2 hm (by simpa using hpost)
            cases e
            exact absurd h' ht
      · rw [if_neg hm]
        exact ⟨_, rfl, fun _ _ => rfl, fun hs => ⟨fun _ => ⟨rfl, fun h => absurd h hpost, fun h => absurd h hm⟩, fun _ => hs⟩⟩

omit [PyEnv] in
theorem missingAt_other {i : Nat} {w : Str} {b : Bool} {s : Issues} {l : Loc} (hl : l ≠ [.idx i, .name w]) :
    (missingAt i w b s).errorsAt l = s.errorsAt l := by
  unfold missingAt; split
  · rw [errorsAt_add, if_neg (fun e => hl e.symm), List.append_nil]
  · rfl

omit [PyEnv] in
theorem missingAt_self {i : Nat} {w : Str} {b : Bool} {s : Issues} (hs : s.errorsAt [.idx i, .name w] = []) :
    (missingAt i w b s).errorsAt [.idx i, .name w] = [] ↔ b = false := by
  unfold missingAt; split
  · rename_i h
    rw [errorsAt_add, if_pos rfl]; simp [h]
  · rename_i h; simp [hs, h]

omit [PyEnv] in
theorem methodExists_other {i : Nat} {v : Val} {s : Issues} {l : Loc} (hl : ¬ [.idx i, .name methodWord] <+: l) :
    (methodExists i v s).errorsAt l = s.errorsAt l := by
  unfold methodExists
  rw [errorsAt_merge_other hl]

theorem plainly_of {y : Val} (h : y.Reach) (h0 : y.NoKeyFor []) : y.Plainly := by
  obtain ⟨d, lc, rfl, hi⟩ := h.inv
  exact ⟨d, lc, rfl, hi, hi.noKey (schema := []) h0⟩

/-- The keys of an item. -/
abbrev Keyed (y : Val) : Prop := y.Reach ∧ y.NoKeyFor [] ∧ y.NoKeyFor "primary".toList

theorem dropData_total {v y : Val} (hy : Keyed y) : ∃ o, dropData v y = .ok o ∧ Keyed o ∧
    (∀ w ∈ keptParts, o.getItem { attr := w } = y.getItem { attr := w }) ∧ (hasData v = true → o = y) ∧
    (hasData v = false → ∃ d, o.getItem { attr := dataWord } = .ok d) := by
  obtain ⟨h1, h2, h3⟩ := hy
  have hpl := plainly_of h1 h2
  obtain ⟨o, ho⟩ : ∃ o, dropData v y = .ok o := by
    unfold dropData
    split
    · exact Plainly.delOk hpl dataWord false (V.bulk_word_name (by simp))
    · exact ⟨_, rfl⟩
  obtain ⟨a1, a2, a3, a4⟩ := dropData_kept h1 h2 ho
  refine ⟨o, ho, ⟨a1, a2, ?_⟩, a3, a4, fun _ => Plainly.get (plainly_of a1 a2) _⟩
  unfold dropData at ho
  split at ho
  · exact fun k hk => h3 k (delItem_keys h1 h2 ho k hk)
  · cases ho; exact h3

/-- What the check of one operation makes of it and of the issues. -/
structure OpChecked (i : Nat) (y o : Val) (s r : Issues) : Prop where
  keyed : Keyed o
  kept : ∀ w ∈ keptParts, o.getItem { attr := w } = y.getItem { attr := w }
  data : ∀ v, y.getItem { attr := methodWord } = .ok v → hasData v = true → o = y
  root : r.errorsAt [.idx i] = s.errorsAt [.idx i]
  path : ∀ v p, y.getItem { attr := methodWord } = .ok v → y.getItem { attr := pathWord } = .ok p →
    s.errorsAt [.idx i, .name pathWord] = [] → (r.errorsAt [.idx i, .name pathWord] = [] ↔ PathOk v p)
  dataErr : ∀ v d, y.getItem { attr := methodWord } = .ok v → y.getItem { attr := dataWord } = .ok d →
    s.errorsAt [.idx i, .name dataWord] = [] →
    (r.errorsAt [.idx i, .name dataWord] = [] ↔ (hasData v = true → d.isNoneOrMissing = false))

theorem checkRequestOp_exact (i : Nat) {y p : Val} (hy : Keyed y) (hp : y.getItem { attr := pathWord } = .ok p)
    (hpt : p.isNoneOrMissing = true ∨ ∃ t, p = .str t) (s : Issues) :
    ∃ o r, checkRequestOp i y s = .ok (o, r) ∧ OpChecked i y o s r := by
  have hpl := plainly_of hy.1 hy.2.1
  obtain ⟨v, hv⟩ := Plainly.get hpl methodWord
  obtain ⟨b, hb⟩ := Plainly.get hpl idWord
  obtain ⟨o, ho, hk, hkept, hdat, -⟩ := dropData_total (v := v) hy
  obtain ⟨d, hd⟩ := Plainly.get (plainly_of hk.1 hk.2.1) dataWord
  obtain ⟨r, hr, hr1, hr2⟩ := pathOrMissing_exact i v hpt (missingAt i idWord (v.isText postWord && b.isNoneOrMissing) (methodExists i v s))
  have hop : o.getItem { attr := pathWord } = .ok p := by rw [hkept pathWord (by decide)]; exact hp
  have hne1 : pathWord ≠ idWord := by decide
  have hne2 : pathWord ≠ methodWord := by decide
  have hne3 : pathWord ≠ dataWord := by decide
  have hne4 : dataWord ≠ idWord := by decide
  have hne5 : dataWord ≠ methodWord := by decide
  refine ⟨o, missingAt i dataWord (hasData v && d.isNoneOrMissing) r, ?_, ⟨hk, hkept, ?_, ?_, ?_, ?_⟩⟩
  · unfold checkRequestOp
    rw [hv]; dsimp only
    rw [hb]; dsimp only
    rw [ho]; dsimp only
    rw [hop]; dsimp only
    rw [hr]; dsimp only
    rw [hd]
  · intro v' hv' h'
    rw [hv] at hv'; cases hv'
    exact hdat h'
  · rw [missingAt_other (by intro e; cases e), hr1 _ (by intro e; cases e), missingAt_other (by intro e; cases e),
      methodExists_other (by intro e; exact absurd e.length_le (by simp))]
  · intro v' p' hv' hp' hs
    rw [hv] at hv'; cases hv'
    rw [hp] at hp'; cases hp'
    rw [missingAt_other (by intro e; cases e)]
    apply hr2
    rw [missingAt_other (by intro e; cases e), methodExists_other (by rintro ⟨t, e⟩; cases e)]
    exact hs
  · intro v' d' hv' hd' hs
    rw [hv] at hv'; cases hv'
    rw [missingAt_self]
    · constructor
      · intro h h'
        have := hdat h'
        subst this
        rw [hd] at hd'; cases hd'
        rw [h'] at h
        simpa using h
      · intro h
        cases hh : hasData v with
        | false => rfl
        | true =>
          have := hdat hh
          subst this
          rw [hd] at hd'; cases hd'
          simp [h hh]
    · rw [hr1 _ (by intro e; cases e), missingAt_other (by intro e; cases e), methodExists_other (by rintro ⟨t, e⟩; cases e)]
      exact hs

theorem OpChecked.mono {i : Nat} {y o : Val} {s r s' r' : Issues} (h : OpChecked i y o s r)
    (hs : ∀ l, s'.errorsAt (.idx i :: l) = s.errorsAt (.idx i :: l)) (hr : ∀ l, r'.errorsAt (.idx i :: l) = r.errorsAt (.idx i :: l)) :
    OpChecked i y o s' r' := by
  refine ⟨h.keyed, h.kept, h.data, ?_, ?_, ?_⟩
  · rw [hs, hr]; exact h.root
  · rw [hs, hr]; exact h.path
  · rw [hs, hr]; exact h.dataErr

theorem requestLoop_exact : ∀ (k : Nat) (ys : List Val) (s : Issues),
    (∀ y ∈ ys, Keyed y ∧ ∃ p, y.getItem { attr := pathWord } = .ok p ∧ (p.isNoneOrMissing = true ∨ ∃ t, p = .str t)) →
    ∃ os r, requestLoop k ys s = .ok (os, r) ∧ (∀ l, (∀ (i : Nat) l', k ≤ i → l ≠ .idx i :: l') → r.errorsAt l = s.errorsAt l) ∧
      ∀ (i : Nat) y, ys[i]? = some y → ∃ o, os[i]? = some o ∧ OpChecked (k + i) y o s r
  | k, [], s, _ => ⟨[], s, rfl, fun _ _ => rfl, by simp⟩
  | k, y :: ys, s, h => by
    obtain ⟨hk, p, hp, hpt⟩ := h y (by simp)
    obtain ⟨o, s1, h1, h2⟩ := checkRequestOp_exact k hk hp hpt s
    obtain ⟨os, r, h3, h4, h5⟩ := requestLoop_exact (k + 1) ys s1 (fun z hz => h z (List.mem_cons_of_mem _ hz))
    obtain ⟨-, h6, -⟩ := checkRequestOp_spec h1
    refine ⟨o :: os, r, by rw [requestLoop, h1]; simp only [h3], ?_, ?_⟩
    · intro l hl
      rw [h4 l (fun i l' hi => hl i l' (by omega)), h6 l (fun l' => hl k l' (Nat.le_refl _))]
    · intro i z hz
      cases i with
      | zero =>
        simp only [List.getElem?_cons_zero, Option.some.injEq] at hz
        subst hz
        refine ⟨o, rfl, h2.mono (fun _ => rfl) (fun l => h4 _ ?_)⟩
        intro i l' hi e
        cases e
        omega
      | succ i =>
        obtain ⟨o', b1, b2⟩ := h5 i z (by simpa using hz)
        refine ⟨o', by simpa using b1, ?_⟩
        rw [show k + (i + 1) = k + 1 + i by omega]
        refine b2.mono (fun l => (h6 _ ?_).symm) (fun _ => rfl)
        intro l' e
        simp only [List.cons.injEq, LKey.idx.injEq] at e
        omega

theorem typePath_iff {t : Str} : isTypePath t = true ↔ ∃ name, BulkTarget "POST".toList t name := by
  constructor
  · intro h
    obtain ⟨name, h, -⟩ := typePath_target h
    exact ⟨name, h⟩
  · rintro ⟨name, h⟩
    generalize hm : "POST".toList = m at h
    cases h with
    | collection h => exact h
    | member h _ _ => subst hm; exact absurd h (by decide)

omit [PyEnv] in
theorem dropWhile_append_stop {α : Type} {p : α → Bool} {xs : List α} {y : α} {ys : List α} (h : ∀ x ∈ xs, p x = true)
    (hy : p y = false) : (xs ++ y :: ys).dropWhile p = y :: ys := by
  induction xs with
  | nil => simp [hy]
  | cons x xs ih =>
    rw [List.cons_append, List.dropWhile_cons, if_pos (h x (by simp))]
    exact ih (fun z hz => h z (List.mem_cons_of_mem _ hz))

theorem objectPath_iff {m t : Str} (hm : m ∈ ["GET".toList, "PUT".toList, "PATCH".toList, "DELETE".toList]) :
    isObjectPath t = true ↔ ∃ name, BulkTarget m t name := by
  constructor
  · intro h
    obtain ⟨name, h, -⟩ := objectPath_target h hm
    exact ⟨name, h⟩
  · rintro ⟨name, h⟩
    cases h with
    | collection h => exact absurd hm (by decide)
    | @member _ _ rest _ hn hr =>
      unfold isWordRun at hn
      rw [Bool.and_eq_true] at hn
      have hw : ∀ c ∈ name, isWord c = true := List.all_eq_true.mp hn.2
      rw [List.cons_append, isObjectPath, takeWhile_append_stop hw slash_not_word, dropWhile_append_stop hw slash_not_word]
      rw [Bool.and_eq_true]
      refine ⟨hn.1, ?_⟩
      rw [isObjectRest, List.all_eq_true]
      intro c hc
      simp only [ne_eq, decide_not, Bool.not_eq_true', decide_eq_false_iff_not]
      rintro rfl
      exact hr hc

/-- An operation `x` of a request and what becomes of it. -/
structure Op (xs : List Val) (i : Nat) (x o : Val) (j : Issues) : Prop where
  root : j.errorsAt [.idx i] = []
  method : ∃ v v', x.getItem { attr := methodWord } = .ok v ∧ o.getItem { attr := methodWord } = .ok v' ∧
    (v' = v ∨ (v' = .invalid ∧ ∀ t ∈ bulkMethods, v ≠ .str t))
  path : ∃ p p', x.getItem { attr := pathWord } = .ok p ∧ o.getItem { attr := pathWord } = .ok p' ∧
    ((p' = p ∧ (p.isNoneOrMissing = true ∨ ∃ t, p = .str t)) ∨ (p' = .invalid ∧ (∀ t, p ≠ .str t) ∧ j.errorsAt [.idx i, .name pathWord] ≠ []))
  data : ∃ d, x.getItem { attr := dataWord } = .ok d ∧
    ∀ v, x.getItem { attr := methodWord } = .ok v → hasData v = true → o.getItem { attr := dataWord } = .ok d
  fits : ∀ t, x.getItem { attr := pathWord } = .ok (.str t) →
    (j.errorsAt [.idx i, .name pathWord] = [] ∧ j.errorsAt [.idx i, .name dataWord] = [] ↔
      ((∀ y ∈ xs, TypedOperation y) → ∀ m, x.getItem { attr := methodWord } = .ok (.str m) → m ∈ bulkMethods →
        (∃ name, BulkTarget m t name) ∧
        (m ∈ dataMethods → ∃ d, x.getItem { attr := dataWord } = .ok d ∧ d.isNoneOrMissing = false)))

/-- The operations of a request and what becomes of them. -/
structure Ops (xs os : List Val) (j : Issues) : Prop where
  wf : j.WF
  root : j.errorsAt [] = []
  len : os.length = xs.length
  keyed : ∀ o ∈ os, Keyed o
  bad : ∀ (i : Nat) x, xs[i]? = some x → x.isCont = false → j.errorsAt [.idx i] ≠ []
  good : ∀ (i : Nat) x, xs[i]? = some x → x.isCont = true → ∃ o, os[i]? = some o ∧ Op xs i x o j

theorem hasData_iff {m : Str} : hasData (.str m) = true ↔ m ∈ dataMethods := by
  simp only [hasData, Bool.or_eq_true, text_iff, dataMethods, List.mem_cons, List.not_mem_nil, or_false, postWord, putWord, patchWord]
  rw [or_assoc]

theorem ops_first {xs ys : List Val} {is1 : Issues} (hw : is1.WF) (hroot : is1.errorsAt [] = []) (h : Items xs ys is1)
    (hi : is1.hasIssues = true) : Ops xs ys is1 := by
  refine ⟨hw, hroot, h.len, h.keys, h.bad, ?_⟩
  intro i x hx hc
  obtain ⟨y, hy, hch, e1, e2, e3⟩ := h.good i x hx hc
  refine ⟨y, hy, e1, hch.method, ?_, ?_, ?_⟩
  · obtain ⟨p, p', a1, a2, a3⟩ := hch.path
    refine ⟨p, p', a1, a2, ?_⟩
    rcases a3 with a3 | ⟨a3, a4, a5⟩
    · exact .inl a3
    · refine .inr ⟨a3, a5, ?_⟩
      rw [ne_eq, e3 p a1]
      rintro (h' | ⟨t, h'⟩)
      · rw [a4] at h'; cases h'
      · exact a5 t h'
  · obtain ⟨d, a1, a2⟩ := hch.data
    exact ⟨d, a1, fun _ _ _ => a2⟩
  · intro t ht
    constructor
    · intro _ hty
      exfalso
      rw [h.typed.mpr hty] at hi
      cases hi
    · intro _
      exact ⟨(e3 _ ht).mpr (.inr ⟨t, rfl⟩), e2⟩

theorem ops_second {xs ys : List Val} (h : Items xs ys {}) : ∃ os j, runProcs [validateRequest, validateSinglePrimary] (.list ys) {} =
    .ok (.list os, j) ∧ Ops xs os j := by
  have hty := h.typed.mp rfl
  have hcont : ∀ (i : Nat) x, xs[i]? = some x → x.isCont = true := fun i x hx => (hty x (List.mem_of_getElem? hx)).object
  have hat : ∀ (i : Nat) y, ys[i]? = some y → ∃ x, xs[i]? = some x ∧ Checked x y ∧
      ∀ p, x.getItem { attr := pathWord } = .ok p → p.isNoneOrMissing = true ∨ ∃ t, p = .str t := by
    intro i y hy
    have hlt : i < xs.length := by
      rw [← h.len]
      exact (List.getElem?_eq_some_iff.mp hy).1
    have hx : xs[i]? = some xs[i] := List.getElem?_eq_getElem hlt
    obtain ⟨y', hy', hch, -, -, e3⟩ := h.good i _ hx (hcont i _ hx)
    rw [hy] at hy'; cases hy'
    exact ⟨_, hx, hch, fun p hp => (e3 p hp).mp rfl⟩
  obtain ⟨os, r, hr, hother, hops⟩ := requestLoop_exact 0 ys {} (by
    intro y hy
    obtain ⟨i, hi⟩ := List.getElem?_of_mem hy
    obtain ⟨x, hx, hch, hp⟩ := hat i y hi
    refine ⟨h.keys y hy, ?_⟩
    obtain ⟨p, p', a1, a2, a3⟩ := hch.path
    refine ⟨p', a2, ?_⟩
    rcases a3 with ⟨rfl, a3⟩ | ⟨-, a4, a5⟩
    · exact a3
    · exfalso
      rcases hp p a1 with h' | ⟨t, h'⟩
      · rw [a4] at h'; cases h'
      · exact a5 t h')
  obtain ⟨hrw, hlen, hroot, -⟩ := requestLoop_spec hr
  have hrw := hrw WF.empty
  have hk : ∀ o ∈ os, Keyed o := by
    intro o ho
    obtain ⟨i, hi⟩ := List.getElem?_of_mem ho
    have hlt : i < ys.length := by
      rw [← hlen]
      exact (List.getElem?_eq_some_iff.mp hi).1
    obtain ⟨o', ho', hc⟩ := hops i _ (List.getElem?_eq_getElem hlt)
    rw [hi] at ho'; cases ho'
    exact hc.keyed
  have hsp : validateSinglePrimary (.list os) = .ok (.list os, {}) := by
    simp only [validateSinglePrimary, no_primaries hk]
    rfl
  refine ⟨os, (Issues.merge {} r).merge {}, ?_, ?_⟩
  · simp only [runProcs, validateRequest, hr, hsp]
  have herr : ∀ l, ((Issues.merge {} r).merge {}).errorsAt l = r.errorsAt l := by
    intro l
    rw [errorsAt_merge WF.empty, errorsAt_merge hrw]
    simp
  refine ⟨(WF.empty.merge hrw _).merge WF.empty _, by rw [herr, hroot]; rfl, by rw [hlen, h.len], hk, ?_, ?_⟩
  · intro i x hx hc
    rw [hcont i x hx] at hc; cases hc
  · intro i x hx hc
    obtain ⟨y, hy, hch, -, -, e3⟩ := h.good i x hx hc
    obtain ⟨o, ho, hoc⟩ := hops i y hy
    rw [Nat.zero_add] at hoc
    obtain ⟨v, v', m1, m2, m3⟩ := hch.method
    obtain ⟨p, p', p1, p2, p3⟩ := hch.path
    obtain ⟨d, d1, d2⟩ := hch.data
    have hpt := (e3 p p1).mp rfl
    have hpp : p' = p := by
      rcases p3 with ⟨e, -⟩ | ⟨-, a4, a5⟩
      · exact e
      · exfalso
        rcases hpt with h' | ⟨t, h'⟩
        · rw [a4] at h'; cases h'
        · exact a5 t h'
    subst hpp
    have hm : ∀ m ∈ bulkMethods, v = .str m → v' = .str m := by
      intro m hm e
      rcases m3 with rfl | ⟨-, h'⟩
      · exact e
      · exact absurd e (h' m hm)
    have hne : ∀ a ∈ bulkMethods, v'.isText a = true → v = .str a := by
      intro a ha h'
      rw [isText_iff] at h'
      rcases m3 with rfl | ⟨e, -⟩
      · exact h'
      · rw [e] at h'; cases h'
    refine ⟨o, ho, ?_, ⟨v, v', m1, by rw [hoc.kept methodWord (by decide)]; exact m2, m3⟩,
      ⟨p', p', p1, by rw [hoc.kept pathWord (by decide)]; exact p2, .inl ⟨rfl, hpt⟩⟩, ⟨d, d1, ?_⟩, ?_⟩
    · rw [herr, hoc.root]; rfl
    · intro w hw hd'
      rw [m1] at hw; cases hw
      have hvd : hasData v' = true := by
        have : ∃ a ∈ bulkMethods, v = .str a := by
          simp only [hasData, Bool.or_eq_true, isText_iff] at hd'
          rcases hd' with (h' | h') | h'
          · exact ⟨_, by decide, h'⟩
          · exact ⟨_, by decide, h'⟩
          · exact ⟨_, by decide, h'⟩
        obtain ⟨a, ha, e⟩ := this
        rw [hm a ha e, ← e]
        exact hd'
      rw [hoc.data v' m2 hvd]
      exact d2
    · intro t ht
      rw [p1] at ht; cases ht
      rw [herr, herr, hoc.path v' _ m2 p2 rfl, hoc.dataErr v' d m2 d2 rfl]
      constructor
      · rintro ⟨⟨-, q1, q2⟩, q3⟩ - m hm' hmb
        rw [m1] at hm'; cases hm'
        have e := hm m hmb rfl
        subst e
        constructor
        · by_cases hpost : m = "POST".toList
          · subst hpost
            obtain ⟨t', e, h'⟩ := q1 (text_iff.mpr rfl)
            cases e
            exact typePath_iff.mp h'
          · have h4 : m ∈ ["GET".toList, "PUT".toList, "PATCH".toList, "DELETE".toList] := by
              simp only [bulkMethods, List.mem_cons, List.not_mem_nil, or_false] at hmb ⊢
              rcases hmb with h' | h' | h' | h' | h'
              · exact .inl h'
              · exact absurd h' hpost
              · exact .inr (.inl h')
              · exact .inr (.inr (.inl h'))
              · exact .inr (.inr (.inr h'))
            obtain ⟨t', e, h'⟩ := q2 (by
              simp only [Bool.or_eq_true, text_iff, getWord, patchWord, putWord, deleteWord]
              simp only [List.mem_cons, List.not_mem_nil, or_false] at h4
              rcases h4 with h' | h' | h' | h'
              · exact .inl (.inl (.inl h'))
              · exact .inl (.inr h')
              · exact .inl (.inl (.inr h'))
              · exact .inr h') (by
              rw [← Bool.not_eq_true, text_iff]
              exact hpost)
            cases e
            exact (objectPath_iff h4).mp h'
        · intro hdm
          exact ⟨d, d1, q3 (hasData_iff.mpr hdm)⟩
      · intro hq
        have hq := hq hty
        refine ⟨⟨rfl, ?_, ?_⟩, ?_⟩
        · intro hpost
          have e := hne _ (by decide) hpost
          obtain ⟨h1, -⟩ := hq _ (by rw [m1, e]) (by decide)
          exact ⟨t, rfl, typePath_iff.mpr h1⟩
        · intro h4 hpost
          have : ∃ a ∈ ["GET".toList, "PUT".toList, "PATCH".toList, "DELETE".toList], v'.isText a = true := by
            simp only [Bool.or_eq_true] at h4
            rcases h4 with ((h' | h') | h') | h'
            · exact ⟨_, by decide, h'⟩
            · exact ⟨_, by decide, h'⟩
            · exact ⟨_, by decide, h'⟩
            · exact ⟨_, by decide, h'⟩
          obtain ⟨a, ha, h'⟩ := this
          have hab : a ∈ bulkMethods := by clear h'; revert ha; revert a; decide
          have e := hne a hab h'
          obtain ⟨h1, -⟩ := hq a (by rw [m1, e]) hab
          exact ⟨t, rfl, (objectPath_iff ha).mpr h1⟩
        · intro hd'
          have : ∃ a ∈ dataMethods, v'.isText a = true := by
            simp only [hasData, Bool.or_eq_true] at hd'
            rcases hd' with (h' | h') | h'
            · exact ⟨_, by decide, h'⟩
            · exact ⟨_, by decide, h'⟩
            · exact ⟨_, by decide, h'⟩
          obtain ⟨a, ha, h'⟩ := this
          have hab : a ∈ bulkMethods := by clear h'; revert ha; revert a; decide
          have e := hne a hab h'
          obtain ⟨d', h1, h2⟩ := (hq a (by rw [m1, e]) hab).2 ha
          rw [d1] at h1; cases h1
          exact h2

/-- The operations of a request are processed without exception. -/
theorem request_ops {xs : List Val} (hx : TameCList xs) :
    ∃ os j, requestOpsB.process .parse (.list xs) = .ok (.list os, j) ∧ Ops xs os j := by
  have hsub : ∀ s ∈ requestSubs, ∀ z : Val, z.TameC → ∃ o, s.process .parse z = .ok o := by
    intro s hs z hz
    rcases request_string hs with rfl | ⟨i, rfl, h1, h2, h3, h4⟩
    · exact ⟨_, data_process _ _⟩
    · refine process_total _ ?_ z hz (by unfold Attr.Handles; rw [h1]; exact ⟨trivial, fun _ _ _ _ => trivial⟩)
      simp only [Attr.Standard, AttrInfo.procs]
      exact .inl h3
  obtain ⟨ys, is1, h1, -⟩ := multi_total (m := .parse) (info := opsInfo requestUrn) (opsInfo_decl _ _) rfl requestSubs_plain hx (by
    intro y hy hc s hs
    obtain ⟨z, hz, hzt⟩ := sub_read (tameCList_iff.mp hx y hy) hc s (requestSubs_plain.plain s hs)
    have e : y.toCont = y := by cases y <;> simp [Val.isCont] at hc; rw [Val.toCont]
    rw [e] at hz
    exact ⟨z, hz, hsub s hs z hzt⟩) (fun s hs => hsub s hs _ (by simp [Val.TameC]))
  rw [requestOpsB_eq]
  have hw1 : is1.WF := process_wf _ (by
    rw [Attr.Sane]
    refine ⟨?_, requestSubs_sane⟩
    intro p hp'
    simp [opsInfo] at hp') h1
  have hit := items_of h1 hw1
  have hsecond : is1 = {} → ∃ os j, runProcs ((Attr.complex (opsInfo requestUrn) requestSubs [validateRequest, validateSinglePrimary]
      [validateSinglePrimary]).cprocs .parse) (.list ys) {} = .ok (.list os, j) ∧ Ops xs os j := by
    rintro rfl
    exact ops_second hit
  rcases complex_join [validateRequest, validateSinglePrimary] [validateSinglePrimary] h1 with hj | ⟨hn, -, hj⟩
  · obtain ⟨ys', is1', h1', -, -, hroot, hcase⟩ := complex_list_split (opsInfo_decl _ _) rfl requestSubs_plain requestSubs_sane ⟨rfl, rfl⟩ hj
    rw [h1] at h1'; cases h1'
    rcases hcase with ⟨-, -, hi⟩ | ⟨he, hrun⟩
    · exact ⟨ys, is1, hj, ops_first hw1 hroot hit hi⟩
    · obtain ⟨os, j, h2, h3⟩ := hsecond he
      rw [hrun] at h2
      cases h2
      exact ⟨_, _, hj, h3⟩
  · have he := eq_empty_of_noIssues hw1 hn
    obtain ⟨os, j, h2, h3⟩ := hsecond he
    refine ⟨os, j, ?_, h3⟩
    rw [hj, he]
    exact h2

end BulkA
end Scim
