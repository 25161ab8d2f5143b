import Verif.Lemmas.SolidProcess
import Verif.Lemmas.Lists
import Verif.Props.ResponseTotality

/-! Helper lemmas for C98: list responses. -/

namespace Scim
open Issues
variable [PyEnv]

omit [PyEnv] in
theorem issues_add_isSome (s : Issues) (e : VErr) (b : Bool) (loc l : Loc) (h : (aget l s.issues).isSome ∨ loc = l) :
    (aget l (s.add e b loc).issues).isSome := by
  unfold add
  simp only [extendAt]
  rw [aget_aset]
  split
  · rfl
  · rcases h with h | h
    · exact h
    · contradiction

omit [PyEnv] in
theorem hasIssues_key {is : Issues} (h : is.hasIssues = true) : ∃ l, l ∈ is.issues.map (·.1) := by
  unfold hasIssues hasIssuesAt at h
  obtain ⟨p, hp, _⟩ := List.any_eq_true.mp h
  exact ⟨p.1, List.mem_map.mpr ⟨p, hp, rfl⟩⟩

omit [PyEnv] in
theorem noKey_below {is : Issues} {l : Loc} (h : is.hasIssues [l] = false) (k : Loc) : ¬ (aget (l ++ k) is.issues).isSome := by
  intro hk
  rw [aget_isSome_iff] at hk
  obtain ⟨p, hp, e⟩ := List.mem_map.mp hk
  unfold hasIssues hasIssuesAt at h
  simp only [List.any_cons, List.any_nil, Bool.or_false] at h
  have := List.any_eq_false.mp h p hp
  rw [e] at this
  simp at this

/-- The issues about an attribute are among those about the whole. -/
theorem process_issue_key {m : Mode} {s : Schema} (hs : s.WF) {data r : Val} {is : Issues}
    (hobj : (data.isCont || data.isDict) = true) (h : s.process m data = .ok (r, is)) {a : Attr} (ha : a ∈ s.attrs.top) {x y : Val}
    {i : Issues} (hx : data.toCont.getItem a.rep = .ok x) (hm : x.isMissing = false) (hp : a.process m x = .ok (y, i)) {l : Loc}
    (hl : l ∈ i.issues.map (·.1)) : (aget (a.topLoc ++ l) is.issues).isSome := by
  obtain ⟨_, _, is1, h1, sv, _, h2⟩ := process_spec hs hobj h
  have hk : (aget (a.topLoc ++ l) is1.issues).isSome := by
    rw [h1, issues_merge_isSome]
    refine .inr ⟨_, aget_isSome_iff.mp (mergeAll_isSome (.inr ⟨(a.topLoc, i), ?_, l, hl, rfl⟩)), rfl⟩
    exact List.mem_map.mpr ⟨(_, y, i), List.mem_filterMap.mpr ⟨_, ha, topOut_of hx hm hp⟩, rfl⟩
  rcases h2 with ⟨-, xs, is2, -, -, rfl⟩ | ⟨-, rfl⟩
  · rw [issues_merge_isSome]; exact .inl hk
  · exact hk

/-- A schema reads a dictionary as it reads the container made of it. -/
theorem process_toCont (m : Mode) (s : Schema) (kvs : List (Str × Val)) :
    s.process m (Val.dict kvs).toCont = s.process m (.dict kvs) := by
  have h1 : (Val.dict kvs).toCont.isNone = false := by rw [Val.toCont]; rfl
  have h2 : ((Val.dict kvs).toCont.isCont || (Val.dict kvs).toCont.isDict) = true := by rw [Val.toCont]; rfl
  have h3 : (Val.dict kvs).toCont.toCont = (Val.dict kvs).toCont := by rw [Val.toCont, Val.toCont]
  have h4 : ((Val.dict kvs).isCont || (Val.dict kvs).isDict) = true := rfl
  have h5 : (Val.dict kvs).isNone = false := rfl
  unfold Schema.process
  rw [h1, h2, h3, h4, h5]

theorem dump_toCont (s : Schema) (kvs : List (Str × Val)) : s.dump (Val.dict kvs).toCont = s.dump (.dict kvs) := by
  unfold Schema.dump
  rw [process_toCont]

theorem convItems_map : ∀ (xs : List Val), convItems xs = xs.map asItem
  | [] => by rw [convItems]; rfl
  | x :: xs => by
    cases x with
    | dict kvs => simp only [convItems, List.map_cons, asItem, Val.toCont, convItems_map xs]
    | _ => simp only [convItems, List.map_cons, asItem, convItems_map xs]

theorem dump_asItem (s : Schema) (v : Val) : s.dump (asItem v) = s.dump v := by
  cases v <;> first | rfl | exact dump_toCont s _

namespace ListA

theorem standard : StandardAll .dump schema.attrs.top := by
  rw [standardAll_iff]
  intro a ha
  obtain ⟨d, hd, rfl⟩ := mkSchema_top (by
    intro d hd
    simp only [List.mem_cons, List.not_mem_nil, or_false] at hd
    rcases hd with rfl | rfl | rfl | rfl <;> rfl) ha
  apply bind_standard
  simp only [List.mem_cons, List.not_mem_nil, or_false] at hd
  rcases hd with rfl | rfl | rfl | rfl | rfl <;> exact .inl rfl

theorem owned : schema.Owned := by
  apply owned_of wf
  have hall : schema.attrs.all = (schemasAttr :: [totalA, startA, itemsA, resourcesA]).flatMap (bindWithSubs urn false) := by
    obtain ⟨_, h2⟩ := bind_facts (urn := urn) (ext := false) (declarations_of names_eq (by decide +kernel))
    exact ofList_all (keys_of_lnames h2)
  rw [hall]
  exact owned_bind (named_of names_eq (by decide +kernel))

theorem simple_top {a : Attr} (ha : a ∈ schema.attrs.top) : a.isComplex = false ∧ a.rep.ext = false := by
  obtain ⟨d, hd, rfl⟩ := mkSchema_top (by
    intro d hd
    simp only [List.mem_cons, List.not_mem_nil, or_false] at hd
    rcases hd with rfl | rfl | rfl | rfl <;> rfl) ha
  refine ⟨?_, by rw [bindAttr_rep]⟩
  simp only [List.mem_cons, List.not_mem_nil, or_false] at hd
  rcases hd with rfl | rfl | rfl | rfl | rfl <;> rfl

theorem fine_of_view {d lc} (h : CoreView schema d lc) : IsFine schema (.cont d lc) := by
  refine ⟨d, lc, rfl, ⟨h.toCInv, h.noUrn wf, ?_⟩, ?_, ?_, ?_⟩
  · intro a ha he; rw [(simple_top ha).2] at he; cases he
  · intro a ha he; rw [(simple_top ha).2] at he; cases he
  · intro t ht hc
    rw [(simple_top (List.mem_filter.mp ht).1).1] at hc
    cases hc
  · intro u hu
    cases hu

/-- An integer attribute of the list response: absent, null, an integer, or reported. -/
theorem integer_value {i : AttrInfo} (ht : i.type = .integer) (hmu : i.multi = false) (hp : i.procs .dump = [])
    (hc : i.canonical = none) {x v : Val} {is : Issues} (h : (Attr.simple i).process .dump x = .ok (v, is)) :
    v = .null ∨ (∃ t, v.IsInt t) ∨ [] ∈ is.issues.map (·.1) := by
  rw [Attr.process, info_process_eq] at h
  split at h
  · rename_i hx
    cases h
    left
    cases x <;> simp [Val.isNone] at hx
    rename_i p
    cases p <;> simp [Val.isNone] at hx; rfl
  · simp only [AttrInfo.base, hmu, Bool.false_eq_true, if_false, AttrInfo.processOne, hp] at h
    right
    cases hcv : i.type.conv .dump x with
    | error e => rw [hcv] at h; cases h
    | ok o =>
      obtain ⟨z, j⟩ := o
      have hcan : i.isCanonical z = true := by
        unfold AttrInfo.isCanonical; rw [hc]; cases z <;> rfl
      rw [hcv] at h
      simp only [hcan, Bool.not_true, Bool.false_and, Bool.false_eq_true, if_false, runProcs, ite_self] at h
      have hcv' : integerConv x = .ok (z, j) := by rw [ht] at hcv; exact hcv
      have hbad : ∀ v is, Except.ok (z, Issues.empty.merge j []) = (.ok (v, is) : PyM (Val × Issues)) → (z, j) = badType →
          [] ∈ is.issues.map (·.1) := by
        intro v is h e
        cases e; cases h
        exact List.mem_cons_self
      unfold integerConv at hcv'
      split at hcv'
      · split at hcv'
        · cases hcv'
        · split at hcv'
          · cases hcv'; cases h; exact .inl ⟨_, .int _⟩
          · exact .inr (hbad _ _ h (Except.ok.inj hcv').symm)
      · cases hcv'; cases h; exact .inl ⟨_, .int _⟩
      · cases hcv'; cases h; exact .inl ⟨_, .bool _⟩
      · exact .inr (hbad _ _ h (Except.ok.inj hcv').symm)

/-- Where a value stands: absent, null, an integer, or reported. -/
def NumberOk (r : Val) (is : Issues) (w : Str) : Prop :=
  ∃ v, r.getItem (rep w) = .ok v ∧ (v = .missing ∨ v = .null ∨ (∃ t, v.IsInt t) ∨ (aget [.name w] is.issues).isSome)

theorem number_ok {kvs : List (Str × Val)} {r : Val} {is : Issues} (h : schema.process .dump (.dict kvs) = .ok (r, is)) {a : Attr}
    (ha : a ∈ schema.attrs.top) {i : AttrInfo} (hi : a = .simple i) (ht : i.type = .integer) (hmu : i.multi = false)
    (hp : i.procs .dump = []) (hc : i.canonical = none) {w : Str} (hr : a.rep = rep w) : NumberOk r is w := by
  obtain ⟨htr, -, -⟩ := process_spec wf (by rfl) h
  obtain ⟨x, hx⟩ := htr.read a ha
  by_cases hxm : x.isMissing = true
  · have : x = .missing := by cases x <;> simp [Val.isMissing] at hxm; rfl
    subst this
    have := htr.absent a ha (simple_top ha).2 hx
    rw [hr] at this
    exact ⟨_, this, .inl rfl⟩
  · have hxm : x.isMissing = false := by simpa using hxm
    obtain ⟨y, j, hpr, hy⟩ := htr.present a ha x hx hxm
    rw [hr] at hy
    refine ⟨y, hy, .inr ?_⟩
    rw [hi] at hpr
    rcases integer_value ht hmu hp hc hpr with h' | h' | h'
    · exact .inl h'
    · exact .inr (.inl h')
    · rw [← hi] at hpr
      have := process_issue_key wf (by rfl) h ha hx hxm hpr h'
      have ht : a.topLoc = [.name w] := by unfold Attr.topLoc; rw [hr]; rfl
      rw [ht] at this
      exact .inr (.inr this)

theorem NumberOk.mono {r : Val} {is is' : Issues} {w : Str} (h : NumberOk r is w)
    (hm : ∀ l, (aget l is.issues).isSome → (aget l is'.issues).isSome) : NumberOk r is' w := by
  obtain ⟨v, h1, h2⟩ := h
  refine ⟨v, h1, ?_⟩
  rcases h2 with h | h | h | h
  · exact .inl h
  · exact .inr (.inl h)
  · exact .inr (.inr (.inl h))
  · exact .inr (.inr (.inr (hm _ h)))

/-- `Resources` is taken as it is. -/
theorem resources_value {kvs : List (Str × Val)} {r : Val} {is : Issues} (h : schema.process .dump (.dict kvs) = .ok (r, is)) :
    r.getItem (rep resourcesWord) = (Val.dict kvs).toCont.getItem (rep resourcesWord) := by
  obtain ⟨htr, -, -⟩ := process_spec wf (by rfl) h
  obtain ⟨x, hx⟩ := htr.read _ resources_mem
  by_cases hxm : x.isMissing = true
  · have : x = .missing := by cases x <;> simp [Val.isMissing] at hxm; rfl
    subst this
    have := htr.absent _ resources_mem (simple_top resources_mem).2 hx
    rw [resources_rep] at this hx
    rw [this, hx]
  · have hxm : x.isMissing = false := by simpa using hxm
    obtain ⟨y, j, hpr, hy⟩ := htr.present _ resources_mem x hx hxm
    rw [resources_rep] at hy hx
    rw [hy, hx]
    have : y = x := by
      obtain ⟨i, hi, ht, hmu, hc, hp⟩ : ∃ i, resources = .simple i ∧ i.type = .unknown ∧ i.multi = false ∧ i.canonical = none ∧
          i.procs .dump = [] := ⟨_, rfl, rfl, rfl, rfl, rfl⟩
      rw [hi, Attr.process, info_process_eq] at hpr
      split at hpr
      · cases hpr; rfl
      · have hcan : ∀ z, i.isCanonical z = true := by
          intro z; unfold AttrInfo.isCanonical; rw [hc]; cases z <;> rfl
        simp only [AttrInfo.base, hmu, Bool.false_eq_true, if_false, AttrInfo.processOne, hp, ht, AttrType.conv, AttrType.dump,
          AttrType.parse, hcan, Bool.not_true, Bool.false_and, runProcs, ite_self] at hpr
        cases hpr; rfl
    rw [this]

/-- The items of a list read as `Resources` come from a list of the body. -/
theorem resources_items {schemas : List Schema} {kvs : List (Str × Val)} (hb : ListBody schemas kvs) {ys : List Val}
    (h : (Val.dict kvs).toCont.getItem (rep resourcesWord) = .ok (.list ys)) :
    ∃ k xs, (k, Val.list xs) ∈ kvs ∧ lower k = lower resourcesWord ∧ ys = xs.map asItem := by
  rw [Val.toCont, getItem_noKey (r := rep resourcesWord) (aget_lcOf_none (fun k hk => hb.noUrn k hk))] at h
  split at h
  · cases h
  · rename_i k hk
    obtain ⟨h1, h2⟩ := lcOf_sound _ _ _ hk
    rw [aget_convPairs] at h
    cases hv : aget k kvs with
    | none => rw [hv] at h; cases h
    | some v =>
      rw [hv] at h
      have h : convVal v = .list ys := by
        have h' : (Except.ok (convVal v) : PyM Val) = .ok (.list ys) := h
        exact Except.ok.inj h'
      obtain ⟨xs, rfl⟩ : ∃ xs, v = .list xs := by
        cases v <;> simp only [convVal, reduceCtorEq] at h
        exact ⟨_, rfl⟩
      simp only [convVal] at h
      have hm := mem_of_aget hv
      refine ⟨k, xs, hm, h1.symm, ?_⟩
      cases h
      exact convItems_map xs

theorem dumpLoop_total {schemas : List Schema} (hall : ∀ s ∈ schemas, s.Listable) : ∀ (i : Nat) (xs : List Val)
    (ids : List (Option Nat)) (is : Issues), ids.length = xs.length → (∀ x ∈ xs, ∀ s ∈ schemas, JsonBody s x) →
    ∃ ys is', dumpLoop schemas i (xs.map asItem) ids is = .ok (ys, is') ∧ ys.length = xs.length ∧ SolidList ys ∧
      (∀ l, (aget l is.issues).isSome → (aget l is'.issues).isSome) ∧
      ∀ k x t, xs[k]? = some x → ids[k]? = some t →
        (∃ l, (aget ([.name resourcesWord, .idx (i + k)] ++ l) is'.issues).isSome) ∨
        ∃ n s y is0, t = some n ∧ schemas[n]? = some s ∧ s.dump x = .ok (y, is0) ∧ ys[k]? = some y ∧ x.isDict = true ∧ IsFine s y ∧ is0.hasIssues = false
  | _, [], ids, is, hl, _ => by
    refine ⟨[], is, ?_, rfl, by simp only [SolidList], fun _ h => h, fun k x t h => by simp at h⟩
    simp only [List.map_nil, dumpLoop]
  | i, x :: xs, [], is, hl, _ => by simp at hl
  | i, x :: xs, t :: ids, is, hl, hj => by
    have hl' : ids.length = xs.length := by simpa using hl
    have hj' : ∀ x ∈ xs, ∀ s ∈ schemas, JsonBody s x := fun y hy => hj y (List.mem_cons_of_mem _ hy)
    rw [List.map_cons, dumpLoop]
    have shift : ∀ (ys : List Val) (is' : Issues) (y : Val), (∀ k x t, xs[k]? = some x → ids[k]? = some t →
        (∃ l, (aget ([.name resourcesWord, .idx (i + 1 + k)] ++ l) is'.issues).isSome) ∨
        ∃ n s y is0, t = some n ∧ schemas[n]? = some s ∧ s.dump x = .ok (y, is0) ∧ ys[k]? = some y ∧ x.isDict = true ∧ IsFine s y ∧ is0.hasIssues = false) →
        ((∃ l, (aget ([.name resourcesWord, .idx i] ++ l) is'.issues).isSome) ∨
          ∃ n s is0, t = some n ∧ schemas[n]? = some s ∧ s.dump x = .ok (y, is0) ∧ x.isDict = true ∧ IsFine s y ∧ is0.hasIssues = false) →
        ∀ k x' t', (x :: xs)[k]? = some x' → (t :: ids)[k]? = some t' →
        (∃ l, (aget ([.name resourcesWord, .idx (i + k)] ++ l) is'.issues).isSome) ∨
        ∃ n s y' is0, t' = some n ∧ schemas[n]? = some s ∧ s.dump x' = .ok (y', is0) ∧ (y :: ys)[k]? = some y' ∧ x'.isDict = true ∧ IsFine s y' ∧ is0.hasIssues = false := by
      intro ys is' y h1 h2 k x' t' hx ht
      cases k with
      | zero =>
        simp only [List.getElem?_cons_zero, Option.some.injEq] at hx ht
        subst hx; subst ht
        rcases h2 with h | ⟨n, s, is0, h1, h2, h3, h4, h5⟩
        · exact .inl h
        · exact .inr ⟨n, s, y, is0, h1, h2, h3, rfl, h4, h5⟩
      | succ k =>
        simp only [List.getElem?_cons_succ] at hx ht ⊢
        have := h1 k x' t' hx ht
        rwa [show i + 1 + k = i + (k + 1) by omega] at this
    split
    · obtain ⟨ys, is', h1, h2, h3, h4, h5⟩ := dumpLoop_total hall (i + 1) xs ids
        (is.add ⟨27, []⟩ false [.name resourcesWord, .idx i]) hl' hj'
      rw [h1]
      refine ⟨_, _, rfl, by simp [h2], by simp only [SolidList]; exact ⟨by simp only [Val.Solid], h3⟩,
        fun l h => h4 l (issues_add_isSome _ _ _ _ _ (.inl h)), ?_⟩
      exact shift _ _ _ h5 (.inl ⟨[], h4 _ (issues_add_isSome _ _ _ _ _ (.inr rfl))⟩)
    · rename_i s hs
      obtain ⟨n, rfl, hn⟩ : ∃ n, t = some n ∧ schemas[n]? = some s := by
        cases t with
        | none => simp at hs
        | some n => exact ⟨n, rfl, by simpa using hs⟩
      have hmem := List.mem_of_getElem? hn
      have hsu := hall s hmem
      obtain ⟨y, is0, hd, hf, hblk⟩ := C97_dump s hsu.wf hsu.noShadow hsu.owned hsu.standard hsu.metas x (hj x (by simp) s hmem)
      rw [dump_asItem, hd]
      dsimp only
      obtain ⟨ys, is', h1, h2, h3, h4, h5⟩ := dumpLoop_total hall (i + 1) xs ids
        (is.merge is0 [.name resourcesWord, .idx i]) hl' hj'
      rw [h1]
      refine ⟨_, _, rfl, by simp [h2], by simp only [SolidList]; exact ⟨schema_dump_solid hsu.wf hsu.standard hsu.typed hd, h3⟩,
        fun l h => h4 l ((issues_merge_isSome _ _ _ _).2 (.inl h)), ?_⟩
      apply shift _ _ _ h5
      by_cases hx : x.isDict = true
      · cases hi0 : is0.hasIssues with
        | false => exact .inr ⟨n, s, is0, rfl, hn, hd, hx, hf hx, hi0⟩
        | true =>
          rw [hasIssues_true_iff] at hi0
          obtain ⟨e, rest, he⟩ := List.exists_cons_of_ne_nil hi0
          refine .inl ⟨e.1, h4 _ ?_⟩
          rw [issues_merge_isSome]
          exact .inr ⟨e.1, by rw [he]; simp [aget], rfl⟩
      · obtain ⟨c, rfl⟩ := hblk (by simpa using hx)
        refine .inl ⟨[], h4 _ ?_⟩
        rw [issues_merge_isSome]
        exact .inr ⟨[], by simp [blocking, Issues.add, extendAt, aset], rfl⟩

/-- The schema a JSON value is taken for. -/
theorem infer_total {schemas : List Schema} (hne : schemas ≠ []) {x : Val} (hj : ∀ s ∈ schemas, JsonBody s x)
    (hk : ∀ rk, x = .dict rk → ∀ key ∈ rk.map (·.1), lower key ≠ lower urn ∧ ∀ s ∈ schemas, lower key ≠ lower s.urn) :
    ∃ t, infer schemas (asItem x) = .ok t ∧ (t.isSome → ∃ rk strs, x = .dict rk ∧ strs ≠ [] ∧ t = firstCover (strs.map Val.str) schemas ∧
      ∀ s ∈ schemas, (Val.dict rk).toCont.getItem { schema := s.urn, attr := "schemas".toList } = .ok (.list (strs.map Val.str))) := by
  by_cases hd : x.isDict = true
  · obtain ⟨rk, rfl⟩ : ∃ kvs, x = .dict kvs := by cases x <;> simp [Val.isDict] at hd; exact ⟨_, rfl⟩
    have hk := hk rk rfl
    have hread : ∀ s ∈ schemas, (Val.dict rk).toCont.getItem { schema := s.urn, attr := "schemas".toList } =
        (Val.dict rk).toCont.getItem (rep "schemas".toList) := by
      intro s hs
      rw [Val.toCont, getItem_noKey (r := rep "schemas".toList) (aget_lcOf_none (fun k h => (hk k h).1)),
        getItem_noKey (r := { schema := s.urn, attr := "schemas".toList }) (aget_lcOf_none (fun k h => (hk k h).2 s hs))]
      rfl
    obtain ⟨s0, hs0⟩ : ∃ s0, s0 ∈ schemas := by
      cases schemas with
      | nil => exact absurd rfl hne
      | cons s _ => exact ⟨s, by simp⟩
    have hok : ∃ v, (Val.dict rk).toCont.getItem (rep "schemas".toList) = .ok v ∧ SchemasOk v := by
      have hg : ∃ v, (Val.dict rk).toCont.getItem (rep "schemas".toList) = .ok v := by
        rw [Val.toCont, getItem_noKey (r := rep "schemas".toList) (aget_lcOf_none (fun k h => (hk k h).1))]
        split
        · exact ⟨_, rfl⟩
        · rename_i k hk'
          obtain ⟨h1, h2⟩ := lcOf_sound _ _ _ hk'
          rw [aget_convPairs]
          rw [← aget_isSome_iff, Option.isSome_iff_exists] at h2
          obtain ⟨v, hv⟩ := h2
          rw [hv]
          exact ⟨_, rfl⟩
      obtain ⟨v, hv⟩ := hg
      exact ⟨v, hv, ((hj s0 hs0).2 rk rfl).schemas v (by rw [hread s0 hs0, hv])⟩
    obtain ⟨v, hv, hsok⟩ := hok
    have hc : (asItem (.dict rk)).isCont = true := by simp only [asItem, Val.toCont]; rfl
    unfold infer
    rw [hc]
    simp only [Bool.not_true, Bool.false_eq_true, if_false]
    rw [show asItem (.dict rk) = (Val.dict rk).toCont from rfl, hv]
    by_cases hl : ∃ xs, v = .list xs
    · obtain ⟨xs, rfl⟩ := hl
      obtain ⟨strs, rfl⟩ := hsok xs rfl
      cases strs with
      | nil => exact ⟨none, rfl, fun h => by cases h⟩
      | cons z zs =>
        have hh : ((z :: zs).map Val.str).all hashable = true := by
          rw [List.all_eq_true]
          intro v hv
          obtain ⟨s, _, rfl⟩ := List.mem_map.mp hv
          rfl
        refine ⟨firstCover ((z :: zs).map Val.str) schemas, ?_, fun _ => ⟨rk, z :: zs, rfl, by simp, rfl, ?_⟩⟩
        · simp only [List.map_cons] at hh ⊢
          rw [if_pos hh]
        · intro s hs
          rw [hread s hs, hv]
    · refine ⟨none, ?_, fun h => by cases h⟩
      cases v <;> first | rfl | exact absurd ⟨_, rfl⟩ hl
  · refine ⟨none, ?_, fun h => by cases h⟩
    have hc : (asItem x).isCont = false := by
      have := (fun (s : Schema) (hs : s ∈ schemas) => (hj s hs).1)
      obtain ⟨s0, hs0⟩ : ∃ s0, s0 ∈ schemas := by
        cases schemas with
        | nil => exact absurd rfl hne
        | cons s _ => exact ⟨s, by simp⟩
      have ht := this s0 hs0
      cases x <;> simp_all [asItem, Val.isCont, Val.Tame, Val.isDict]
    unfold infer
    rw [hc]
    rfl

/-- A resource written without issues is taken for the same schema again. -/
theorem infer_again {schemas : List Schema} {s : Schema} (hs : s.Listable) (hmem : s ∈ schemas) {rk : List (Str × Val)} {strs : List Str} (hne : strs ≠ [])
    (hr : ∀ s ∈ schemas, (Val.dict rk).toCont.getItem { schema := s.urn, attr := "schemas".toList } = .ok (.list (strs.map Val.str)))
    {y : Val} {is : Issues} (hd : s.dump (.dict rk) = .ok (y, is)) :
    infer schemas y = .ok (firstCover (strs.map Val.str) schemas) := by
  obtain ⟨is1, is2, hp, -, -⟩ := dump_split hd
  obtain ⟨d, lc, rfl, hv⟩ := process_view hs.wf (by rfl) hp
  obtain ⟨htr, -, -⟩ := process_spec hs.wf (by rfl) hp
  have hrep : (bindAttr schemasAttr { schema := s.urn, attr := "schemas".toList }).rep =
      { schema := s.urn, attr := "schemas".toList } := bindAttr_rep _ _
  obtain ⟨w, i, hw, hg⟩ := htr.present _ hs.wf.schemas_mem (.list (strs.map Val.str)) (by rw [hrep]; exact hr s hmem) rfl
  rw [schemas_process] at hw
  cases hw
  rw [hrep] at hg
  have hnl : aget (lower urn) lc = none := by
    apply hv.lc_none
    intro k hk e
    rcases hv.declared k hk with ⟨b, hb, h1, rfl⟩ | ⟨b, hb, h1, rfl⟩
    · exact hs.apartNames b hb e
    · exact hs.apartUrns _ (List.mem_cons_of_mem _ (hs.wf.ext b hb h1)) e
  have hg' : (Val.cont d lc).getItem (rep "schemas".toList) = .ok (.list (strs.map Val.str)) := by
    rw [← hg, getItem_noKey (r := rep "schemas".toList) hnl,
      getItem_noKey (r := { schema := s.urn, attr := "schemas".toList }) (hv.noUrn hs.wf)]
    rfl
  unfold infer
  rw [hg']
  cases strs with
  | nil => exact absurd rfl hne
  | cons z zs =>
    have hh : ((z :: zs).map Val.str).all hashable = true := by
      rw [List.all_eq_true]
      intro v hv
      obtain ⟨s, _, rfl⟩ := List.mem_map.mp hv
      rfl
    simp only [List.map_cons] at hh ⊢
    simp only [Val.isCont, Bool.not_true, Bool.false_eq_true, if_false, hh, if_true]

end ListA
end Scim
