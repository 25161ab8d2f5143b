import Verif.Spec.ListDoc
import Verif.Props.ListTotality
import Verif.Props.Sendable

/-! Helper lemmas for C115: the bodies of list responses. -/

namespace Scim
open Issues V Valid Declared
variable [PyEnv]

namespace ListA

theorem all_eq : schema.attrs.all = (schemasAttr :: [totalA, startA, itemsA, resourcesA]).flatMap (bindWithSubs urn false) := by
  obtain ⟨_, h2⟩ := bind_facts (urn := urn) (ext := false) (declarations_of names_eq (by decide +kernel))
  exact ofList_all (keys_of_lnames h2)

/-- The attributes of a list response. -/
theorem of_all {a : Attr} : a ∈ schema.attrs.all ↔
    ∃ d ∈ [schemasAttr, totalA, startA, itemsA, resourcesA], a = bindAttr d { schema := urn, attr := d.rep.attr } := by
  rw [all_eq, List.mem_flatMap]
  constructor
  · rintro ⟨d, hd, hm⟩
    refine ⟨d, hd, ?_⟩
    rcases mem_bindWithSubs.mp hm with h | ⟨b, hb, -⟩
    · exact h
    · simp only [List.mem_cons, List.not_mem_nil, or_false] at hd
      rcases hd with rfl | rfl | rfl | rfl | rfl <;> cases hb
  · rintro ⟨d, hd, rfl⟩
    exact ⟨d, hd, mem_bindWithSubs.mpr (.inl rfl)⟩

theorem of_top {a : Attr} : a ∈ schema.attrs.top ↔ a ∈ schema.attrs.all := by
  constructor
  · exact wf.top_all a
  · intro ha
    rw [wf.topAll]
    refine List.mem_filter.mpr ⟨ha, ?_⟩
    obtain ⟨d, -, rfl⟩ := of_all.mp ha
    rw [bindAttr_rep]
    rfl

theorem usual : UsualAll .dump schema.attrs.top := by
  rw [usualAll_iff]
  intro a ha
  obtain ⟨d, hd, rfl⟩ := of_all.mp (of_top.mp ha)
  simp only [List.mem_cons, List.not_mem_nil, or_false] at hd
  rcases hd with rfl | rfl | rfl | rfl | rfl <;>
    exact ⟨rfl, nofun, .inl rfl, nofun⟩

theorem uses {D : List (Str × Val)} {u : Str} : ¬ Uses schema D u := by
  rintro ⟨a, ha, he, -⟩
  rw [(simple_top ha).2] at he
  cases he

/-- An integer attribute accepts whole numbers. -/
theorem integer_valid {d : Attr} (hd : d ∈ [totalA, startA, itemsA]) {r : AttrRep} {x : Val} :
    ValidFor .dump (bindAttr d r) x ↔ x = .null ∨ ∃ i, Whole x i := by
  have key : (x = .null ∨ TypeOk .dump .integer x) ↔ x = .null ∨ ∃ i, Whole x i := by
    unfold TypeOk
    constructor
    · rintro (h | ⟨f, rfl, hf⟩ | ⟨i, rfl⟩ | ⟨b, rfl⟩)
      · exact .inl h
      · cases f with
        | fin q => exact .inr ⟨_, .flt q (by simpa [PyFloat.isIntegral] using hf)⟩
        | _ => cases hf
      · exact .inr ⟨_, .int i⟩
      · exact .inr ⟨_, .bool b⟩
    · rintro (h | ⟨i, h⟩)
      · exact .inl h
      · cases h with
        | int => exact .inr (.inr (.inl ⟨_, rfl⟩))
        | bool b => exact .inr (.inr (.inr ⟨b, rfl⟩))
        | flt q hq => exact .inr (.inl ⟨_, rfl, by simpa [PyFloat.isIntegral] using hq⟩)
  rw [← key]
  simp only [List.mem_cons, List.not_mem_nil, or_false] at hd
  rcases hd with rfl | rfl | rfl <;>
  · simp only [totalA, startA, itemsA, mkAttr, bindAttr, ValidFor, OneOk, Bool.false_eq_true, if_false]
    constructor
    · rintro (h | ⟨⟨h, -⟩, -⟩)
      · exact .inl h
      · exact .inr h
    · rintro (h | h)
      · exact .inl h
      · exact .inr ⟨⟨h, nofun⟩, nofun⟩

theorem unknown_valid {r : AttrRep} {x : Val} : ValidFor .dump (bindAttr resourcesA r) x := by
  simp only [resourcesA, mkAttr, bindAttr, ValidFor, OneOk, Bool.false_eq_true, if_false]
  exact .inr ⟨⟨trivial, nofun⟩, nofun⟩

/-- A document accepted as a list response, its resources apart. -/
theorem valid_iff {D : List (Str × Val)} : ValidDoc .dump schema D ↔
    (∀ x, listHolds D "schemas" = some x → x = .null ∨ ∃ strs : List Str, x = .list (strs.map Val.str) ∧ ∀ t ∈ strs, lower t = lower urn) ∧
    (∀ n ∈ ["totalResults", "startIndex", "itemsPerPage"], ∀ x, listHolds D n = some x → x = .null ∨ ∃ i, Whole x i) := by
  have hsch : schema.schemas = [urn] := rfl
  unfold ValidDoc
  rw [validIn_iff]
  constructor
  · rintro ⟨hv, hl⟩
    have hm := fun d (hd : d ∈ [schemasAttr, totalA, startA, itemsA, resourcesA]) =>
      hv _ (of_top.mpr (of_all.mpr ⟨d, hd, rfl⟩))
    refine ⟨fun x hx => ?_, fun n hn x hx => ?_⟩
    · have h1 := hm schemasAttr (by simp) x (by rw [bindAttr_rep]; exact hx)
      rw [schemas_valid] at h1
      rcases h1 with rfl | ⟨strs, rfl⟩
      · exact .inl rfl
      · refine .inr ⟨strs, rfl, fun t ht => ?_⟩
        obtain ⟨h2, -, -⟩ := hl strs (List.ne_nil_of_mem ht) hx
        rw [hsch] at h2
        obtain ⟨u, hu, e⟩ := h2 t ht
        rw [List.mem_singleton.mp hu] at e
        exact e
    · simp only [List.mem_cons, List.not_mem_nil, or_false] at hn
      rcases hn with rfl | rfl | rfl
      · exact (integer_valid (by simp)).mp (hm totalA (by simp) x (by rw [bindAttr_rep]; exact hx))
      · exact (integer_valid (by simp)).mp (hm startA (by simp) x (by rw [bindAttr_rep]; exact hx))
      · exact (integer_valid (by simp)).mp (hm itemsA (by simp) x (by rw [bindAttr_rep]; exact hx))
  · rintro ⟨h1, h2⟩
    refine ⟨fun a ha x hx => ?_, fun strs hne hs => ?_⟩
    · obtain ⟨d, hd, rfl⟩ := of_all.mp (of_top.mp ha)
      rw [bindAttr_rep] at hx
      simp only [List.mem_cons, List.not_mem_nil, or_false] at hd
      rcases hd with rfl | rfl | rfl | rfl | rfl
      · rw [schemas_valid]
        rcases h1 x hx with h | ⟨strs, h, -⟩
        · exact .inl h
        · exact .inr ⟨strs, h⟩
      · exact (integer_valid (by simp)).mpr (h2 "totalResults" (by simp) x hx)
      · exact (integer_valid (by simp)).mpr (h2 "startIndex" (by simp) x hx)
      · exact (integer_valid (by simp)).mpr (h2 "itemsPerPage" (by simp) x hx)
      · exact unknown_valid
    · rw [hsch]
      rcases h1 _ hs with h | ⟨strs', e, hall⟩
      · cases h
      · have e : strs = strs' := by
          have := Val.list.inj e
          exact List.map_inj_right (fun x y e => by simpa [Val.str] using e) |>.mp this
        subst e
        refine ⟨fun t ht => ⟨_, List.mem_singleton.mpr rfl, hall t ht⟩, ?_, fun u hu => absurd hu uses⟩
        obtain ⟨t, ht⟩ := List.exists_mem_of_ne_nil _ hne
        exact ⟨t, ht, hall t ht⟩

/-- What is written for a number of the document. -/
inductive Said : Option Val → Val → Prop
  | absent : Said none .missing
  | null : Said (some .null) .null
  | number {x v : Val} {i : Int} : Whole x i → v.IsInt i → Said (some x) v

theorem integer_process {i : AttrInfo} (ht : i.type = .integer) (hmu : i.multi = false) (hp : i.procs .dump = [])
    (hc : i.canonical = none) {x : Val} {t : Int} (hx : Whole x t) :
    ∃ v, (Attr.simple i).process .dump x = .ok (v, {}) ∧ v.IsInt t := by
  have hn : x.isNone = false := by cases hx <;> rfl
  obtain ⟨v, hv, hi⟩ : ∃ v, integerConv x = .ok (v, {}) ∧ v.IsInt t := by
    cases hx with
    | int => exact ⟨_, rfl, .int _⟩
    | bool b => exact ⟨_, rfl, .bool b⟩
    | flt q hq =>
      refine ⟨.int q.num, ?_, .int _⟩
      simp [integerConv, intOfFloat, PyFloat.isIntegral, hq]
  have hcv : i.type.conv .dump x = .ok (v, {}) := by rw [ht]; exact hv
  have hcan : i.isCanonical v = true := by
    unfold AttrInfo.isCanonical; rw [hc]; cases v <;> rfl
  refine ⟨v, ?_, hi⟩
  rw [Attr.process, info_process_eq, hn]
  simp only [AttrInfo.base, hmu, Bool.false_eq_true, if_false, AttrInfo.processOne, hp, hcv, hcan, Bool.not_true, Bool.false_and,
    runProcs, ite_self]
  rfl

theorem number_read {D : List (Str × Val)} (hD : Ordinary schema D) {r : Val} {is : Issues}
    (h : schema.process .dump (.dict D) = .ok (r, is)) {d : Attr} (hd : d ∈ [totalA, startA, itemsA])
    (hv : ∀ x, look (rep d.rep.attr) D = some x → x = .null ∨ ∃ i, Whole x i) :
    ∃ v, r.getItem (rep d.rep.attr) = .ok v ∧ Said (look (rep d.rep.attr) D) v := by
  have hmem : bindAttr d (rep d.rep.attr) ∈ schema.attrs.top := by
    refine of_top.mpr (of_all.mpr ⟨d, ?_, rfl⟩)
    simp only [List.mem_cons, List.not_mem_nil, or_false] at hd ⊢
    rcases hd with rfl | rfl | rfl <;> simp
  have hr : (bindAttr d (rep d.rep.attr)).rep = rep d.rep.attr := bindAttr_rep _ _
  obtain ⟨htr, -, -⟩ := process_spec wf (by rfl) h
  have hread := getItem_look (r := rep d.rep.attr) (clear_of_ordinary hD (.head _)) rfl
  cases hl : look (rep d.rep.attr) D with
  | none =>
    rw [hl] at hread
    have := htr.absent _ hmem (simple_top hmem).2 (by rw [hr]; exact hread)
    rw [hr] at this
    exact ⟨_, this, .absent⟩
  | some x =>
    rw [hl] at hread
    dsimp only at hread
    have hx := hv x hl
    have hcx : convVal x = x := by
      rcases hx with rfl | ⟨i, hw⟩
      · rfl
      · cases hw <;> rfl
    rw [hcx] at hread
    have hm : x.isMissing = false := by
      rcases hx with rfl | ⟨i, hw⟩
      · rfl
      · cases hw <;> rfl
    obtain ⟨y, j, hpr, hy⟩ := htr.present _ hmem x (by rw [hr]; exact hread) hm
    rw [hr] at hy
    refine ⟨y, hy, ?_⟩
    obtain ⟨i, e, ht, hmu, hp, hc⟩ : ∃ i, bindAttr d (rep d.rep.attr) = .simple i ∧ i.type = .integer ∧ i.multi = false ∧
        i.procs .dump = [] ∧ i.canonical = none := by
      simp only [List.mem_cons, List.not_mem_nil, or_false] at hd
      rcases hd with rfl | rfl | rfl <;> exact ⟨_, rfl, rfl, rfl, rfl, rfl⟩
    rw [e] at hpr
    rcases hx with rfl | ⟨t, hw⟩
    · rw [Attr.process, info_process_eq] at hpr
      cases hpr
      exact .null
    · obtain ⟨v, hv1, hv2⟩ := integer_process ht hmu hp hc hw
      rw [hv1] at hpr
      cases hpr
      exact .number hw hv2

/-- What is written for the list of schemas. -/
theorem schemas_read {D : List (Str × Val)} (hD : Ordinary schema D) {r : Val} {is : Issues}
    (h : schema.process .dump (.dict D) = .ok (r, is))
    (hv : ∀ x, listHolds D "schemas" = some x → x = .null ∨ ∃ strs : List Str, x = .list (strs.map Val.str)) :
    r.getItem (rep "schemas".toList) = .ok ((listHolds D "schemas").getD .missing) := by
  have hmem := wf.schemas_mem
  have hr : (bindAttr schemasAttr { schema := schema.urn, attr := "schemas".toList }).rep = rep "schemas".toList := bindAttr_rep _ _
  obtain ⟨htr, -, -⟩ := process_spec wf (by rfl) h
  have hread := getItem_look (r := rep "schemas".toList) (clear_of_ordinary hD (.head _)) rfl
  have hrep : look (rep "schemas".toList) D = listHolds D "schemas" := rfl
  rw [hrep] at hread
  cases hl : listHolds D "schemas" with
  | none =>
    rw [hl] at hread
    have := htr.absent _ hmem (simple_top hmem).2 (by rw [hr]; exact hread)
    rw [hr] at this
    exact this
  | some x =>
    rw [hl] at hread
    dsimp only at hread
    rcases hv x hl with rfl | ⟨strs, rfl⟩
    · obtain ⟨y, j, hpr, hy⟩ := htr.present _ hmem .null (by rw [hr]; exact hread) rfl
      cases hpr
      rw [hr] at hy
      exact hy
    · have hcx : convVal (.list (strs.map Val.str)) = .list (strs.map Val.str) := by
        simp only [convVal, convItems_map, List.map_map]
        congr 1
      rw [hcx] at hread
      obtain ⟨y, j, hpr, hy⟩ := htr.present _ hmem _ (by rw [hr]; exact hread) rfl
      rw [schemas_process] at hpr
      cases hpr
      rw [hr] at hy
      exact hy

/-- What is known about a list response written without issues. -/
structure Read (schemas : List Schema) (D : List (Str × Val)) (b : Val) (xs ys : List Val) (ids : List (Option Nat)) : Prop where
  valid : ValidDoc .dump schema D
  numbers : ∀ d ∈ [totalA, startA, itemsA], ∃ v, b.getItem (rep d.rep.attr) = .ok v ∧ Said (look (rep d.rep.attr) D) v
  lists : b.getItem (rep "schemas".toList) = .ok ((listHolds D "schemas").getD .missing)
  fine : IsFine schema b
  resources : (listHolds D "Resources" = none ∧ xs = [] ∧ ys = [] ∧ b.getItem (rep resourcesWord) = .ok .missing) ∨
    (listHolds D "Resources" = some (.list xs) ∧ b.getItem (rep resourcesWord) = .ok (.list ys) ∧
      ∀ x i, listHolds D "itemsPerPage" = some x → Whole x i → i = xs.length)
  chosen : schemasFor schemas (xs.map asItem) = .ok ids
  lenI : ids.length = xs.length
  lenY : ys.length = xs.length
  each : WrittenEach schemas xs ys ids

theorem listed_mem {schemas : List Schema} {D : List (Str × Val)} (hb : ListBody schemas D) {n : Str} {x : Val}
    (h : look (rep n) D = some x) : found n D = some x := by
  unfold look at h
  rw [show (rep n).schema = urn from rfl, found_none hb.noUrn] at h
  exact h

theorem look_found {schemas : List Schema} {D : List (Str × Val)} (hb : ListBody schemas D) (n : Str) :
    look (rep n) D = found n D := by
  unfold look
  rw [show (rep n).schema = urn from rfl, found_none hb.noUrn]
  rfl

theorem asItem_list (xs : List Val) : convVal (.list xs) = .list (xs.map asItem) := by
  simp only [convVal, convItems_map]

theorem other_get {d : List (Str × Val)} {lc} (hv : CoreView schema d lc) {v : Val} {lc'}
    (hv' : CoreView schema (aset resourcesWord v d) lc') {a : Attr} (ha : a ∈ schema.attrs.top) {w : Str} (hr : a.rep = rep w)
    (hw : w ≠ resourcesWord) : (Val.cont (aset resourcesWord v d) lc').getItem (rep w) = (Val.cont d lc).getItem (rep w) := by
  rw [read hv ha hr, read hv' ha hr, aget_aset_ne (fun e => hw e.symm)]

theorem top_of {d : Attr} (hd : d ∈ [schemasAttr, totalA, startA, itemsA, resourcesA]) :
    bindAttr d (rep d.rep.attr) ∈ schema.attrs.top := of_top.mpr (of_all.mpr ⟨d, hd, rfl⟩)

theorem dump_read {schemas : List Schema} (hall : ∀ s ∈ schemas, s.WF ∧ SaneAll s.attrs.top) {D : List (Str × Val)}
    (hb : ListBody schemas D) {b : Val} (h : dump schemas (.dict D) = .ok (b, {})) :
    ∃ xs ys ids, Read schemas D b xs ys ids := by
  have ht := hb.ordinary.tame
  unfold dump at h
  split at h
  · cases h
  rename_i r is hd
  have hp := process_of_dump hd
  have hw := schema_dump_wf wf sane hd
  obtain ⟨d, lc, rfl, hv⟩ := process_view wf (by rfl) hp
  have hpv := process_valid wf sane usual hb.ordinary hp
  -- what is known once there are no issues
  have facts : is.hasIssues = false → ValidDoc .dump schema D ∧
      (∀ e ∈ [totalA, startA, itemsA], ∃ v, (Val.cont d lc).getItem (rep e.rep.attr) = .ok v ∧ Said (look (rep e.rep.attr) D) v) ∧
      (Val.cont d lc).getItem (rep "schemas".toList) = .ok ((listHolds D "schemas").getD .missing) := by
    intro hn
    have hvd := hpv.mp hn
    obtain ⟨h1, h2⟩ := valid_iff.mp hvd
    refine ⟨hvd, fun e he => number_read hb.ordinary hp he ?_, schemas_read hb.ordinary hp ?_⟩
    · simp only [List.mem_cons, List.not_mem_nil, or_false] at he
      rcases he with rfl | rfl | rfl
      · exact h2 "totalResults" (by simp)
      · exact h2 "startIndex" (by simp)
      · exact h2 "itemsPerPage" (by simp)
    · intro x hx
      rcases h1 x hx with h | ⟨strs, h, -⟩
      · exact .inl h
      · exact .inr ⟨strs, h⟩
  split at h
  · rename_i hc
    cases h
    rw [canProceed_empty] at hc
    cases hc
  have hread := getItem_look (r := rep resourcesWord) (clear_of_ordinary hb.ordinary (.head _)) rfl
  rw [← resources_value hp] at hread
  rw [hread] at h
  cases hl : look (rep resourcesWord) D with
  | none =>
    rw [hl] at h hread
    cases h
    obtain ⟨f1, f2, f3⟩ := facts rfl
    refine ⟨[], [], ?_⟩
    obtain ⟨ids, hids⟩ : ∃ ids, schemasFor schemas (([] : List Val).map asItem) = .ok ids := by
      unfold schemasFor
      split
      · exact ⟨_, rfl⟩
      · exact ⟨_, rfl⟩
    exact ⟨ids, f1, f2, f3, fine_of_view hv, .inl ⟨hl, rfl, rfl, hread⟩, hids, schemasFor_length hids, rfl, nofun⟩
  | some x =>
    rw [hl] at h hread
    dsimp only at h hread
    have hxt := look_tame ht hl
    by_cases hx : ∃ xs, x = .list xs
    · obtain ⟨xs, rfl⟩ := hx
      rw [asItem_list] at h hread
      dsimp only at h
      unfold dumpList at h
      split at h
      · cases h
      rename_i is1 hci
      obtain ⟨hw1, hci⟩ := checkItems_split hw hci
      split at h
      · cases h
      rename_i ids hids
      have hlen := schemasFor_length hids
      split at h
      · cases h
      rename_i ys is2 hloop
      obtain ⟨hly, hw2, hloop⟩ := dumpLoop_spec hall hlen hw1 hloop
      obtain ⟨lc', hset, hv'⟩ := hv.set wf resources_mem (simple_top resources_mem).2 (.list ys)
      rw [resources_rep] at hset hv'
      rw [hset] at h
      cases h
      obtain ⟨hn1, hk⟩ := hloop rfl
      obtain ⟨hn0, iv, hiv, hvi⟩ := hci hn1
      obtain ⟨f1, f2, f3⟩ := facts hn0
      rw [List.length_map] at hlen hly hvi
      refine ⟨xs, ys, ids, f1, fun e he => ?_, ?_, fine_of_view hv', .inr ⟨hl, ?_, ?_⟩, hids, hlen, hly, ?_⟩
      · have hmem := top_of (d := e) (by
          simp only [List.mem_cons, List.not_mem_nil, or_false] at he ⊢
          rcases he with rfl | rfl | rfl <;> simp)
        rw [show (rep resourcesWord).attr = resourcesWord from rfl] at *
        rw [other_get hv hv' hmem (bindAttr_rep _ _) (by
          simp only [List.mem_cons, List.not_mem_nil, or_false] at he
          rcases he with rfl | rfl | rfl
          · exact (by decide : "totalResults".toList ≠ resourcesWord)
          · exact (by decide : "startIndex".toList ≠ resourcesWord)
          · exact (by decide : "itemsPerPage".toList ≠ resourcesWord))]
        exact f2 e he
      · rw [show (rep resourcesWord).attr = resourcesWord from rfl] at *
        rw [other_get hv hv' wf.schemas_mem (bindAttr_rep _ _) (by decide)]
        exact f3
      · rw [read hv' resources_mem resources_rep]
        simp [rep]
      · intro x i hxl hwi
        obtain ⟨v, hv1, hv2⟩ := f2 itemsA (by simp)
        have hl2 : look (rep itemsA.rep.attr) D = some x := hxl
        rw [hl2] at hv2
        have : iv = v := by
          have e : (Val.cont d lc).getItem (rep itemsWord) = .ok v := hv1
          rw [hiv] at e; exact Except.ok.inj e
        subst this
        cases hv2 with
        | null => cases hwi
        | number hw' hi' =>
          have := validateItems_clean hvi hi'
          have e : ∀ {a b c}, Whole a b → Whole a c → b = c := by
            intro a b c h1 h2
            cases h1 <;> cases h2 <;> rfl
          rw [e hwi hw', this]
      · intro k x t hx ht
        obtain ⟨n, s, y, e1, e2, e3, e4⟩ := hk k (asItem x) t (by rw [List.getElem?_map, hx]; rfl) ht
        rw [dump_asItem] at e3
        exact ⟨n, s, y, e1, e2, e3, e4⟩
    · exfalso
      have hbad : ∀ (P : Prop), (Except.ok (Val.cont d lc, is.add ⟨2, []⟩ false [.name resourcesWord]) : PyM (Val × Issues)) = .ok (b, {}) → P := by
        intro P e
        have e := congrArg Issues.hasIssues (Prod.mk.inj (Except.ok.inj e)).2
        rw [hasIssues_add] at e
        cases e
      cases x with
      | list xs => exact hx ⟨xs, rfl⟩
      | missing => simp [Val.Tame] at hxt
      | _ => simp only [convVal] at h; exact hbad _ h

theorem dumpLoop_clean {schemas : List Schema} : ∀ (xs : List Val) (ids : List (Option Nat)) (i : Nat), ids.length = xs.length →
    (∀ (k : Nat) x t, xs[k]? = some x → ids[k]? = some t → ∃ n s y, t = some n ∧ schemas[n]? = some s ∧ s.dump x = .ok (y, {})) →
    ∃ ys, dumpLoop schemas i (xs.map asItem) ids {} = .ok (ys, {})
  | [], [], _, _, _ => ⟨[], rfl⟩
  | [], _ :: _, _, h, _ => by simp at h
  | _ :: _, [], _, h, _ => by simp at h
  | x :: xs, t :: ids, i, hl, h => by
    obtain ⟨n, s, y, rfl, hs, hd⟩ := h 0 x t rfl rfl
    obtain ⟨ys, hys⟩ := dumpLoop_clean xs ids (i + 1) (by simpa using hl)
      (fun k x t hx ht => h (k + 1) x t (by simpa using hx) (by simpa using ht))
    refine ⟨y :: ys, ?_⟩
    rw [List.map_cons, dumpLoop]
    simp only [Option.bind_some, hs, dump_asItem, hd]
    rw [show Issues.merge {} {} [.name resourcesWord, .idx i] = {} from rfl, hys]

theorem dump_clean {schemas : List Schema} {D : List (Str × Val)} (hb : ListBody schemas D) (hv : ValidDoc .dump schema D)
    (hr : listHolds D "Resources" = none ∨ ∃ xs ids, listHolds D "Resources" = some (.list xs) ∧
      (∀ x i, listHolds D "itemsPerPage" = some x → Whole x i → i = xs.length) ∧ schemasFor schemas (xs.map asItem) = .ok ids ∧
      ∀ (k : Nat) x t, xs[k]? = some x → ids[k]? = some t → ∃ n s y, t = some n ∧ schemas[n]? = some s ∧ s.dump x = .ok (y, {})) :
    ∃ b, dump schemas (.dict D) = .ok (b, {}) := by
  have ht := hb.ordinary.tame
  obtain ⟨r, is, hd, -, -⟩ := C97_dump schema wf (noShadow_of_noExt wf rfl) owned standard (fun h => by cases h) (.dict D)
    ⟨ht, fun _ e => by cases e; exact hb.ordinary⟩
  have hp := process_of_dump hd
  have hw := schema_dump_wf wf sane hd
  obtain ⟨d, lc, rfl, hvw⟩ := process_view wf (by rfl) hp
  have hn := (process_valid wf sane usual hb.ordinary hp).mpr hv
  have hz := eq_empty_of_noIssues hw hn
  subst hz
  unfold dump
  rw [hd]
  dsimp only
  rw [canProceed_empty]
  simp only [Bool.not_true, Bool.false_eq_true, if_false]
  have hread := getItem_look (r := rep resourcesWord) (clear_of_ordinary hb.ordinary (.head _)) rfl
  rw [← resources_value hp] at hread
  rw [hread]
  rcases hr with hl | ⟨xs, ids, hl, hi, hids, hk⟩
  · have hl : look (rep resourcesWord) D = none := hl
    rw [hl]
    exact ⟨_, rfl⟩
  · have hl : look (rep resourcesWord) D = some (.list xs) := hl
    rw [hl]
    dsimp only
    rw [asItem_list]
    dsimp only
    unfold dumpList
    obtain ⟨v, hv1, hv2⟩ := number_read hb.ordinary hp (d := itemsA) (by simp) ((valid_iff.mp hv).2 "itemsPerPage" (by simp))
    have hci : checkItems (Val.cont d lc) (xs.map asItem).length {} = .ok {} := by
      unfold checkItems
      rw [canProceed_empty, if_pos rfl, show rep itemsWord = rep itemsA.rep.attr from rfl, hv1, List.length_map]
      dsimp only
      have : validateItems xs.length v = {} := by
        generalize ho : look (rep itemsA.rep.attr) D = o at hv2
        cases hv2 with
        | absent => rfl
        | null => rfl
        | number hw' hi' =>
          have := hi _ _ ho hw'
          subst this
          generalize xs.length = m at hi'
          generalize hm : (m : Int) = j at hi'
          cases hi' with
          | int => subst hm; simp [validateItems]
          | bool b => cases b <;> simp [validateItems] at hm ⊢ <;> omega
      rw [this]
      rfl
    rw [hci]; dsimp only
    rw [hids]; dsimp only
    obtain ⟨ys, hys⟩ := dumpLoop_clean xs ids 0 (by have := schemasFor_length hids; rwa [List.length_map] at this) hk
    rw [hys]; dsimp only
    obtain ⟨lc', hset, -⟩ := hvw.set wf resources_mem (simple_top resources_mem).2 (.list ys)
    rw [resources_rep] at hset
    rw [hset]
    exact ⟨_, rfl⟩

theorem errors_none {is : Issues} (hw : is.WF) (h : ∀ l e, e ∉ is.errorsAt l) : is.hasIssues = false := by
  cases hi : is.hasIssues with
  | false => rfl
  | true =>
    obtain ⟨l, hl⟩ := (hasIssues_iff_errors hw).mp hi
    obtain ⟨e, he⟩ := List.exists_mem_of_ne_nil _ hl
    exact absurd he (h l e)

/-- What must be there in a list response. -/
theorem present_iff {b : Val} {is : Issues} (h : Checker.call {} b schema.attrs .response = .ok is) {t v : Val}
    (ht : b.getItem (rep totalWord) = .ok t) (hti : t.isInvalid = false) (hv : b.getItem (rep "schemas".toList) = .ok v)
    (hvi : v.isInvalid = false) : is.hasIssues = false ↔ ¬ t.Empty ∧ ¬ v.Empty := by
  have hw := call_wf h
  have hce := call_errors {} b schema.attrs .response is h
  have key : ∀ d ∈ [schemasAttr, totalA], ∀ w, b.getItem (rep d.rep.attr) = .ok w → w.isInvalid = false → w.Empty →
      is.hasIssues = true := by
    intro d hd w hg hi he
    have hreq : (bindAttr d (rep d.rep.attr)).info.required = true := by
      simp only [List.mem_cons, List.not_mem_nil, or_false] at hd
      rcases hd with rfl | rfl <;> rfl
    have hmem : (⟨15, []⟩ : VErr) ∈ is.errorsAt [.name d.rep.attr] := by
      refine (hce _ _).mpr ⟨bindAttr d (rep d.rep.attr), of_all.mpr ⟨d, ?_, rfl⟩, w, ?_, ?_⟩
      · simp only [List.mem_cons, List.not_mem_nil, or_false] at hd ⊢
        rcases hd with rfl | rfl <;> simp
      · have := Observed.top (attrs := schema.attrs) (data := b) (a := bindAttr d (rep d.rep.attr)) (v := w)
          (by rw [bindAttr_rep]; rfl) (by rw [bindAttr_rep]; exact hg) hi
        rw [bindAttr_rep] at this
        exact this
      · rw [checkPresence_errors]
        refine ⟨rfl, .inl ⟨rfl, he, ?_, ?_, nofun⟩⟩
        · exact hreq
        · rintro ⟨x, hx, -⟩; cases hx
    exact (hasIssues_iff_errors hw).mpr ⟨_, List.ne_nil_of_mem hmem⟩
  constructor
  · intro hn
    refine ⟨fun he => ?_, fun he => ?_⟩
    · have := key totalA (by simp) t ht hti he
      rw [hn] at this; cases this
    · have := key schemasAttr (by simp) v hv hvi he
      rw [hn] at this; cases this
  · rintro ⟨h1, h2⟩
    refine errors_none hw (fun l e he => ?_)
    obtain ⟨a, ha, w, hob, he⟩ := (hce l e).mp he
    obtain ⟨d, hd, rfl⟩ := of_all.mp ha
    have hread : b.getItem (rep d.rep.attr) = .ok w := by
      have hs : (bindAttr d { schema := urn, attr := d.rep.attr }).rep.sub = [] := by rw [bindAttr_rep]
      cases hob with
      | top _ hg _ => rw [bindAttr_rep] at hg; exact hg
      | sub hn => exact absurd hs hn
      | null hn => exact absurd hs hn
      | item hn => exact absurd hs hn
    rw [checkPresence_errors] at he
    rcases he.2 with ⟨-, hem, hr, -⟩ | ⟨-, -, -, -, hbad⟩
    · simp only [List.mem_cons, List.not_mem_nil, or_false] at hd
      rcases hd with rfl | rfl | rfl | rfl | rfl
      · rw [show rep schemasAttr.rep.attr = rep "schemas".toList from rfl, hv] at hread
        cases hread; exact h2 hem
      · rw [show rep totalA.rep.attr = rep totalWord from rfl, ht] at hread
        cases hread; exact h1 hem
      · cases hr
      · cases hr
      · cases hr
    · rcases hbad with hb | hb | hb
      · simp only [List.mem_cons, List.not_mem_nil, or_false] at hd
        rcases hd with rfl | rfl | rfl | rfl | rfl <;> cases hb
      · cases hb.1
      · cases hb.1

/-- Resources written without issues are taken for the same schemas again. -/
theorem again {schemas : List Schema} (hne : schemas ≠ []) (hall : ∀ s ∈ schemas, s.Listable) {D : List (Str × Val)}
    (hb : ListBody schemas D) {xs ys : List Val} {ids : List (Option Nat)} (hx : xs = [] ∨ listHolds D "Resources" = some (.list xs))
    (hids : schemasFor schemas (xs.map asItem) = .ok ids) (hl : ys.length = xs.length) (hc : WrittenEach schemas xs ys ids) :
    schemasFor schemas ys = .ok ids := by
  rcases hx with rfl | hx
  · obtain rfl : ys = [] := List.eq_nil_of_length_eq_zero hl
    exact hids
  · obtain ⟨k, hk, e⟩ := found_mem (listed_mem hb hx)
    have hli : ids.length = xs.length := by have := schemasFor_length hids; rwa [List.length_map] at this
    unfold schemasFor at hids ⊢
    split at hids
    · rename_i h1
      rw [if_pos h1]
      cases hids
      congr 1
      rw [List.map_map]
      apply List.ext_getElem
      · simp [hl]
      · intro k h1 h2; simp
    · rename_i h1
      rw [if_neg h1]
      apply inferAll_of_get (by rw [hli, hl])
      intro j y t hy ht
      obtain ⟨x, hx⟩ : ∃ x, xs[j]? = some x := by
        have : j < xs.length := by
          rw [← hl]; exact (List.getElem?_eq_some_iff.mp hy).1
        exact ⟨xs[j], List.getElem?_eq_getElem this⟩
      have hxm := List.mem_of_getElem? hx
      obtain ⟨n, s, y', rfl, hs, hd, hy'⟩ := hc j x t hx ht
      rw [hy'] at hy; cases hy
      obtain ⟨t', ht', hi⟩ := inferAll_get hids j (asItem x) (by rw [List.getElem?_map, hx]; rfl)
      rw [ht'] at ht; cases ht
      obtain ⟨t, h2, h3⟩ := infer_total hne (hb.resources k xs hk e x hxm)
        (fun rk e' => by subst e'; exact hb.several h1 k xs hk e rk hxm)
      rw [h2] at hi; cases hi
      obtain ⟨rk, strs, rfl, hst, hf, hr⟩ := h3 rfl
      rw [hf]
      have hsm := List.mem_of_getElem? hs
      exact infer_again (hall s hsm) hsm hst hr hd

theorem texts_of {zs : List Val} {strs : List Str} (h : Val.list (zs.map asItem) = .list (strs.map Val.str)) :
    Val.list zs = .list (strs.map Val.str) := by
  replace h := Val.list.inj h
  congr 1
  induction zs generalizing strs with
  | nil => cases strs with
    | nil => rfl
    | cons _ _ => cases h
  | cons z zs ih => cases strs with
    | nil => cases h
    | cons t ts =>
      simp only [List.map_cons, List.cons.injEq] at h ⊢
      refine ⟨?_, ih h.2⟩
      have h1 := h.1
      cases z with
      | dict _ => simp only [asItem, Val.toCont] at h1; cases h1
      | _ => exact h1

/-- The resource at a position is taken for the schema at the position found. -/
theorem taken_iff {schemas : List Schema} (hne : schemas ≠ []) {xs : List Val} (hj : ∀ x ∈ xs, ∀ s ∈ schemas, JsonBody s x)
    (hk : schemas.length ≠ 1 → ∀ rk, .dict rk ∈ xs → ∀ key ∈ rk.map (·.1), lower key ≠ lower urn ∧ ∀ s ∈ schemas, lower key ≠ lower s.urn)
    {ids : List (Option Nat)} (hids : schemasFor schemas (xs.map asItem) = .ok ids) {j : Nat} {R : List (Str × Val)}
    (hx : xs[j]? = some (.dict R)) {t : Option Nat} (ht : ids[j]? = some t) {s : Schema} :
    (∃ n, t = some n ∧ schemas[n]? = some s) ↔ TakenFor schemas R s := by
  have hxm := List.mem_of_getElem? hx
  unfold schemasFor at hids
  split at hids
  · rename_i h1
    cases hids
    rw [List.getElem?_map, List.getElem?_map, hx] at ht
    cases ht
    obtain ⟨s', rfl⟩ : ∃ s', schemas = [s'] := List.length_eq_one_iff.mp h1
    constructor
    · rintro ⟨n, e, hs⟩
      cases e
      cases hs
      exact .only rfl
    · rintro (h | ⟨h, -⟩)
      · cases h; exact ⟨0, rfl, rfl⟩
      · exact absurd h1 h
  · rename_i h1
    obtain ⟨t', ht', hi⟩ := inferAll_get hids j (asItem (.dict R)) (by rw [List.getElem?_map, hx]; rfl)
    rw [ht'] at ht; cases ht
    have hkeys := hk h1 R hxm
    have hget : (asItem (.dict R)).getItem (rep "schemas".toList) =
        .ok (match found "schemas".toList R with | some x => convVal x | none => .missing) := by
      have := getItem_found (D := R) (r := rep "schemas".toList) (found_none.mpr (fun k h => (hkeys k h).1)) rfl
      exact this
    have hcov : ∀ (strs : List Str) (s : Schema), (strs.map Val.str).all (itemIn (s.schemas.map lower)) = true ↔ Knows s strs := by
      intro strs s
      simp only [List.all_map, List.all_eq_true, Function.comp, Knows]
      constructor
      · intro h t ht
        have := h t ht
        simp only [itemIn, Val.str] at this
        obtain ⟨u, hu, e⟩ := List.mem_map.mp (by simpa using this)
        exact ⟨u, hu, e.symm⟩
      · intro h t ht
        obtain ⟨u, hu, e⟩ := h t ht
        simp only [itemIn, Val.str]
        have : lower t ∈ s.schemas.map lower := List.mem_map.mpr ⟨u, hu, e.symm⟩
        simpa using this
    have hitems : ∀ strs : List Str, convVal (.list (strs.map Val.str)) = .list (strs.map Val.str) := by
      intro strs
      rw [asItem_list, List.map_map]
      congr 1
    constructor
    · rintro ⟨n, rfl, hs⟩
      obtain ⟨t, h2, h3⟩ := infer_total hne (hj _ hxm) (fun rk e' => by cases e'; exact hkeys)
      rw [h2] at hi; cases hi
      obtain ⟨rk, strs, e, hst, hf, hr⟩ := h3 rfl
      cases e
      have hsm := List.mem_of_getElem? hs
      have hf' : found "schemas".toList R = some (.list (strs.map Val.str)) := by
        have h4 := hr s hsm
        rw [getItem_found (D := R) (r := { schema := s.urn, attr := "schemas".toList })
          (found_none.mpr (fun k h => (hkeys k h).2 s hsm)) rfl] at h4
        have h4 := Except.ok.inj h4
        cases hfo : found "schemas".toList R with
        | none => rw [hfo] at h4; cases h4
        | some x =>
          rw [hfo] at h4
          dsimp only at h4
          cases x with
          | list zs =>
            rw [asItem_list] at h4
            rw [Val.list.inj (texts_of h4)]
          | prim p => cases h4
          | dict _ => simp only [convVal] at h4; cases h4
          | _ => cases h4
      unfold firstCover at hf
      obtain ⟨hlt, hp, hbef⟩ := List.findIdx?_eq_some_iff_getElem.mp hf.symm
      have hs' : schemas[n] = s := by
        rw [List.getElem?_eq_getElem hlt] at hs; exact Option.some.inj hs
      refine .first h1 hf' hst (before := schemas.take n) (after := schemas.drop (n + 1)) ?_ ?_ ?_
      · rw [← hs', ← List.drop_eq_getElem_cons hlt, List.take_append_drop]
      · rw [← hs']; exact (hcov _ _).mp hp
      · intro s' hs'
        obtain ⟨m, hm, rfl⟩ := List.mem_iff_getElem.mp hs'
        rw [List.getElem_take, ← hcov]
        exact hbef m (by rw [List.length_take] at hm; omega)
    · rintro (h | @⟨strs, before, after, h, hf, hst, hsp, hkn, hbef⟩)
      · rw [h] at h1; exact absurd rfl h1
      · unfold infer at hi
        rw [show (asItem (.dict R)).isCont = true from by simp only [asItem, Val.toCont]; rfl, hget, hf] at hi
        dsimp only at hi
        rw [hitems] at hi
        have hh : (strs.map Val.str).all hashable = true := by
          rw [List.all_eq_true]
          intro v hv
          obtain ⟨s, _, rfl⟩ := List.mem_map.mp hv
          rfl
        obtain ⟨z, zs, rfl⟩ := List.exists_cons_of_ne_nil hst
        simp only [List.map_cons, Bool.not_true, Bool.false_eq_true, if_false] at hi hh
        rw [if_pos hh] at hi
        have hi := Except.ok.inj hi
        have hlt : before.length < schemas.length := by rw [hsp]; simp
        refine ⟨before.length, ?_, by rw [hsp]; simp⟩
        rw [← hi]
        unfold firstCover
        refine List.findIdx?_eq_some_iff_getElem.mpr ⟨hlt, ?_, ?_⟩
        · have : schemas[before.length] = s := by simp [hsp]
          rw [this]
          exact (hcov (z :: zs) s).mpr hkn
        · intro m hm
          have : schemas[m]'(by omega) = before[m] := by simp [hsp, List.getElem_append_left hm]
          rw [this]
          exact fun e => hbef _ (List.getElem_mem hm) ((hcov (z :: zs) _).mp e)

/-- A resource is written and found complete exactly when it may be sent. -/
theorem sendable_iff {s : Schema} (hp : Proper s) (hl : s.Listable) (hres : s.isResource = true) {x : Val} (hj : JsonBody s x) {c : Checker} :
    (∃ y, s.dump x = .ok (y, {}) ∧ c.call y s.attrs .response = .ok {}) ↔ ∃ R, x = .dict R ∧ Sendable s c R := by
  obtain ⟨r, is, hd, hf, hnd⟩ := C97_dump s hl.wf hl.noShadow hl.owned hl.standard hl.metas x hj
  have hw := schema_dump_wf hl.wf hp.sane hd
  cases hdict : x.isDict with
  | false =>
    obtain ⟨cc, hcc⟩ := hnd hdict
    subst hcc
    refine ⟨fun ⟨y, h, _⟩ => ?_, fun ⟨R, e, _⟩ => by subst e; cases hdict⟩
    rw [hd] at h
    cases h
  | true =>
    obtain ⟨R, rfl⟩ : ∃ R, x = .dict R := by cases x <;> first | exact ⟨_, rfl⟩ | cases hdict
    have hD := hj.2 R rfl
    have hdo := dump_ok hp hres (hl.metas hres) hD hd
    obtain ⟨is0, h0⟩ := C29_dump s _ _ _ hd
    obtain ⟨is3, hc⟩ := checker_total hl.wf hl.owned (hf rfl) c .response
    have hchk : ∀ (hv : ValidIn .dump s.attrs.top R),
        (is3.hasIssues = false ↔ (∀ a ∈ s.attrs.all, Demanded c a → Given s R a) ∧
          (∀ a ∈ s.attrs.all, Withheld c a → ¬ Shown s R a)) := by
      intro hv
      rw [checker_ok hp.wf hp.noShadow hp.owned hp.sane (hp.usual _) hp.regular hD hv h0 hc]
      constructor
      · intro hall
        refine ⟨fun a ha hdm => (hall a ha).1 hdm.1 hdm.2.1 (fun e => (hdm.2.2 e).imp id fun e => ⟨rfl, e⟩), ?_⟩
        rintro a ha hwh hsh
        rcases hwh with hnv | ⟨hna, hwh⟩
        · exact (hall a ha).2 hsh rfl (by rw [hnv]; simp) (.inl hnv)
        · exact (hall a ha).2 hsh rfl hna (.inr hwh)
      · rintro ⟨h1, h2⟩ a ha
        refine ⟨fun hr hi hx => h1 a ha ⟨hr, hi, fun e => (hx e).imp id fun e => e.2⟩, fun hsh _ hna hbad => ?_⟩
        rcases hbad with hnv | hbad
        · exact h2 a ha (.inl hnv) hsh
        · exact h2 a ha (.inr ⟨hna, hbad⟩) hsh
    constructor
    · rintro ⟨y, h, hcy⟩
      rw [hd] at h
      cases h
      rw [hc] at hcy
      cases hcy
      obtain ⟨hv, hty⟩ := hdo.mp rfl
      obtain ⟨h1, h2⟩ := (hchk hv.1).mp rfl
      exact ⟨R, rfl, hv, hty, h1, h2⟩
    · rintro ⟨R', e, hs⟩
      cases e
      have hz := eq_empty_of_noIssues hw (hdo.mpr ⟨hs.valid, hs.type⟩)
      have hz3 := eq_empty_of_noIssues (call_wf hc) ((hchk hs.valid.1).mpr ⟨hs.demanded, hs.withheld⟩)
      subst hz hz3
      exact ⟨r, hd, hc⟩

theorem presenceLoop_clean {c : Checker} {table : List Schema} : ∀ (i : Nat) (ys : List Val) (ids : List (Option Nat)),
    (∀ (k : Nat) y t, ys[k]? = some y → ids[k]? = some t → PresenceOf table c y t {}) → presenceLoop c table i ys ids {} = .ok {}
  | _, [], _, _ => by unfold presenceLoop; rfl
  | _, _ :: _, [], _ => by unfold presenceLoop; rfl
  | i, y :: ys, t :: ids, h => by
    obtain ⟨n, s, rfl, hs, hc⟩ := h 0 y t rfl rfl
    rw [presenceLoop]
    have ha : attrsOf table (some n) = .ok s.attrs := by simp only [attrsOf, hs]
    rw [ha]; dsimp only
    rw [hc]; dsimp only
    exact presenceLoop_clean (i + 1) ys ids (fun k y t hy ht => h (k + 1) y t (by simpa using hy) (by simpa using ht))

theorem presence_clean_iff {c : Checker} {table : List Schema} {ys : List Val} {ids : List (Option Nat)} (hlen : ids.length = ys.length) :
    validateResourcesPresence c ys table ids = .ok {} ↔
      ∀ (k : Nat) y t, ys[k]? = some y → ids[k]? = some t → PresenceOf table c y t {} := by
  constructor
  · intro h k y t hy ht
    obtain ⟨p, hp, hs⟩ := (C92_presence table c ys ids hlen {} h).1 k y t hy ht
    have hpe : p = {} := by
      obtain ⟨n, s, -, -, hc⟩ := hp
      exact eq_empty_of_noIssues (call_wf hc) (errors_none (call_wf hc) fun l e he => by cases (hs l e).mpr he)
    rwa [hpe] at hp
  · intro h
    exact presenceLoop_clean 0 ys ids h

/-- The numbers of a list response, once they have been read. -/
theorem numbers_iff {count : Option Int} {n : Nat} {t s p : Val} {i : Int} (ht : t.IsInt i) :
    (validateNumber count t n = .ok {} ∧ validatePagination count t n s p = .ok {}) ↔
      (n ≤ i ∧ (count = none → i = n) ∧ (∀ c, count = some c → (n : Int) ≤ c) ∧
        ∀ c, count = some c → 0 < c → n < i → ¬ (s = .null ∨ s = .missing) ∧ ¬ (p = .null ∨ p = .missing)) := by
  obtain ⟨is1, h1, -, -, -, -, h2⟩ := C73_number count t i ht n
  obtain ⟨is2, h3, -, -, h4⟩ := C73_pages count t i ht n s p
  have e1 : validateNumber count t n = .ok {} ↔ is1.hasIssues = false := by
    rw [h1]
    constructor
    · intro e; cases e; rfl
    · intro e
      have hw : is1.WF := validateNumber_wf h1
      rw [eq_empty_of_noIssues hw e]
  have e2 : validatePagination count t n s p = .ok {} ↔ is2.hasIssues = false := by
    rw [h3]
    constructor
    · intro e; cases e; rfl
    · intro e
      have hw : is2.WF := validatePagination_wf h3
      rw [eq_empty_of_noIssues hw e]
  rw [e1, e2, ← Bool.not_eq_true, ← Bool.not_eq_true, h2, h4]
  constructor
  · rintro ⟨a, b⟩
    refine ⟨by omega, fun e => ?_, fun c e => ?_, fun c e hc hn => ⟨fun h => b ?_, fun h => b ?_⟩⟩
    · have : ¬ ((n : Int) < i) := fun h => a (.inr (.inl ⟨e, h⟩))
      omega
    · have : ¬ (c < (n : Int)) := fun h => a (.inr (.inr ⟨c, e, h⟩))
      omega
    · exact ⟨⟨c, e, hc⟩, hn, h.elim .inl (fun h => .inr (.inl h))⟩
    · exact ⟨⟨c, e, hc⟩, hn, h.elim (fun h => .inr (.inr (.inl h))) (fun h => .inr (.inr (.inr h)))⟩
  · rintro ⟨a, b, c, d⟩
    refine ⟨?_, ?_⟩
    · rintro (h | ⟨e, h⟩ | ⟨k, e, h⟩)
      · omega
      · have := b e; omega
      · have := c k e; omega
    · rintro ⟨⟨k, e, hk⟩, hn, h⟩
      obtain ⟨h1, h2⟩ := d k e hk hn
      rcases h with h | h | h | h
      · exact h1 (.inl h)
      · exact h1 (.inr h)
      · exact h2 (.inl h)
      · exact h2 (.inr h)

theorem start_iff {start : Int} {v : Val} {i : Int} (hv : v.IsInt i) :
    (v.truthy = true → validateStartIndex start v = .ok {}) ↔ i = 0 ∨ i ≤ start := by
  have ht : v.truthy = true ↔ i ≠ 0 := by
    cases hv with
    | int i => simp [Val.truthy, Val.int]
    | bool b => cases b <;> simp [Val.truthy, Val.bool]
  rw [ht]
  unfold validateStartIndex
  rw [pyLt_ints (.int start) hv]
  dsimp only
  by_cases hlt : start < i
  · have : ((if decide (start < i) = true then Issues.empty.add ⟨24, []⟩ true else {}) : Issues) ≠ {} := by
      simp only [hlt, decide_true, if_true]
      intro e
      have e := congrArg Issues.hasIssues e
      rw [hasIssues_add] at e
      cases e
    constructor
    · intro h
      by_cases h0 : i = 0
      · exact .inl h0
      · exact absurd (Except.ok.inj (h h0)) this
    · rintro (h | h)
      · exact fun e => absurd h e
      · omega
  · refine ⟨fun _ => .inr (by omega), fun _ _ => by simp [hlt]⟩

/-- The checks of a list response, put together. -/
theorem dumpList_of {schemas : List Schema} {body headers : Val} {start : Int} {count : Option Int} {f : Option Op}
    {so : Option SorterCfg} {c : Option Checker} {b : Val} {ys : List Val} {ids : List (Option Nat)}
    (hd : ListA.dump schemas body = .ok (b, {})) (hcall : Checker.call {} b schema.attrs .response = .ok {})
    {t s p : Val} (hs : b.getItem (rep startWord) = .ok s) (hstart : s.truthy = true → validateStartIndex start s = .ok {})
    (hres : (b.getItem (rep resourcesWord) = .ok .missing ∧ ys = []) ∨ b.getItem (rep resourcesWord) = .ok (.list ys))
    (ht : b.getItem (rep totalWord) = .ok t) (hp : b.getItem (rep itemsWord) = .ok p)
    (hnum : validateNumber count t ys.length = .ok {}) (hpag : validatePagination count t ys.length s p = .ok {})
    (hids : schemasFor schemas ys = .ok ids) (hf : filteredIf schemas ids f ys = .ok {}) (hso : sortedIf schemas ids so ys = .ok {})
    (hpr : validateResourcesPresence (c.getD {}) ys schemas ids = .ok {}) :
    V.dumpList schemas 200 body headers start count f so c = .ok (finish headers b {}) := by
  have hm : ∀ l, Issues.merge {} {} l = {} := fun _ => rfl
  have hrest : dumpListRest schemas headers count f so c b ys {} = .ok (finish headers b {}) := by
    unfold dumpListRest checkNumbers
    rw [canProceed_empty, if_pos rfl, ht]; dsimp only
    rw [hnum]; dsimp only
    rw [hm]
    unfold checkPages
    rw [canProceed_empty, if_pos rfl, hs]; dsimp only
    rw [hp]; dsimp only
    rw [hpag]; dsimp only
    rw [hm]
    rw [if_neg (by decide)]
    unfold checkResources
    rw [hids]; dsimp only
    rw [hf]; dsimp only
    rw [hm, hso]; dsimp only
    rw [hm, hpr]; dsimp only
    rw [hm]
  unfold V.dumpList
  rw [hd]; dsimp only
  rw [show Issues.empty.merge {} bodyLoc = {} from rfl, canProceed_empty]
  simp only [Bool.not_true, Bool.false_eq_true, if_false]
  rw [hcall]; dsimp only
  rw [hm, show statusIs 200 200 = {} from rfl, hm]
  have hcs : checkStart start b {} = .ok {} := by
    unfold checkStart
    rw [canProceed_empty, if_pos rfl, hs]; dsimp only
    by_cases h : s.truthy = true
    · rw [if_pos h, hstart h]; rfl
    · rw [if_neg h]
  rw [hcs]; dsimp only
  rw [canProceed_empty]
  simp only [Bool.not_true, Bool.false_eq_true, if_false]
  rcases hres with ⟨h, rfl⟩ | h
  · rw [h]; exact hrest
  · rw [h]; exact hrest

theorem Whole.unique {x : Val} {a b : Int} (h1 : Whole x a) (h2 : Whole x b) : a = b := by
  cases h1 <;> cases h2 <;> rfl

theorem written_unique {schemas : List Schema} {xs ys ys' : List Val} {ids ids' : List (Option Nat)}
    (h : Written schemas xs ys ids) (h' : Written schemas xs ys' ids') : ys = ys' ∧ ids = ids' := by
  have e := h.chosen
  rw [h'.chosen] at e
  cases e
  refine ⟨List.ext_getElem? fun k => ?_, rfl⟩
  by_cases hk : k < xs.length
  · have hli : ids.length = xs.length := by have := schemasFor_length h.chosen; rwa [List.length_map] at this
    obtain ⟨n, s, y, e1, e2, e3, e4⟩ := h.each k _ _ (List.getElem?_eq_getElem hk) (List.getElem?_eq_getElem (by omega))
    obtain ⟨n', s', y', e1', e2', e3', e4'⟩ := h'.each k _ _ (List.getElem?_eq_getElem hk) (List.getElem?_eq_getElem (by omega))
    rw [e1] at e1'; cases e1'
    rw [e2] at e2'; cases e2'
    rw [e3] at e3'; cases e3'
    rw [e4, e4']
  · rw [List.getElem?_eq_none (by rw [h.len]; omega), List.getElem?_eq_none (by rw [h'.len]; omega)]

theorem Said.invalid {o : Option Val} {v : Val} (h : Said o v) : v.isInvalid = false := by
  cases h with
  | absent => rfl
  | null => rfl
  | number _ h => cases h <;> rfl

theorem Said.full {o : Option Val} {v : Val} (h : Said o v) : ¬ v.Empty ↔ ∃ x i, o = some x ∧ Whole x i ∧ v.IsInt i := by
  cases h with
  | absent => simp [Val.Empty]
  | null =>
    constructor
    · intro h; exact absurd (.inl rfl) h
    · rintro ⟨x, i, e, h, -⟩; cases e; cases h
  | @number x v i hw hi =>
    refine ⟨fun _ => ⟨x, i, rfl, hw, hi⟩, fun _ => ?_⟩
    cases hi <;> simp [Val.Empty, Val.null, Val.str, Val.int, Val.bool]

theorem Said.there {o : Option Val} {v : Val} (h : Said o v) : ¬ (v = .null ∨ v = .missing) ↔ ∃ x i, o = some x ∧ Whole x i := by
  cases h with
  | absent => simp
  | null =>
    constructor
    · intro h; exact absurd (.inl rfl) h
    · rintro ⟨x, i, e, h⟩; cases e; cases h
  | @number x v i hw hi =>
    refine ⟨fun _ => ⟨x, i, rfl, hw⟩, fun _ => ?_⟩
    cases hi <;> simp [Val.null, Val.int, Val.bool]

/-- The bodies and the keys of the resources. -/
theorem resources_known {schemas : List Schema} {D : List (Str × Val)} (hb : ListBody schemas D) {xs : List Val}
    (hx : xs = [] ∨ listHolds D "Resources" = some (.list xs)) :
    (∀ x ∈ xs, ∀ s ∈ schemas, JsonBody s x) ∧ (schemas.length ≠ 1 → ∀ rk, .dict rk ∈ xs → ∀ key ∈ rk.map (·.1),
      lower key ≠ lower urn ∧ ∀ s ∈ schemas, lower key ≠ lower s.urn) := by
  rcases hx with rfl | hx
  · exact ⟨nofun, fun _ _ h => by cases h⟩
  · obtain ⟨k, hk, e⟩ := found_mem (listed_mem hb hx)
    exact ⟨hb.resources k xs hk e, fun h1 => hb.several h1 k xs hk e⟩

theorem list_iff {schemas : List Schema} (hne : schemas ≠ [])
    (hall : ∀ s ∈ schemas, s.Listable ∧ Proper s ∧ s.isResource = true) {D : List (Str × Val)} (hb : ListBody schemas D)
    {status : Int} {headers : Val} {start : Int} {count : Option Int} {f : Option Op} {so : Option SorterCfg} {c : Option Checker}
    {resp : Response} {is : Issues} (h : V.dumpList schemas status (.dict D) headers start count f so c = .ok (resp, is)) :
    is.hasIssues = false ↔ status = 200 ∧ ∃ xs ys ids, ListDoc schemas start count (c.getD {}) D xs ∧ Written schemas xs ys ids ∧
      filteredIf schemas ids f ys = .ok {} ∧ sortedIf schemas ids so ys = .ok {} := by
  have hwf : ∀ s ∈ schemas, s.WF ∧ SaneAll s.attrs.top := fun s hs => ⟨(hall s hs).1.wf, (hall s hs).2.1.sane⟩
  have hlist : ∀ s ∈ schemas, s.Listable := fun s hs => (hall s hs).1
  constructor
  · intro hn
    obtain ⟨b, ys', hd, -, hst, hcall, ⟨sv, hsv, hsi⟩, hres, ⟨tv, sv', pv, htv, hnum, hsv', hpv, hpag⟩, ids', hids', hf, hso, hpr⟩ :=
      (dumpList_spec hwf h).2.2.2 hn
    rw [hsv] at hsv'; cases hsv'
    obtain ⟨xs, ys, ids, hr⟩ := dump_read hwf hb hd
    have hx : xs = [] ∨ listHolds D "Resources" = some (.list xs) :=
      hr.resources.elim (fun h => .inl h.2.1) (fun h => .inr h.1)
    have hagain := again hne hlist hb hx hr.chosen hr.lenY hr.each
    have hys : ys' = ys := by
      rcases hr.resources with ⟨-, -, rfl, hg⟩ | ⟨-, hg, -⟩
      · rcases hres with ⟨-, e⟩ | e
        · exact e
        · rw [hg] at e; cases e
      · rcases hres with ⟨e, -⟩ | e
        · rw [hg] at e; cases e
        · rw [hg] at e; cases e; rfl
    subst hys
    rw [hagain] at hids'; cases hids'
    obtain ⟨hj, hkeys⟩ := resources_known hb hx
    obtain ⟨t, ht1, ht2⟩ := hr.numbers totalA (by simp)
    obtain ⟨s, hs1, hs2⟩ := hr.numbers startA (by simp)
    obtain ⟨p, hp1, hp2⟩ := hr.numbers itemsA (by simp)
    rw [show rep totalA.rep.attr = rep totalWord from rfl] at ht1 ht2
    rw [show rep startA.rep.attr = rep startWord from rfl] at hs1 hs2
    rw [show rep itemsA.rep.attr = rep itemsWord from rfl] at hp1 hp2
    rw [htv] at ht1; cases ht1
    rw [hsv] at hs1; cases hs1
    rw [hpv] at hp1; cases hp1
    have hvalid := valid_iff.mp hr.valid
    have hsi' : ((listHolds D "schemas").getD .missing).isInvalid = false := by
      cases hl : listHolds D "schemas" with
      | none => rfl
      | some x => rcases hvalid.1 x hl with rfl | ⟨strs, rfl, -⟩ <;> rfl
    obtain ⟨hfull, hsch⟩ := (present_iff hcall htv ht2.invalid hr.lists hsi').mp rfl
    obtain ⟨x, i, hx1, hw1, hi1⟩ := ht2.full.mp hfull
    obtain ⟨n1, n2, n3, n4⟩ := (numbers_iff hi1).mp ⟨hnum, hpag⟩
    rw [hr.lenY] at n1 n2 n3 n4
    have hpres := (presence_clean_iff (by rw [hr.lenI, hr.lenY])).mp hpr
    refine ⟨hst, xs, ys', ids', ?_, ⟨hr.chosen, hr.lenY, hr.each⟩, hf, hso⟩
    refine ⟨?_, ?_, ⟨x, i, hx1, hw1, n1, n2, fun n hn h0 hlt => ?_⟩, n3, ?_, ?_, ?_⟩
    · cases hl : listHolds D "schemas" with
      | none => rw [hl] at hsch; exact absurd (.inr (.inr (.inr rfl))) hsch
      | some x =>
        rw [hl] at hsch
        rcases hvalid.1 x hl with rfl | ⟨strs, rfl, hstrs⟩
        · exact absurd (.inl rfl) hsch
        · refine ⟨strs, ?_, rfl, hstrs⟩
          rintro rfl
          exact hsch (.inr (.inr (.inl rfl)))
    · rcases hr.resources with ⟨h1, h2, -⟩ | ⟨h1, -⟩
      · exact .inl ⟨h1, h2⟩
      · exact .inr h1
    · obtain ⟨a1, a2⟩ := n4 n hn h0 hlt
      exact ⟨hs2.there.mp a1, hp2.there.mp a2⟩
    · intro y hy
      have hy : look (rep startWord) D = some y := hy
      rw [hy] at hs2
      cases hs2 with
      | null => exact .inl rfl
      | @number _ _ j hw hi => exact .inr ⟨j, hw, (start_iff hi).mp hsi⟩
    · intro y hy
      rcases hvalid.2 "itemsPerPage" (by simp) y hy with h | ⟨j, hj⟩
      · exact .inl h
      · refine .inr ⟨j, hj, fun hr' => ?_⟩
        rcases hr.resources with ⟨h1, -⟩ | ⟨-, -, h3⟩
        · exact absurd h1 hr'
        · exact h3 y j hy hj
    · intro y hy
      obtain ⟨k, hk, rfl⟩ := List.mem_iff_getElem.mp hy
      have hk' : k < ids'.length := by rw [hr.lenI]; exact hk
      obtain ⟨n, s, z, e1, e2, e3, e4⟩ := hr.each k _ _ (List.getElem?_eq_getElem hk) (List.getElem?_eq_getElem hk')
      obtain ⟨n', s', e1', e2', hc⟩ := hpres k z _ e4 (List.getElem?_eq_getElem hk')
      rw [e1] at e1'; cases e1'
      rw [e2] at e2'; cases e2'
      have hsm := List.mem_of_getElem? e2
      obtain ⟨hs1, hs2, hs3⟩ := hall s hsm
      obtain ⟨R, hR, hsend⟩ := (sendable_iff hs2 hs1 hs3 (hj _ hy s hsm)).mp ⟨z, e3, hc⟩
      refine ⟨R, s, hR, ?_, hsend⟩
      exact (taken_iff hne hj hkeys hr.chosen (by rw [List.getElem?_eq_getElem hk, hR]) (List.getElem?_eq_getElem hk')).mp ⟨n, e1, e2⟩
  · rintro ⟨rfl, xs, ys, ids, hdoc, hwr, hf, hso⟩
    have hx : xs = [] ∨ listHolds D "Resources" = some (.list xs) := hdoc.resources.imp (·.2) id
    obtain ⟨hj, hkeys⟩ := resources_known hb hx
    obtain ⟨x, i, hx1, hw1, n1, n2, n3⟩ := hdoc.total
    obtain ⟨strs, hne', hstrs, hurn⟩ := hdoc.lists
    have hli : ids.length = xs.length := by have := schemasFor_length hwr.chosen; rwa [List.length_map] at this
    have hvalid : ValidDoc .dump schema D := by
      refine valid_iff.mpr ⟨fun y hy => ?_, fun n hn y hy => ?_⟩
      · rw [hstrs] at hy; cases hy
        exact .inr ⟨strs, rfl, hurn⟩
      · simp only [List.mem_cons, List.not_mem_nil, or_false] at hn
        rcases hn with rfl | rfl | rfl
        · rw [hx1] at hy; cases hy
          exact .inr ⟨i, hw1⟩
        · rcases hdoc.position y hy with h | ⟨j, hj, -⟩
          · exact .inl h
          · exact .inr ⟨j, hj⟩
        · rcases hdoc.number y hy with h | ⟨j, hj, -⟩
          · exact .inl h
          · exact .inr ⟨j, hj⟩
    obtain ⟨b, hd⟩ := dump_clean hb hvalid (by
      rcases hdoc.resources with ⟨h1, -⟩ | h1
      · exact .inl h1
      · refine .inr ⟨xs, ids, h1, fun y j hy hwj => ?_, hwr.chosen, fun k x t hx ht => ?_⟩
        · rcases hdoc.number y hy with rfl | ⟨j', hj', hlen⟩
          · cases hwj
          · rw [Whole.unique hwj hj']
            exact hlen (by rw [h1]; simp)
        · obtain ⟨n, s, y, e1, e2, e3, -⟩ := hwr.each k x t hx ht
          exact ⟨n, s, y, e1, e2, e3⟩)
    obtain ⟨xs', ys', ids', hr⟩ := dump_read hwf hb hd
    have hxs : xs' = xs := by
      rcases hr.resources with ⟨h1, h2, -⟩ | ⟨h1, -⟩
      · rcases hdoc.resources with ⟨-, e⟩ | e
        · rw [h2, e]
        · rw [h1] at e; cases e
      · rcases hdoc.resources with ⟨e, -⟩ | e
        · rw [h1] at e; cases e
        · rw [h1] at e; cases e; rfl
    subst hxs
    obtain ⟨rfl, rfl⟩ := written_unique hwr ⟨hr.chosen, hr.lenY, hr.each⟩
    have hagain := again hne hlist hb hx hr.chosen hr.lenY hr.each
    obtain ⟨t, ht1, ht2⟩ := hr.numbers totalA (by simp)
    obtain ⟨s, hs1, hs2⟩ := hr.numbers startA (by simp)
    obtain ⟨p, hp1, hp2⟩ := hr.numbers itemsA (by simp)
    rw [show rep totalA.rep.attr = rep totalWord from rfl] at ht1 ht2
    rw [show rep startA.rep.attr = rep startWord from rfl] at hs1 hs2
    rw [show rep itemsA.rep.attr = rep itemsWord from rfl] at hp1 hp2
    obtain ⟨i', hi', hti⟩ : ∃ i', i' = i ∧ t.IsInt i' := by
      have hx1 : look (rep totalWord) D = some x := hx1
      rw [hx1] at ht2
      cases ht2 with
      | null => cases hw1
      | @number _ _ j hw hi => exact ⟨j, Whole.unique hw hw1, hi⟩
    subst hi'
    obtain ⟨is1, hcall⟩ := checker_total wf owned hr.fine {} .response
    have hsch := hr.lists
    rw [hstrs] at hsch
    have hz := (present_iff hcall ht1 ht2.invalid hsch rfl).mpr
      ⟨ht2.full.mpr ⟨x, _, hx1, hw1, hti⟩, by
        rintro (h | h | h | h)
        · cases h
        · cases h
        · exact hne' (List.map_eq_nil_iff.mp (Val.list.inj h))
        · cases h⟩
    have hz := eq_empty_of_noIssues (call_wf hcall) hz
    subst hz
    have hstart : s.truthy = true → validateStartIndex start s = .ok {} := by
      generalize ho : look (rep startWord) D = o at hs2
      cases hs2 with
      | absent => exact fun h => by cases h
      | null => exact fun h => by cases h
      | @number y _ j hw hi =>
        refine (start_iff hi).mpr ?_
        rcases hdoc.position y ho with rfl | ⟨j', hj', h⟩
        · cases hw
        · rwa [Whole.unique hw hj']
    obtain ⟨hnum, hpag⟩ := (numbers_iff (s := s) (p := p) (n := ys.length) (count := count) hti).mpr (by
      rw [hr.lenY]
      refine ⟨n1, n2, hdoc.few, fun n hn h0 hlt => ?_⟩
      obtain ⟨a1, a2⟩ := n3 n hn h0 hlt
      exact ⟨hs2.there.mpr a1, hp2.there.mpr a2⟩)
    have hpr : validateResourcesPresence (c.getD {}) ys schemas ids = .ok {} := by
      refine (presence_clean_iff (by rw [hr.lenI, hr.lenY])).mpr fun k z t hz ht => ?_
      have hk : k < xs'.length := by rw [← hr.lenY]; exact (List.getElem?_eq_some_iff.mp hz).1
      obtain ⟨n, s, z', e1, e2, e3, e4⟩ := hr.each k _ t (List.getElem?_eq_getElem hk) ht
      rw [e4] at hz; cases hz
      have hmem := List.getElem_mem hk
      obtain ⟨R, s', hR, htk, hsend⟩ := hdoc.each _ hmem
      obtain ⟨n', e1', e2'⟩ := (taken_iff hne hj hkeys hr.chosen (by rw [List.getElem?_eq_getElem hk, hR]) ht).mpr htk
      rw [e1] at e1'; cases e1'
      rw [e2] at e2'; cases e2'
      have hsm := List.mem_of_getElem? e2
      obtain ⟨hs1, hs2, hs3⟩ := hall s hsm
      obtain ⟨z', e3', hc⟩ := (sendable_iff hs2 hs1 hs3 (hj _ hmem s hsm)).mpr ⟨R, hR, hsend⟩
      rw [e3] at e3'; cases e3'
      exact ⟨n, s, e1, e2, hc⟩
    have hres : (b.getItem (rep resourcesWord) = .ok .missing ∧ ys = []) ∨ b.getItem (rep resourcesWord) = .ok (.list ys) := by
      rcases hr.resources with ⟨-, -, h2, h3⟩ | ⟨-, h2, -⟩
      · exact .inl ⟨h3, h2⟩
      · exact .inr h2
    have := dumpList_of (headers := headers) (c := c) hd hcall hs1 hstart hres ht1 hp1 hnum hpag hagain hf hso hpr
    rw [h] at this
    cases this
    rfl

/-- The resources of a list response are written. -/
theorem written_of {schemas : List Schema} (hne : schemas ≠ [])
    (hall : ∀ s ∈ schemas, s.Listable ∧ Proper s ∧ s.isResource = true) {D : List (Str × Val)} (hb : ListBody schemas D)
    {start : Int} {count : Option Int} {c : Checker} {xs : List Val} (hdoc : ListDoc schemas start count c D xs) :
    ∃ ys ids, Written schemas xs ys ids := by
  have hx : xs = [] ∨ listHolds D "Resources" = some (.list xs) := hdoc.resources.imp (·.2) id
  obtain ⟨hj, hkeys⟩ := resources_known hb hx
  obtain ⟨ids, hids⟩ := schemasFor_total hne hj hkeys
  have hli : ids.length = xs.length := by have := schemasFor_length hids; rwa [List.length_map] at this
  have hex : ∀ (k : Nat) x t, xs[k]? = some x → ids[k]? = some t → ∃ n s y, t = some n ∧ schemas[n]? = some s ∧ s.dump x = .ok (y, {}) := by
    intro k x t hxk ht
    have hmem := List.mem_of_getElem? hxk
    obtain ⟨R, s, rfl, htk, hsend⟩ := hdoc.each _ hmem
    obtain ⟨n, e1, e2⟩ := (taken_iff hne hj hkeys hids hxk ht).mpr htk
    have hsm := List.mem_of_getElem? e2
    obtain ⟨hs1, hs2, hs3⟩ := hall s hsm
    obtain ⟨y, e3, -⟩ := (sendable_iff hs2 hs1 hs3 (hj _ hmem s hsm)).mpr ⟨R, rfl, hsend⟩
    exact ⟨n, s, y, e1, e2, e3⟩
  obtain ⟨ys, hys⟩ := dumpLoop_clean xs ids 0 hli hex
  obtain ⟨hl, -, hk⟩ := dumpLoop_spec (fun s hs => ⟨(hall s hs).1.wf, (hall s hs).2.1.sane⟩)
    (by rw [List.length_map]; exact hli) WF.empty hys
  refine ⟨ys, ids, hids, by rwa [List.length_map] at hl, fun k x t hx ht => ?_⟩
  obtain ⟨n, s, y, e1, e2, e3, e4⟩ := (hk rfl).2 k (asItem x) t (by rw [List.getElem?_map, hx]; rfl) ht
  rw [dump_asItem] at e3
  exact ⟨n, s, y, e1, e2, e3, e4⟩

end ListA
end Scim
