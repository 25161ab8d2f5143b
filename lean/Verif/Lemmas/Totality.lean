import Verif.Spec.Totality
import Verif.Props.Types
import Verif.Props.Equality
import Verif.Props.Schemas

/-! Helper lemmas for totality (C34). -/

namespace Scim
variable [PyEnv]

mutual
/-- Tame values after conversion of dictionaries to containers. -/
def Val.TameC : Val → Prop
  | .prim _ => True
  | .list xs => TameCList xs
  | .cont data lc => CInv data lc ∧ aget (lower []) lc = none ∧ TameCPairs data
  | _ => True
/-- all items are tame -/
def TameCList : List Val → Prop
  | [] => True
  | v :: r => v.TameC ∧ TameCList r
/-- all values are tame -/
def TameCPairs : List (Str × Val) → Prop
  | [] => True
  | (_, v) :: r => v.TameC ∧ TameCPairs r
end

theorem tameCList_iff {xs : List Val} : TameCList xs ↔ ∀ x ∈ xs, x.TameC := by
  induction xs with
  | nil => simp [TameCList]
  | cons x xs ih => simp [TameCList, ih]

theorem tameCPairs_iff {kvs : List (Str × Val)} : TameCPairs kvs ↔ ∀ p ∈ kvs, p.2.TameC := by
  induction kvs with
  | nil => simp [TameCPairs]
  | cons x xs ih => obtain ⟨k, v⟩ := x; simp [TameCPairs, ih]

theorem lower_nil : lower [] = [] := (PyEnv.lower_eq_nil []).mpr rfl

theorem cont_of_dict {kvs : List (Str × Val)} (hn : (kvs.map (·.1)).Nodup) (he : [] ∉ kvs.map (·.1)) :
    CInv (convPairs kvs) (lcOf (kvs.map (·.1))) ∧ aget (lower []) (lcOf (kvs.map (·.1))) = none := by
  refine ⟨CInv.ofDict kvs hn, aget_lcOf_none ?_⟩
  intro k hk e
  rw [lower_nil, PyEnv.lower_eq_nil] at e
  exact he (e ▸ hk)

mutual
theorem convVal_tame : ∀ (v : Val), v.Tame → (convVal v).TameC
  | .prim p, _ => by simp [convVal, Val.TameC]
  | .list xs, h => by
    simp only [Val.Tame] at h
    simp only [convVal, Val.TameC]
    exact convItems_tame xs h
  | .dict kvs, h => by
    simp only [Val.Tame] at h
    simp only [convVal, Val.TameC]
    exact ⟨(cont_of_dict h.1 h.2.1).1, (cont_of_dict h.1 h.2.1).2, convPairs_tame kvs h.2.2⟩
  | .missing, h => by simp [Val.Tame] at h
  | .invalid, h => by simp [Val.Tame] at h
  | .cont _ _, h => by simp [Val.Tame] at h
  | .dt _, _ => by simp only [convVal, Val.TameC]
  | .obj _, h => by simp [Val.Tame] at h
theorem convPairs_tame : ∀ (kvs : List (Str × Val)), TamePairs kvs → TameCPairs (convPairs kvs)
  | [], _ => by simp [convPairs, TameCPairs]
  | (k, v) :: r, h => by
    simp only [TamePairs] at h
    simp only [convPairs, TameCPairs]
    exact ⟨convVal_tame v h.1, convPairs_tame r h.2⟩
theorem convItems_tame : ∀ (xs : List Val), TameList xs → TameCList (convItems xs)
  | [], _ => by simp [convItems, TameCList]
  | .dict kvs :: r, h => by
    simp only [TameList, Val.Tame] at h
    simp only [convItems, TameCList, Val.TameC]
    exact ⟨⟨(cont_of_dict h.1.1 h.1.2.1).1, (cont_of_dict h.1.1 h.1.2.1).2, convPairs_tame kvs h.1.2.2⟩,
      convItems_tame r h.2⟩
  | .prim p :: r, h => by
    simp only [TameList, Val.Tame] at h
    simp only [convItems, TameCList, Val.TameC]
    exact ⟨h.1, convItems_tame r h.2⟩
  | .list xs :: r, h => by
    simp only [TameList, Val.Tame] at h
    simp only [convItems, TameCList, Val.TameC]
    exact ⟨tame_of_list xs h.1, convItems_tame r h.2⟩
  | .missing :: _, h => by simp [TameList, Val.Tame] at h
  | .invalid :: _, h => by simp [TameList, Val.Tame] at h
  | .cont _ _ :: _, h => by simp [TameList, Val.Tame] at h
  | .dt _ :: r, h => by
    simp only [TameList, Val.Tame] at h
    simp only [convItems, TameCList, Val.TameC]
    exact ⟨h.1, convItems_tame r h.2⟩
  | .obj _ :: _, h => by simp [TameList, Val.Tame] at h
theorem tame_of_list : ∀ (xs : List Val), TameList xs → TameCList xs
  | [], _ => by simp [TameCList]
  | v :: r, h => by
    simp only [TameList] at h
    simp only [TameCList]
    exact ⟨tame_of v h.1, tame_of_list r h.2⟩
theorem tame_of : ∀ (v : Val), v.Tame → v.TameC
  | .prim p, _ => by simp [Val.TameC]
  | .list xs, h => by
    simp only [Val.Tame] at h
    simp only [Val.TameC]
    exact tame_of_list xs h
  | .dict kvs, h => by simp [Val.TameC]
  | .missing, h => by simp [Val.Tame] at h
  | .invalid, h => by simp [Val.Tame] at h
  | .cont _ _, h => by simp [Val.Tame] at h
  | .dt _, _ => by simp [Val.TameC]
  | .obj _, h => by simp [Val.Tame] at h
end

/-- Reading a name without sub-attribute from a tame container, when a key named like the schema holds a
container. -/
theorem getItem_tame {data : List (Str × Val)} {lc : List (Str × Str)} (h : (Val.cont data lc).TameC) (r : AttrRep)
    (hs : r.sub = []) (hu : ∀ k v, aget (lower r.schema) lc = some k → aget k data = some v → v.isCont = true) :
    ∃ x, (Val.cont data lc).getItem r = .ok x ∧ x.TameC := by
  have key : ∀ {d l} {q : AttrRep}, (Val.cont d l).TameC → aget (lower q.schema) l = none → q.sub = [] →
      ∃ x, (Val.cont d l).getItem q = .ok x ∧ x.TameC := by
    intro d l q hc hn hq
    rw [getItem_noKey (r := q) hn, hq]
    simp only [Val.TameC] at hc
    cases hk : aget (lower q.attr) l with
    | none => exact ⟨.missing, rfl, by simp [Val.TameC]⟩
    | some k =>
      obtain ⟨_, hmem⟩ := hc.1.sound _ _ hk
      rw [← aget_isSome_iff, Option.isSome_iff_exists] at hmem
      obtain ⟨v, hv⟩ := hmem
      refine ⟨v, by simp [hv], tameCPairs_iff.mp hc.2.2 _ (mem_of_aget hv)⟩
  cases hk : aget (lower r.schema) lc with
  | none => exact key h hk hs
  | some k =>
    have hc := h
    simp only [Val.TameC] at hc
    obtain ⟨_, hmem⟩ := hc.1.sound _ _ hk
    rw [← aget_isSome_iff, Option.isSome_iff_exists] at hmem
    obtain ⟨v, hv⟩ := hmem
    have hvt := tameCPairs_iff.mp hc.2.2 _ (mem_of_aget hv)
    have hvc := hu k v hk hv
    cases v with
    | cont d l =>
      obtain ⟨x, hx, ht⟩ := key (q := { attr := r.attr, sub := r.sub }) hvt (by simp only [Val.TameC] at hvt; exact hvt.2.1) hs
      refine ⟨x, ?_, ht⟩
      rw [← hx]
      simp only [Val.getItem]
      rw [Val.getX]
      simp only [Bool.false_and, Bool.false_eq_true, if_false, hk]
      rw [getAt_eq, hv]
    | _ => simp [Val.isCont] at hvc

variable {m : Mode}

theorem conv_total (t : AttrType) (v : Val) (hb : t.Handles v) : ∃ o, t.conv m v = .ok o := by
  cases hc : t.conv m v with
  | ok o => exact ⟨o, rfl⟩
  | error e =>
    exfalso
    have hc : t.parse v = .error e := by
      cases m with
      | parse => exact hc
      | dump => exact (C22_dump_raises_iff t v e).mp hc
    rcases (C22_parse_raises_iff t v e).mp hc with ⟨rfl, _, rfl, _⟩ | ⟨rfl, rfl, _⟩ | ⟨rfl, i, rfl, hi, _⟩ |
      ⟨rfl, s, rfl, ⟨c, hc, hc'⟩, _⟩
    · obtain ⟨q, e⟩ := hb _ rfl; cases e
    · obtain ⟨q, e⟩ := hb _ rfl; cases e
    · have := hb i rfl; omega
    · have := hb s rfl c hc; omega

theorem processOne_total (a : AttrInfo) (loc : Loc) (v : Val) (is : Issues) (hb : a.type.Handles v) :
    ∃ o, a.processOne m loc v is = .ok o := by
  obtain ⟨⟨r, i⟩, hr⟩ := conv_total a.type v hb
  unfold AttrInfo.processOne
  rw [hr]
  simp only
  split <;> exact ⟨_, rfl⟩

theorem processItems_total (a : AttrInfo) (k : Nat) (xs : List Val) (is : Issues)
    (hb : ∀ x ∈ xs, a.type.Handles x) : ∃ o, a.processItems m k xs is = .ok o := by
  cases hp : a.processItems m k xs is with
  | ok o => exact ⟨o, rfl⟩
  | error e =>
    obtain ⟨x, hx, hc⟩ := processItems_error hp
    obtain ⟨o, ho⟩ := conv_total a.type x (hb x hx)
    rw [ho] at hc; cases hc

/-- The first part of processing: everything but the post-processors. -/
theorem info_total (a : AttrInfo) (v : Val)
    (hb : a.type.Handles v ∧ ∀ xs, v = .list xs → ∀ x ∈ xs, a.type.Handles x)
    (hp : a.procs m = [] ∨ (a.type = .string ∧ a.multi = false ∧ a.procs m = [bulkIdValidator])) :
    ∃ o, a.process m v = .ok o := by
  by_cases hn : v.isNone = true
  · exact ⟨_, by unfold AttrInfo.process; rw [hn]; rfl⟩
  · rw [Bool.not_eq_true] at hn
    rcases hp with hp | ⟨ht, hm, hp⟩
    · unfold AttrInfo.process
      rw [hn]
      simp only [Bool.false_eq_true, if_false, hp, runProcs]
      cases hmu : a.multi with
      | true =>
        cases v with
        | list xs =>
          obtain ⟨o, ho⟩ := processItems_total (m := m) a 0 xs {} (hb.2 xs rfl)
          simp only [ho, if_true]
          split <;> exact ⟨_, rfl⟩
        | _ => exact ⟨_, rfl⟩
      | false =>
        obtain ⟨o, ho⟩ := processOne_total (m := m) a [] v {} hb.1
        simp only [ho, Bool.false_eq_true, if_false]
        split <;> exact ⟨_, rfl⟩
    · obtain ⟨⟨q, is⟩, ho⟩ := processOne_total (m := m) a [] v {} hb.1
      have hq : is.hasIssues = false → ∃ s, q = .str s := by
        intro hni
        unfold AttrInfo.processOne at ho
        rw [ht] at ho
        have hconv : AttrType.string.conv m = stringConv := by cases m <;> rfl
        rw [hconv] at ho
        by_cases hs : ∃ s, v = .str s
        · obtain ⟨s, rfl⟩ := hs
          simp only [stringConv] at ho
          split at ho
          · cases ho; rw [Issues.hasIssues_add] at hni; cases hni
          · cases ho; exact ⟨s, rfl⟩
        · have hb : stringConv v = .ok badType := by
            unfold stringConv
            split
            · exact absurd ⟨_, rfl⟩ hs
            · rfl
          rw [hb] at ho
          simp only [badType] at ho
          simp only [AttrInfo.isCanonical, Bool.not_true, Bool.false_and, Bool.false_eq_true, if_false] at ho
          cases ho
          rw [Issues.hasIssues_merge_false] at hni
          have := hni.2
          rw [blocking, Issues.hasIssues_add] at this; cases this
      unfold AttrInfo.process
      rw [hn]
      simp only [Bool.false_eq_true, if_false, hp, hm, ho]
      split
      · exact ⟨_, rfl⟩
      · rename_i hno
        obtain ⟨s, rfl⟩ := hq (by simpa using hno)
        simp only [runProcs, bulkIdValidator]
        split
        · rename_i hh2; split at hh2 <;> cases hh2
        · exact ⟨_, rfl⟩

theorem standardAll_iff {as : List Attr} : StandardAll m as ↔ ∀ a ∈ as, a.Standard m := by
  induction as with
  | nil => simp [StandardAll]
  | cons x xs ih => simp [StandardAll, ih]

theorem blocking_not_proceed (c : Nat) : (blocking c).canProceed = false := by
  rfl

theorem blocking_not_proceed' (c : Nat) : (Issues.merge {} (blocking c)).canProceed = false := by
  rfl

/-- The loop over the sub-attributes does not raise when none of them does. -/
theorem processSubs_total (ss : List Attr) (hp : ∀ s ∈ ss, s.rep.Plain) (hn : (ss.map (fun s => s.rep.attr)).Nodup)
    (loc : Loc) (item : Val) (entries : List (Str × Val)) (acc : Issues)
    (hf : ∀ s ∈ ss, s.rep.attr ∉ entries.map (·.1))
    (hok : ∀ s ∈ ss, ∃ x, item.getItem s.rep = .ok x ∧ ∃ o, s.process m x = .ok o) :
    ∃ o, processSubs m ss loc item (mkCont entries) acc = .ok o := by
  induction ss generalizing entries acc with
  | nil => exact ⟨_, by rw [processSubs]⟩
  | cons s ss ih =>
    simp only [List.map_cons, List.nodup_cons] at hn
    have ihp : ∀ s ∈ ss, s.rep.Plain := fun t ht => hp t (List.mem_cons_of_mem _ ht)
    have ihok := fun t (ht : t ∈ ss) => hok t (List.mem_cons_of_mem _ ht)
    obtain ⟨x, hx, ⟨⟨y, i⟩, ho⟩⟩ := hok s (by simp)
    rw [processSubs, hx]
    by_cases hm : x = .missing
    · subst hm
      exact ih ihp hn.2 entries acc (fun t ht => hf t (List.mem_cons_of_mem _ ht)) ihok
    · have := ih ihp hn.2 (entries ++ [(s.rep.attr, y)]) (acc.merge i (loc ++ [.name s.rep.attr])) (by
          intro t ht
          simp only [List.map_append, List.map_cons, List.map_nil, List.mem_append, List.mem_singleton, not_or]
          refine ⟨hf t (List.mem_cons_of_mem _ ht), ?_⟩
          intro e
          exact hn.1 (e ▸ List.mem_map.mpr ⟨t, ht, rfl⟩)) ihok
      have hset := mkCont_set entries s.rep (hp s (by simp)).2.2 (hp s (by simp)).2.1 y (hf s (by simp))
      cases x <;> first | exact absurd rfl hm | simpa [ho, hset] using this

theorem primary_parse : AttrRep.parse "primary".toList = some { attr := "primary".toList } := by
  apply parse_wordRun
  have h : ∀ c ∈ "primary".toList, c.toNat < 128 ∧ asciiWord c = true := by decide +kernel
  refine ⟨by decide +kernel, ?_⟩
  intro c hc
  rw [PyEnv.isWord_ascii c (h c hc).1]; exact (h c hc).2

/-- Items of a multi-valued complex attribute are containers or `Invalid`. -/
theorem complexItem_conts {info : AttrInfo} (ht : info.type = .complex) (hv : info.validateCanon = false)
    (k : Nat) (xs ys : List Val) (s is : Issues) (h : info.processItems m k xs s = .ok (ys, is)) :
    ∀ y ∈ ys, y = .invalid ∨ (y ∈ xs ∧ y.isCont = true) := by
  induction xs generalizing k ys s is with
  | nil => simp only [AttrInfo.processItems] at h; cases h; simp
  | cons x xs ih =>
    simp only [AttrInfo.processItems] at h
    split at h
    · cases h
    · rename_i item i1 ho
      split at h
      · cases h
      · rename_i items i2 hr
        cases h
        intro y hy
        rcases List.mem_cons.mp hy with rfl | hy
        · unfold AttrInfo.processOne at ho
          rw [ht, complex_conv] at ho
          by_cases hc : x.isCont = true
          · simp only [hc, if_true, hv, Bool.and_false, Bool.false_eq_true, if_false] at ho
            cases ho
            exact .inr ⟨by simp, hc⟩
          · simp only [hc, if_false, hv, Bool.and_false, Bool.false_eq_true, badType] at ho
            cases ho
            exact .inl rfl
        · rcases ih _ _ _ _ hr y hy with h | ⟨h1, h2⟩
          · exact .inl h
          · exact .inr ⟨List.mem_cons_of_mem _ h1, h2⟩

/-- The output of the loop over the items: each item is a container made of declared sub-attributes. -/
theorem complexItems_total {subs : List Attr} (hs : PlainSubs subs) (k : Nat) (xs : List Val) (is : Issues)
    (hok : ∀ x ∈ xs, ∀ s ∈ subs, ∃ y, x.toCont.getItem s.rep = .ok y ∧ ∃ o, s.process m y = .ok o) :
    ∃ ys is', complexItems (fun loc item is => processSubs m subs loc item .emptyCont is) k xs is = .ok (ys, is') ∧
      ∀ y ∈ ys, ∃ z, y.getName "primary".toList = .ok z := by
  induction xs generalizing k is with
  | nil => exact ⟨[], is, rfl, by simp⟩
  | cons x xs ih =>
    obtain ⟨⟨r, i1⟩, h1⟩ := processSubs_total subs hs.plain (lower_nodup_attr hs.distinct) [.idx k] x.toCont [] is (by simp)
      (hok x (by simp))
    rw [mkCont_nil] at h1
    obtain ⟨ys, i2, h2, h3⟩ := ih (k + 1) i1 (fun x hx => hok x (List.mem_cons_of_mem _ hx))
    refine ⟨r :: ys, i2, ?_, ?_⟩
    · simp [complexItems, h1, h2]
    · intro y hy
      rcases List.mem_cons.mp hy with rfl | hy
      · have hsp := (processSubs_spec subs [.idx k] x.toCont [] is y i1 hs.plain (lower_nodup_attr hs.distinct) (by simp)
          (by rw [mkCont_nil]; exact h1)).1
        rw [List.nil_append] at hsp
        generalize he : (subs.filterMap (subOut m x.toCont)).map (fun o => (o.1, o.2.1)) = es at hsp
        have hnames : ∀ e ∈ es.map (·.1), e ≠ [] := by
          subst he
          intro e hm
          simp only [List.map_map, List.mem_map, List.mem_filterMap, Function.comp] at hm
          obtain ⟨o, ⟨s, hs', ho⟩, rfl⟩ := hm
          have hn := subOut_name ho
          have := hs.named s hs'
          rw [← hn] at this
          exact this
        rw [hsp, mkCont]
        simp only [Val.getName, primary_parse]
        rw [getItem_noKey (r := { attr := "primary".toList }) (aget_lcOf_none (fun k hk e => hnames k hk (by
          rw [lower_nil, PyEnv.lower_eq_nil] at e; exact e)))]
        dsimp only
        cases hl : aget (lower "primary".toList) (lcOf (es.map (·.1))) with
        | none => exact ⟨_, rfl⟩
        | some k =>
          obtain ⟨_, hk⟩ := lcOf_sound _ _ _ hl
          rw [← aget_isSome_iff, Option.isSome_iff_exists] at hk
          obtain ⟨v, hv⟩ := hk
          exact ⟨v, by simp [hv]⟩
      · exact h3 y hy

/-- Reading a declared sub-attribute from a tame container. -/
theorem sub_read {v : Val} (h : v.TameC) (hc : v.isCont = true) (s : Attr) (hp : s.rep.Plain) :
    ∃ x, v.toCont.getItem s.rep = .ok x ∧ x.TameC := by
  cases v with
  | cont d l =>
    apply getItem_tame h s.rep hp.2.1
    intro k v hk
    have hn := h
    simp only [Val.TameC] at hn
    rw [hp.1, hn.2.1] at hk
    cases hk
  | _ => simp [Val.isCont] at hc

theorem single_primary_procs {ps : List Proc} (hps : ∀ p ∈ ps, p = validateSinglePrimary) (xs : List Val)
    (hx : ∀ x ∈ xs, ∃ y, x.getName "primary".toList = .ok y) (is : Issues) :
    ∃ o, runProcs ps (.list xs) is = .ok o := by
  induction ps generalizing is with
  | nil => exact ⟨_, rfl⟩
  | cons p ps ih =>
    obtain ⟨i, hi⟩ := C26_total xs hx
    rw [runProcs, hps p (by simp), hi]
    exact ih (fun p hp => hps p (List.mem_cons_of_mem _ hp)) _

theorem handlesAll_iff {as : List Attr} {v : Val} :
    HandlesAll as v ↔ ∀ a ∈ as, ∀ x, v.getItem a.rep = .ok x → a.Handles x := by
  induction as with
  | nil => simp [HandlesAll]
  | cons a as ih => simp [HandlesAll, ih]

/-- The attributes handle what is neither a number nor a text, list or object. -/
theorem handles_of_prim {a : Attr} {v : Val} (h0 : ∀ p, v = .prim p → p = .none) (h2 : v.isCont = false) (h3 : ∀ xs, v ≠ .list xs) :
    a.Handles v := by
  cases a with
  | simple i =>
    refine ⟨?_, fun xs e => absurd e (h3 xs)⟩
    cases i.type <;> first | trivial | (intro s e; cases h0 _ e)
  | complex i subs ps ds => exact ⟨fun e => (by rw [h2] at e; cases e), fun xs e => absurd e (h3 xs)⟩

theorem handles_missing (a : Attr) : a.Handles .missing := handles_of_prim (fun _ => nofun) rfl (fun _ => nofun)
theorem handles_null (a : Attr) : a.Handles .null := handles_of_prim (fun _ e => by cases e; rfl) rfl (fun _ => nofun)

mutual
/-- Standard attributes accept every tame value, with ASCII texts for binary attributes, without raising. -/
theorem process_total : ∀ (a : Attr), a.Standard m → ∀ (v : Val), v.TameC → a.Handles v → ∃ o, a.process m v = .ok o
  | .simple i, hs, v, hv, hb => by
    simp only [Attr.Standard] at hs
    rw [Attr.process]
    exact info_total i v hb hs
  | .complex info subs ps ds, hs, v, hv, hb => by
    simp only [Attr.Standard] at hs
    simp only [Attr.Handles] at hb
    obtain ⟨ht, hvc, hpar, hps, hpl, hsubs⟩ := hs
    have hall := process_total_all subs hsubs
    rw [complex_process_eq]
    obtain ⟨⟨value, issues⟩, hinfo⟩ := info_total info v (by rw [ht]; exact ⟨trivial, fun _ _ _ _ => trivial⟩) (.inl hpar)
    rw [hinfo]
    simp only
    split
    · exact ⟨_, rfl⟩
    · rename_i hcp
      simp only [Bool.or_eq_true, Bool.not_eq_true', not_or, Bool.not_eq_false, Bool.not_eq_true] at hcp
      have hread : ∀ x : Val, x.TameC → (x = .invalid ∨ x.isCont = true ∧ HandlesAll subs x) → ∀ s ∈ subs,
          ∃ y, x.toCont.getItem s.rep = .ok y ∧ ∃ o, s.process m y = .ok o := by
        intro x hx hc s hs
        rcases hc with rfl | ⟨hc, hbx⟩
        · refine ⟨.missing, ?_, hall s hs _ (by simp [Val.TameC]) (handles_missing s)⟩
          rw [Val.toCont, getItem_noKey (r := s.rep) rfl] <;> first | rfl | simp
        · obtain ⟨y, hy, hyt⟩ := sub_read hx hc s (hpl.plain s hs)
          refine ⟨y, hy, hall s hs y hyt (handlesAll_iff.mp hbx s hs y ?_)⟩
          rw [← hy]
          cases x <;> first | rfl | cases hc
      have hnone : v.isNone = false := by
        cases hvn : v.isNone with
        | false => rfl
        | true =>
          unfold AttrInfo.process at hinfo
          rw [hvn] at hinfo
          cases hinfo
          rw [hvn] at hcp; simp at hcp
      unfold AttrInfo.process at hinfo
      rw [hnone] at hinfo
      simp only [Bool.false_eq_true, if_false, hpar, runProcs, ite_self] at hinfo
      unfold complexBody
      cases hmu : info.multi with
      | true =>
        rw [hmu] at hinfo
        simp only [if_true] at hinfo ⊢
        cases v with
        | list xs =>
          simp only at hinfo
          split at hinfo
          · cases hinfo
          · rename_i hh; split at hh <;> cases hh
          · rename_i p is hh
            split at hh
            · cases hh
            · rename_i items is' hit
              cases hh; cases hinfo
              have hi := complexItem_conts ht hvc _ _ _ _ _ hit
              simp only [Val.TameC] at hv
              obtain ⟨ys, is2, h1, h2⟩ := complexItems_total hpl 0 items issues (by
                intro x hx
                rcases hi x hx with rfl | ⟨hm, hc⟩
                · exact hread _ (by simp [Val.TameC]) (.inl rfl)
                · exact hread x (tameCList_iff.mp hv x hm) (.inr ⟨hc, hb.2 xs rfl x hm hc⟩))
              simp only [h1]
              split
              · exact ⟨_, rfl⟩
              · exact single_primary_procs (fun p hp => (hps p hp).1) ys h2 _
        | _ =>
          simp only at hinfo
          cases hinfo
          simp [blocking_not_proceed] at hcp
      | false =>
        rw [hmu] at hinfo
        simp only [Bool.false_eq_true, if_false] at hinfo ⊢
        have hps' : (Attr.complex info subs ps ds).cprocs m = [] := by
          cases hpe : (Attr.complex info subs ps ds).cprocs m with
          | nil => rfl
          | cons p r => have := (hps p (by simp [hpe])).2; rw [hmu] at this; cases this
        rw [hps']
        unfold AttrInfo.processOne at hinfo
        rw [ht, complex_conv] at hinfo
        by_cases hc : v.isCont = true
        · simp only [hc, if_true, hvc, Bool.and_false, Bool.false_eq_true, if_false] at hinfo
          cases hinfo
          obtain ⟨o, ho⟩ := processSubs_total subs hpl.plain (lower_nodup_attr hpl.distinct) [] v.toCont []
            (Issues.merge {} {}) (by simp) (hread v hv (.inr ⟨hc, hb.1 hc⟩))
          rw [mkCont_nil] at ho
          rw [ho]
          simp only [runProcs, ite_self]
          exact ⟨_, rfl⟩
        · simp only [hc, if_false, hvc, Bool.and_false, Bool.false_eq_true, badType] at hinfo
          cases hinfo
          simp [blocking_not_proceed'] at hcp
theorem process_total_all : ∀ (as : List Attr), StandardAll m as → ∀ a ∈ as, ∀ (v : Val), v.TameC → a.Handles v →
    ∃ o, a.process m v = .ok o
  | [], _ => by simp
  | a :: r, hs => by
    simp only [StandardAll] at hs
    intro b hb
    rcases List.mem_cons.mp hb with hb' | hb
    · rw [hb']; exact fun v hv hb => process_total a hs.1 v hv hb
    · exact process_total_all r hs.2 b hb
end


/-- types that handle every value -/
def AttrType.easy : AttrType → Bool
  | .binary => false
  | .decimal => false
  | .integer => false
  | _ => true

theorem AttrType.handles_of_easy {t : AttrType} (h : t.easy = true) (v : Val) : t.Handles v := by
  cases t <;> first | trivial | cases h

mutual
/-- attributes of such types, at any depth -/
def Attr.easy : Attr → Bool
  | .simple i => i.type.easy
  | .complex _ subs _ _ => easyAll subs
/-- all attributes are of such types -/
def easyAll : List Attr → Bool
  | [] => true
  | a :: r => a.easy && easyAll r
end

mutual
theorem handles_of_easy : ∀ (a : Attr), a.easy = true → ∀ v, a.Handles v
  | .simple i, h, v => ⟨AttrType.handles_of_easy h v, fun _ _ x _ => AttrType.handles_of_easy h x⟩
  | .complex i subs ps ds, h, v => by
    simp only [Attr.easy] at h
    exact ⟨fun _ => handlesAll_of_easy subs h v, fun _ _ x _ _ => handlesAll_of_easy subs h x⟩
theorem handlesAll_of_easy : ∀ (as : List Attr), easyAll as = true → ∀ v, HandlesAll as v
  | [], _, _ => trivial
  | a :: r, h, v => by
    simp only [easyAll, Bool.and_eq_true] at h
    exact ⟨fun x _ => handles_of_easy a h.1 x, handlesAll_of_easy r h.2 v⟩
end

/-- `AttrType.Handles` as a test -/
def AttrType.handlesB : AttrType → Val → Bool
  | .binary, .prim (.str s) => s.all (fun c => decide (c.toNat < 128))
  | .decimal, .prim (.int i) => decide (i.natAbs < floatLimit)
  | .integer, .prim (.flt (.fin _)) => true
  | .integer, .prim (.flt _) => false
  | _, _ => true

theorem AttrType.handles_of_test {t : AttrType} {v : Val} (h : t.handlesB v = true) : t.Handles v := by
  cases t <;> try trivial
  · rintro i rfl
    simpa [AttrType.handlesB] using h
  · rintro f rfl
    cases f <;> first | exact ⟨_, rfl⟩ | simp [AttrType.handlesB] at h
  · rintro s rfl c hc
    simpa using List.all_eq_true.mp h c hc

mutual
/-- `Attr.Handles` as a test -/
def Attr.handlesB : Attr → Val → Bool
  | .simple i, v => i.type.handlesB v && (match v with
      | .list xs => xs.all (fun x => i.type.handlesB x)
      | _ => true)
  | .complex _ subs _ _, v => match v with
      | .cont d l => handlesAllB subs (.cont d l)
      | .list xs => xs.all (fun x => !x.isCont || handlesAllB subs x)
      | _ => true
/-- `HandlesAll` as a test -/
def handlesAllB : List Attr → Val → Bool
  | [], _ => true
  | a :: r, v => (match v.getItem a.rep with | .ok x => a.handlesB x | .error _ => true) && handlesAllB r v
end

mutual
theorem handles_of_test : ∀ (a : Attr) (v : Val), a.handlesB v = true → a.Handles v
  | .simple i, v, h => by
    simp only [Attr.handlesB, Bool.and_eq_true] at h
    refine ⟨AttrType.handles_of_test h.1, ?_⟩
    rintro xs rfl x hx
    exact AttrType.handles_of_test (List.all_eq_true.mp h.2 _ hx)
  | .complex i subs ps ds, v, h => by
    simp only [Attr.handlesB] at h
    refine ⟨?_, ?_⟩
    · intro hc
      cases v with
      | cont d l => exact handlesAll_of_test subs _ h
      | _ => cases hc
    · rintro xs rfl x hx hc
      have := List.all_eq_true.mp h _ hx
      rw [hc] at this
      exact handlesAll_of_test subs x (by simpa using this)
theorem handlesAll_of_test : ∀ (as : List Attr) (v : Val), handlesAllB as v = true → HandlesAll as v
  | [], _, _ => trivial
  | a :: r, v, h => by
    simp only [handlesAllB, Bool.and_eq_true] at h
    refine ⟨fun x hx => ?_, handlesAll_of_test r v h.2⟩
    have := h.1
    rw [hx] at this
    exact handles_of_test a x this
end

end Scim
