import Verif.Lemmas.PatchWhole

/-! # Patch requests: operations and documents -/

namespace Scim.PatchA
open Issues V Valid Declared
variable [PyEnv]

theorem conv_str {x : Val} {w : Str} : convVal x = .str w ↔ x = .str w := by
  cases x <;> simp [convVal, Val.str]

theorem conv_none {x : Val} (h : x.Tame) : (convVal x).isNoneOrMissing = true ↔ x = .null := by
  cases x with
  | prim p => cases p <;> simp [convVal, Val.isNoneOrMissing, Val.null]
  | _ => simp [convVal, Val.isNoneOrMissing, Val.Tame, Val.null] at h ⊢

theorem convPairs_mem : ∀ {D : List (Str × Val)} {k : Str} {y : Val}, (k, y) ∈ convPairs D ↔ ∃ v, (k, v) ∈ D ∧ y = convVal v
  | [], k, y => by simp [convPairs]
  | (k', v') :: D, k, y => by
    rw [convPairs, List.mem_cons, convPairs_mem]
    simp only [List.mem_cons, Prod.mk.injEq]
    constructor
    · rintro (⟨rfl, rfl⟩ | ⟨v, h, rfl⟩)
      · exact ⟨v', .inl ⟨rfl, rfl⟩, rfl⟩
      · exact ⟨v, .inr h, rfl⟩
    · rintro ⟨v, ⟨rfl, rfl⟩ | h, rfl⟩
      · exact .inl ⟨rfl, rfl⟩
      · exact .inr ⟨v, h, rfl⟩

theorem ordinary_cont {r : Schema} {D D' : List (Str × Val)} (h : Ordinary r D') (ht : (Val.dict D).Tame)
    (e : (Val.dict D).toCont = (Val.dict D').toCont) : Ordinary r D := by
  refine ⟨ht, fun k v hk u hu el => ?_, fun x hx => h.schemas x (by rw [← e]; exact hx), by rw [e]; exact h.handled⟩
  have e1 : convPairs D = convPairs D' := by
    simp only [Val.toCont, Val.cont.injEq] at e
    exact e.1
  obtain ⟨v', hv', ev⟩ := convPairs_mem.mp (e1 ▸ convPairs_mem.mpr ⟨v, hk, rfl⟩)
  have hd := h.urns k v' hv' u hu el
  have htv : v.Tame := by
    unfold Val.Tame at ht
    exact tamePairs_iff.mp ht.2.2 _ hk
  cases v' <;> simp [Val.isDict] at hd
  cases v <;> simp [convVal, Val.Tame, Val.isDict] at ev htv ⊢

/-- The operation as a container. -/
abbrev box (E : List (Str × Val)) : Val := (Val.dict E).toCont

theorem said_op {E : List (Str × Val)} (ht : (Val.dict E).Tame) {t : Val} (h : (box E).getItem { attr := opWord } = .ok t) (w : Str) :
    t = .str w ↔ says "op" E = some (.str w) := by
  have := said ht "op"
  rw [show "op".toList = opWord from rfl, h] at this
  cases this
  cases says "op" E with
  | none => simp [Val.str]
  | some x => simp only [conv_str, Option.some.injEq]

theorem updates_iff {E : List (Str × Val)} (ht : (Val.dict E).Tame) {t : Val} (h : (box E).getItem { attr := opWord } = .ok t) :
    (t.isText addWord || t.isText replaceWord) = true ↔ Updates E := by
  rw [Bool.or_eq_true, isText_iff, isText_iff, said_op ht h, said_op ht h]
  rfl

theorem open_iff {E : List (Str × Val)} (ht : (Val.dict E).Tame) {q : Val} (h : (box E).getItem { attr := pathWord } = .ok q) :
    q.isNoneOrMissing = true ↔ PathOpen E := by
  have := said ht "path"
  rw [show "path".toList = pathWord from rfl, h] at this
  cases this
  unfold PathOpen
  cases hs : says "path" E with
  | none => simp [Val.isNoneOrMissing]
  | some x => simp [conv_none (found_tame ht hs)]

theorem said_path {E : List (Str × Val)} (ht : (Val.dict E).Tame) (s : Str) :
    (box E).getItem { attr := pathWord } = .ok (.str s) ↔ says "path" E = some (.str s) := by
  rw [show pathWord = "path".toList from rfl, said ht "path"]
  cases says "path" E with
  | none => simp [Val.str]
  | some x => simp only [conv_str, Option.some.injEq, Except.ok.injEq]

/-- What is read for an operation, in terms of what it says. -/
theorem input_says {E : List (Str × Val)} (ht : (Val.dict E).Tame) {t path value : Val} (h : OpInput (box E) t path value) :
    (∀ x, says "op" E = some x → x = .null ∨ ∃ w, x = .str w ∧ IsWord w) ∧
    (value = match says "value" E with | some x => convVal x | none => .missing) ∧
    ((path.isNoneOrMissing = true ∧ PathOpen E) ∨ ∃ p, path = .obj (.path p) ∧ PathGiven E p) := by
  refine ⟨fun x hx => ?_, ?_, ?_⟩
  · have := said ht "op"
    rw [show "op".toList = opWord from rfl, h.op, hx] at this
    have e : t = convVal x := by injection this
    rcases h.word with hn | ⟨w, hw, hword⟩
    · rw [e, conv_none (found_tame ht hx)] at hn
      exact .inl hn
    · rw [e, conv_str] at hw
      exact .inr ⟨w, hw, hword⟩
  · have := said ht "value"
    rw [show "value".toList = valWord from rfl, h.val] at this
    injection this
  · rcases h.pth with ⟨h1, h2⟩ | ⟨s, p, h1, h2, rfl⟩
    · exact .inl ⟨h2, (open_iff ht h1).mp h2⟩
    · exact .inr ⟨p, rfl, s, (said_path ht s).mp h1, h2⟩

theorem open_not_given {E : List (Str × Val)} (h : PathOpen E) {p : PatchPath} : ¬ PathGiven E p := by
  rintro ⟨s, h1, -⟩
  have := h _ h1
  cases this

theorem given_unique {E : List (Str × Val)} {p q : PatchPath} (h : PathGiven E p) (h' : PathGiven E q) : p = q := by
  obtain ⟨s, h1, h2⟩ := h
  obtain ⟨s', h1', h2'⟩ := h'
  rw [h1] at h1'; cases h1'
  rw [h2] at h2'; cases h2'
  rfl

theorem valueErrs_iff {E : List (Str × Val)} (ht : (Val.dict E).Tame) {t value : Val}
    (hop : (box E).getItem { attr := opWord } = .ok t)
    (hval : value = match says "value" E with | some x => convVal x | none => .missing) :
    opValueErrs t value = [] ↔ (says "op" E = some (.str "add".toList) → ∃ u, says "value" E = some u ∧ u ≠ .null) := by
  have hadd : t.isText addWord = true ↔ says "op" E = some (.str "add".toList) := by
    rw [isText_iff, said_op ht hop]; rfl
  unfold opValueErrs
  have hv : value.isNoneOrMissing = false ↔ ∃ u, says "value" E = some u ∧ u ≠ .null := by
    rw [hval]
    cases hs : says "value" E with
    | none => simp [Val.isNoneOrMissing]
    | some x =>
      have := conv_none (found_tame ht hs)
      dsimp only
      rw [← Bool.not_eq_true, this]
      simp
  cases ha : t.isText addWord with
  | false =>
    simp only [Bool.false_and, Bool.false_eq_true, if_false, true_iff]
    intro e
    rw [hadd.mpr e] at ha; cases ha
  | true =>
    have := hadd.mp ha
    simp only [this, true_implies, ← hv, Bool.true_and]
    cases value.isNoneOrMissing <;> simp

theorem pathErrs_iff {E : List (Str × Val)} (ht : (Val.dict E).Tame) {t path : Val}
    (hop : (box E).getItem { attr := opWord } = .ok t)
    (hp : (path.isNoneOrMissing = true ∧ PathOpen E) ∨ ∃ p, path = .obj (.path p) ∧ PathGiven E p) :
    opPathErrs t path = [] ↔ (says "op" E = some (.str "remove".toList) → ¬ PathOpen E) ∧
      (says "op" E = some (.str "add".toList) → ∀ p, PathGiven E p → p.filter.isSome = true → p.subRep.isSome = true) := by
  have hadd : t.isText addWord = true ↔ says "op" E = some (.str "add".toList) := by
    rw [isText_iff, said_op ht hop]; rfl
  have hrem : t.isText removeWord = true ↔ says "op" E = some (.str "remove".toList) := by
    rw [isText_iff, said_op ht hop]; rfl
  unfold opPathErrs
  rcases hp with ⟨hn, ho⟩ | ⟨p, rfl, hg⟩
  · have hf : filterWithoutSub path ≠ .ok true := by
      cases path with
      | prim q => cases q <;> simp [Val.isNoneOrMissing] at hn; simp [filterWithoutSub, Val.truthy]
      | missing => simp [filterWithoutSub, Val.truthy]
      | _ => simp [Val.isNoneOrMissing] at hn
    rw [hn, Bool.and_true, if_neg (fun h : _ ∧ _ => hf h.2)]
    cases hr : t.isText removeWord with
    | true =>
      simp only [if_true]
      refine ⟨fun e => (by cases e), fun ⟨h, _⟩ => absurd ho (h (hrem.mp hr))⟩
    | false =>
      simp only [Bool.false_eq_true, if_false, true_iff]
      refine ⟨fun e => ?_, fun _ p hg => absurd hg (open_not_given ho)⟩
      rw [hrem.mpr e] at hr; cases hr
  · have hno : (Val.obj (.path p)).isNoneOrMissing = false := rfl
    rw [hno, Bool.and_false]
    simp only [Bool.false_eq_true, if_false, filterWithoutSub, Except.ok.injEq]
    constructor
    · intro h
      refine ⟨fun _ ho => open_not_given ho hg, fun ha q hq hf => ?_⟩
      cases given_unique hg hq
      split at h
      · cases h
      · rename_i hn
        cases hs : p.subRep with
        | some s => rfl
        | none => exact absurd ⟨hadd.mpr ha, by simp [hf, hs]⟩ hn
    · rintro ⟨-, h⟩
      rw [if_neg]
      rintro ⟨ha, hb⟩
      rw [Bool.and_eq_true] at hb
      have := h (hadd.mp ha) p hg hb.1
      cases hs : p.subRep with
      | some s => rw [hs] at hb; cases hb.2
      | none => rw [hs] at this; cases this

/-- One operation: nothing is reported for it exactly when it is good. -/
theorem op_iff {r : Schema} (hP : Patchable r) {E : List (Str × Val)} (ht : (Val.dict E).Tame) (hI : PatchItem r (box E))
    {t path value o : Val} {io : Issues} (hin : OpInput (box E) t path value) (h : parseOne r t path value = .ok (o, io)) :
    (io.hasIssues = false ∧ opPathErrs t path = [] ∧ opValueErrs t value = []) ↔ GoodOp r E := by
  obtain ⟨hword, hval, hpath⟩ := input_says ht hin
  have hup := updates_iff ht hin.op
  rw [pathErrs_iff ht hin.op hpath, valueErrs_iff ht hin.op hval]
  unfold parseOne at h
  rcases hpath with ⟨hn, ho⟩ | ⟨p, rfl, hg⟩
  · have hNP : NoPath (box E) := by
      rcases hin.pth with ⟨h1, h2⟩ | ⟨s, p, -, -, rfl⟩
      · exact ⟨_, h1, h2⟩
      · cases hn
    split at h
    · rename_i hu
      have hU := hup.mp hu
      have hIU := (isUpdate_iff hin).mp hu
      obtain ⟨kvs, hk, hord⟩ := hI.whole hNP hIU
      rw [hin.val] at hk
      cases hk
      obtain ⟨V, hV, hVo, hVe⟩ : ∃ V, says "value" E = some (.dict V) ∧ Ordinary r V ∧ (Val.dict kvs).toCont = (Val.dict V).toCont := by
        cases hs : says "value" E with
        | none => rw [hs] at hval; simp [Val.toCont] at hval
        | some u =>
          rw [hs] at hval
          have htu := found_tame ht hs
          cases u <;> simp [convVal, Val.Tame, Val.toCont] at hval htu
          rename_i V
          refine ⟨V, rfl, ordinary_cont hord (found_tame ht hs) ?_, ?_⟩ <;> simp only [Val.toCont, hval]
      rw [hVe] at h
      rw [whole_iff hP hVo hn h]
      constructor
      · rintro ⟨⟨h1, h2⟩, ⟨h3, h4⟩, h5⟩
        exact ⟨hword, fun e => ⟨h5 e, h4 e⟩, .inl ⟨ho, hU, V, hV, h1, h2⟩⟩
      · rintro ⟨-, ha, ⟨-, -, V', hV', h1, h2⟩ | ⟨p, hg, -⟩⟩
        · rw [hV] at hV'; cases hV'
          refine ⟨⟨h1, h2⟩, ⟨fun e => ?_, fun e => (ha e).2⟩, fun e => (ha e).1⟩
          rcases hU with e' | e' <;> (rw [e] at e'; exact absurd e' (by decide))
        · exact absurd hg (open_not_given ho)
    · exfalso
      unfold parseRemove at h
      split at h
      · cases hn
      · cases h
  · split at h
    · rename_i hu
      have hU := hup.mp hu
      rw [update_iff hP ht hval h]
      constructor
      · rintro ⟨h1, ⟨-, h4⟩, h5⟩
        exact ⟨hword, fun e => ⟨h5 e, h4 e⟩, .inr ⟨p, hg, fun _ => h1, fun hn => absurd hU hn⟩⟩
      · rintro ⟨-, ha, ⟨ho, -⟩ | ⟨q, hq, h1, -⟩⟩
        · exact absurd hg (open_not_given ho)
        · cases given_unique hg hq
          exact ⟨h1 hU, ⟨fun _ ho => open_not_given ho hg, fun e => (ha e).2⟩, fun e => (ha e).1⟩
    · rename_i hu
      have hU : ¬ Updates E := fun h => hu (hup.mpr h)
      rw [remove_iff h]
      constructor
      · rintro ⟨h1, ⟨-, h4⟩, h5⟩
        exact ⟨hword, fun e => ⟨h5 e, h4 e⟩, .inr ⟨p, hg, fun h => absurd h hU, fun _ => h1⟩⟩
      · rintro ⟨-, ha, ⟨ho, -⟩ | ⟨q, hq, -, h1⟩⟩
        · exact absurd hg (open_not_given ho)
        · cases given_unique hg hq
          exact ⟨h1 hU, ⟨fun _ ho => open_not_given ho hg, fun e => (ha e).2⟩, fun e => (ha e).1⟩

/-- Whatever is read for a good operation gives no error before the value is looked at. -/
theorem good_errs {r : Schema} {E : List (Str × Val)} (ht : (Val.dict E).Tame) (hg : GoodOp r E) {t p v : Val}
    (h : OpInput (box E) t p v) : opPathErrs t p = [] ∧ opValueErrs t v = [] := by
  obtain ⟨-, hval, hpath⟩ := input_says ht h
  rw [pathErrs_iff ht h.op hpath, valueErrs_iff ht h.op hval]
  refine ⟨⟨fun e ho => ?_, fun e => (hg.add e).2⟩, fun e => (hg.add e).1⟩
  rcases hg.effect with ⟨-, hU, -⟩ | ⟨p, hp, -⟩
  · rcases hU with e' | e' <;> (rw [e] at e'; exact absurd e' (by decide))
  · exact open_not_given ho hp

theorem good_says {r : Schema} {E : List (Str × Val)} (hg : GoodOp r E) : OpSays E := by
  refine ⟨hg.word, ?_⟩
  rcases hg.effect with ⟨h, -⟩ | ⟨p, h, -⟩
  · exact .inl h
  · exact .inr ⟨p, h⟩

omit [PyEnv] in
theorem all_dicts : ∀ {ys : List Val}, (∀ y ∈ ys, ∃ E, y = .dict E) → ∃ Es : List (List (Str × Val)), ys = Es.map Val.dict
  | [], _ => ⟨[], rfl⟩
  | y :: ys, h => by
    obtain ⟨E, rfl⟩ := h y List.mem_cons_self
    obtain ⟨Es, rfl⟩ := all_dicts (fun z hz => h z (List.mem_cons_of_mem _ hz))
    exact ⟨E :: Es, rfl⟩

theorem patch_uses {D : List (Str × Val)} {u : Str} : ¬ Uses PatchA.schema D u := by
  rintro ⟨a, ha, he, -⟩
  rcases patch_top a ha with rfl | rfl
  · rw [bindAttr_rep] at he; cases he
  · rw [ops_rep] at he; cases he

theorem schemasA_mem : bindAttr schemasAttr { schema := urn, attr := "schemas".toList } ∈ PatchA.schema.attrs.top := by
  have h : ∀ u : Str, (mkSchema u [operations]).attrs.top = (((schemasAttr :: [operations]).flatMap (bindWithSubs u false)).filter
      (fun a => a.rep.sub.isEmpty)) := fun _ => rfl
  rw [PatchA.schema, h, List.mem_filter]
  refine ⟨?_, rfl⟩
  rw [List.mem_flatMap]
  exact ⟨schemasAttr, by simp, List.mem_cons_self⟩

/-- What the schema of patch requests itself checks. -/
theorem base_iff {D : List (Str × Val)} (hD : Ordinary PatchA.schema D) {v : Val} {is : Issues}
    (h : PatchA.schema.parse (.dict D) = .ok (v, is)) : is.hasIssues = false ↔
      (∀ x, look { schema := urn, attr := "schemas".toList } D = some x →
        x = .null ∨ ∃ strs : List Str, x = .list (strs.map Val.str) ∧ ∀ t ∈ strs, lower t = lower urn) ∧
      ∀ x, look { schema := urn, attr := opsWord } D = some x → Reads .parse opsA x := by
  rw [process_reads patch_wf patch_sane hD h]
  have hschemas : ∀ x, look { schema := urn, attr := "schemas".toList } D = some x →
      (Reads .parse (bindAttr schemasAttr { schema := urn, attr := "schemas".toList }) x ↔
        x = .null ∨ ∃ strs : List Str, x = .list (strs.map Val.str)) := by
    intro x hx
    exact (SearchA.usual_reads (schemas_usual _ rfl) (look_tame hD.tame hx)
      (SearchA.held_process patch_wf hD h schemasA_mem (by rw [bindAttr_rep]; exact hx))).trans schemas_valid
  have hsch : PatchA.schema.schemas = [urn] := rfl
  constructor
  · rintro ⟨hv, hl⟩
    refine ⟨fun x hx => ?_, fun x hx => hv opsA opsA_mem x (by rw [ops_rep]; exact hx)⟩
    rcases (hschemas x hx).mp (hv _ schemasA_mem x (by rw [bindAttr_rep]; exact hx)) with rfl | ⟨strs, rfl⟩
    · exact .inl rfl
    · refine .inr ⟨strs, rfl, fun t ht => ?_⟩
      obtain ⟨h2, -, -⟩ := hl strs (List.ne_nil_of_mem ht) hx
      rw [hsch] at h2
      obtain ⟨u, hu, e⟩ := h2 t ht
      rw [List.mem_singleton.mp hu] at e
      exact e
  · rintro ⟨h1, h2⟩
    refine ⟨fun a ha x hx => ?_, fun strs hne hx => ?_⟩
    · rcases patch_top a ha with rfl | rfl
      · rw [bindAttr_rep] at hx
        refine (hschemas x hx).mpr ?_
        rcases h1 x hx with h | ⟨strs, e, -⟩
        · exact .inl h
        · exact .inr ⟨strs, e⟩
      · rw [ops_rep] at hx
        exact h2 x hx
    · rcases h1 _ hx with e | ⟨strs', e, hall⟩
      · cases e
      · have e' : List.map Val.str strs = List.map Val.str strs' := by injection e
        have e'' := (List.map_inj_right (fun a b h => by cases h; rfl)).mp e'
        subst e''
        rw [hsch]
        refine ⟨fun t ht => ⟨urn, by simp, hall t ht⟩, ?_, fun u hu => absurd hu patch_uses⟩
        obtain ⟨t, ht⟩ := List.exists_mem_of_ne_nil _ hne
        exact ⟨t, ht, hall t ht⟩

theorem ops_look {D : List (Str × Val)} (hD : Ordinary PatchA.schema D) :
    (Val.dict D).toCont.getItem { schema := urn, attr := opsWord } =
      .ok (match look { schema := urn, attr := opsWord } D with | some x => convVal x | none => .missing) :=
  getItem_look (r := { schema := urn, attr := opsWord })
    (clear_of_ordinary hD (by rw [show PatchA.schema.schemas = [urn] from rfl]; exact List.mem_singleton.mpr rfl)) rfl

theorem conv_dicts (Es : List (List (Str × Val))) : convVal (.list (Es.map Val.dict)) = .list (Es.map box) := by
  rw [convVal, convItems_eq, List.map_map]; rfl

/-- The whole document. -/
theorem document_iff {r : Schema} (hP : Patchable r) {D : List (Str × Val)} (hD : PatchDoc r D) {v : Val} {is : Issues}
    (h : PatchA.parse r (.dict D) = .ok (v, is)) : is.hasIssues = false ↔ PatchBody r D := by
  obtain ⟨d, is0, h0, hw0, hw, hcase⟩ := parse_bridge hP.schema.wf hP.schema.sane h
  have hbase := base_iff hD.ordinary h0
  have hlook := ops_look hD.ordinary
  constructor
  · intro hno
    obtain ⟨xs, out, h1, -, -, h4⟩ := accepted_ops hP.schema.wf hP.schema.sane h hno
    have hno0 : is0.hasIssues = false := by
      rcases hcase with ⟨-, -, rfl⟩ | ⟨-, -, _, _, -, -, -, -, -, -, h7⟩
      · exact hno
      · rw [← Bool.not_eq_true]; intro e; rw [h7 e] at hno; cases hno
    refine ⟨(hbase.mp hno0).1, ?_⟩
    have h1' := h1
    unfold Val.Operations at h1'
    rw [hlook] at h1'
    obtain ⟨ys, hys, hxs⟩ : ∃ ys, look { schema := urn, attr := opsWord } D = some (.list ys) ∧ xs = ys.map itemConv := by
      cases hl : look { schema := urn, attr := opsWord } D with
      | none => rw [hl] at h1'; cases h1'
      | some y =>
        rw [hl] at h1'
        have hty := look_tame hD.ordinary.tame hl
        cases y <;> simp [convVal, Val.Tame] at h1' hty
        exact ⟨_, rfl, by rw [← convItems_eq]; exact h1'.symm⟩
    have hty := look_tame hD.ordinary.tame hys
    unfold Val.Tame at hty
    rw [tameList_iff] at hty
    obtain ⟨Es, rfl⟩ : ∃ Es : List (List (Str × Val)), ys = Es.map Val.dict := by
      apply all_dicts
      intro y hy
      obtain ⟨i, hi⟩ := List.getElem?_of_mem hy
      obtain ⟨o, t, p, value, -, b2, -⟩ := h4 i (itemConv y) (by rw [hxs, List.getElem?_map, hi]; rfl)
      have := b2.op
      have hyt := hty y hy
      cases y <;> simp [itemConv, Val.getItem, Val.getX, Val.Tame] at this hyt
      exact ⟨_, rfl⟩
    refine ⟨Es, hys, fun E hE => ?_⟩
    have hmem : Val.dict E ∈ Es.map Val.dict := List.mem_map.mpr ⟨E, hE, rfl⟩
    obtain ⟨i, hi⟩ := List.getElem?_of_mem hmem
    have hx : xs[i]? = some (box E) := by rw [hxs, List.getElem?_map, hi]; rfl
    obtain ⟨o, t, p, value, -, b2, b3, b4, b5⟩ := h4 i (box E) hx
    exact (op_iff hP (hty _ hmem) (hD.items xs h1 _ (List.mem_of_getElem? hx) rfl) b2 b3).mp ⟨rfl, b4, b5⟩
  · rintro ⟨hs, Es, hl, hgood⟩
    have hty := look_tame hD.ordinary.tame hl
    unfold Val.Tame at hty
    rw [tameList_iff] at hty
    have ht : ∀ E ∈ Es, (Val.dict E).Tame := fun E hE => hty _ (List.mem_map.mpr ⟨E, hE, rfl⟩)
    have hl' : look { schema := urn, attr := opsWord } D = some (.list (Es.map Val.dict)) := hl
    have hno0 : is0.hasIssues = false := by
      refine hbase.mpr ⟨hs, fun x hx => ?_⟩
      rw [hl'] at hx
      cases hx
      obtain ⟨⟨w, j⟩, ho⟩ := SearchA.held_process patch_wf hD.ordinary h0 opsA_mem (by rw [ops_rep]; exact hl')
      exact ⟨w, j, ho, ops_clean ht (fun E hE => good_says (hgood E hE)) (fun E hE t p v hin => good_errs (ht E hE) (hgood E hE) hin) ho⟩
    have e0 := eq_empty_of_noIssues hw0 hno0
    rcases hcase with ⟨hc, -, -⟩ | ⟨-, -, xs, out, h1, -, -, h4, -, h6, -⟩
    · rw [e0] at hc
      exact absurd hc (by decide)
    · have hxs : xs = Es.map box := by
        rw [hlook, hl'] at h1
        dsimp only at h1
        rw [conv_dicts] at h1
        injection h1 with h1
        injection h1 with h1
        exact h1.symm
      rw [← Bool.not_eq_true, hasIssues_iff_errors hw]
      rintro ⟨l, hne⟩
      apply hne
      by_cases hex : ∃ i, i < xs.length ∧ opLoc i <+: l
      · obtain ⟨i, hi, l', rfl⟩ := hex
        have hx : xs[i]? = some xs[i] := List.getElem?_eq_getElem hi
        obtain ⟨o, t, p, value, io, -, b2, b3, b4, -, b6, -⟩ := h4 i _ hx (by rw [e0]; rfl)
        have hm := List.mem_of_getElem? hx
        obtain ⟨E, hE, hEx⟩ := List.mem_map.mp (show xs[i] ∈ Es.map box by rw [← hxs]; exact hm)
        rw [← hEx] at b2 hm
        have hop : (Val.dict D).Operations xs := h1
        have := (op_iff hP (ht E hE) (hD.items xs hop _ hm rfl) b2 b3).mpr (hgood E hE)
        rw [b6, eq_empty_of_noIssues b4 this.1]
        rfl
      · rw [h6 l (fun i hi hp => hex ⟨i, hi, hp⟩), e0]
        rfl

end Scim.PatchA
