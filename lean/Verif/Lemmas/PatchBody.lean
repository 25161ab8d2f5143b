import Verif.Spec.PatchBody
import Verif.Lemmas.SearchDoc
import Verif.Props.PatchTotality
import Verif.Lemmas.BulkResponse

/-! # Patch requests: what is accepted -/

namespace Scim.PatchA
open Issues V Valid Declared
variable [PyEnv]

/-! ### Reading the list of operations -/

theorem processSubs_clean {m : Mode} : ∀ (ss : List Attr) {loc : Loc} {item parsed : Val} {acc : Issues} {r : Val} {is : Issues},
    processSubs m ss loc item parsed acc = .ok (r, is) → acc.hasIssues = false →
    (∀ s ∈ ss, ∀ z w j, item.getItem s.rep = .ok z → z.isMissing = false → s.process m z = .ok (w, j) → j.hasIssues = false) →
    is.hasIssues = false
  | [], _, _, _, _, _, _, h, ha, _ => by unfold processSubs at h; cases h; exact ha
  | s :: ss, loc, item, parsed, acc, r, is, h, ha, hs => by
    unfold processSubs at h
    have hrest := fun t ht => hs t (List.mem_cons_of_mem _ ht)
    split at h
    · cases h
    · exact processSubs_clean ss h ha hrest
    · rename_i z hm hz
      split at h
      · cases h
      · rename_i p j hp
        split at h
        · cases h
        · refine processSubs_clean ss h ?_ hrest
          rw [hasIssues_merge_false]
          refine ⟨ha, hs s List.mem_cons_self z p j hz ?_ hp⟩
          cases z <;> first | rfl | exact absurd rfl hm

theorem complexItems_clean {m : Mode} {ss : List Attr} : ∀ (Es : List (List (Str × Val))) {k : Nat} {acc : Issues} {rs : List Val} {is : Issues},
    complexItems (fun loc item is => processSubs m ss loc item .emptyCont is) k (Es.map fun D => Val.toCont (.dict D)) acc = .ok (rs, is) →
    acc.hasIssues = false →
    (∀ E ∈ Es, ∀ s ∈ ss, ∀ z w j, (Val.toCont (.dict E)).getItem s.rep = .ok z → z.isMissing = false → s.process m z = .ok (w, j) →
      j.hasIssues = false) → is.hasIssues = false
  | [], _, _, _, _, h, ha, _ => by cases h; exact ha
  | E :: Es, k, acc, rs, is, h, ha, hs => by
    simp only [List.map_cons] at h
    unfold complexItems at h
    split at h
    · cases h
    · rename_i hp
      split at h
      · cases h
      · rename_i hq
        cases h
        refine complexItems_clean Es hq ?_ (fun E' h' => hs E' (List.mem_cons_of_mem _ h'))
        exact processSubs_clean ss hp ha (hs E List.mem_cons_self)

/-- The operation says what to do, and where, in a way that is understood. -/
def OpSays (E : List (Str × Val)) : Prop :=
  (∀ x, says "op" E = some x → x = .null ∨ ∃ w, x = .str w ∧ IsWord w) ∧ (PathOpen E ∨ ∃ p, PathGiven E p)

theorem said {E : List (Str × Val)} (ht : (Val.dict E).Tame) (n : String) :
    (Val.dict E).toCont.getItem { attr := n.toList } = .ok (match says n E with | some x => convVal x | none => .missing) :=
  getItem_found (found_nil ht) rfl

theorem words_lower : ∀ t ∈ [addWord, removeWord, replaceWord], lower t = t := by
  intro t ht
  have h1 : t.map asciiLower = t := by revert t; decide
  have h2 : ∀ c ∈ t, c.toNat < 128 := by revert t; decide
  rw [PyEnv.lower_ascii t h2, h1]

theorem op_usual : Usual .parse opAttr := by
  have hl := words_lower
  refine ⟨rfl, nofun, .inl rfl, fun _ => ⟨rfl, ?_⟩⟩
  simp [normCanonical, Prim.normCase, hl]

theorem op_valid {w : Str} (h : IsWord w) : ValidFor .parse opAttr (.str w) := by
  have hl := words_lower
  unfold opAttr mkAttr
  unfold ValidFor
  right
  simp only [Bool.false_eq_true, if_false]
  refine ⟨⟨⟨w, rfl⟩, fun _ cs hcs => ?_⟩, fun h => by cases h⟩
  injection hcs with hcs
  subst hcs
  rcases h with h | h | h
  · refine ⟨.str w, .str addWord, rfl, by simp [Prim.normCase, hl], ?_⟩
    show lower w = lower addWord
    rw [h, hl _ (by simp)]
  · refine ⟨.str w, .str removeWord, rfl, by simp [Prim.normCase, hl], ?_⟩
    show lower w = lower removeWord
    rw [h, hl _ (by simp)]
  · refine ⟨.str w, .str replaceWord, rfl, by simp [Prim.normCase, hl], ?_⟩
    show lower w = lower replaceWord
    rw [h, hl _ (by simp)]

theorem sub_clean {E : List (Str × Val)} (ht : (Val.dict E).Tame) (h : OpSays E) : ∀ s ∈ [opAttr, pathAttr, valueAttr], ∀ z w j,
    (Val.toCont (.dict E)).getItem s.rep = .ok z → z.isMissing = false → s.process .parse z = .ok (w, j) → j.hasIssues = false := by
  have key : ∀ (n : String) z, (Val.dict E).toCont.getItem { attr := n.toList } = .ok z → z.isMissing = false →
      ∃ x, says n E = some x ∧ z = convVal x := by
    intro n z hz hm
    rw [said ht] at hz
    cases hx : says n E with
    | none => rw [hx] at hz; cases hz; cases hm
    | some x => rw [hx] at hz; cases hz; exact ⟨x, rfl, rfl⟩
  intro s hs z w j hz hm hp
  simp only [List.mem_cons, List.not_mem_nil, or_false] at hs
  rcases hs with rfl | rfl | rfl
  · obtain ⟨x, hx, rfl⟩ := key "op" z hz hm
    refine (process_ok opAttr op_usual x w j (found_tame ht hx) hp).mpr ?_
    rcases h.1 x hx with rfl | ⟨w, rfl, hw⟩
    · exact .inl rfl
    · exact op_valid hw
  · obtain ⟨x, hx, rfl⟩ := key "path" z hz hm
    have hr : Reads .parse pathAttr x := by
      refine (SearchA.text_reads (p := pathProc) rfl rfl rfl rfl).mpr ?_
      rcases h.2 with ho | ⟨p, t, h1, h2⟩
      · exact .inl (ho x hx)
      · rw [hx] at h1; cases h1
        exact .inr ⟨t, .obj (.path p), {}, rfl, by simp only [pathProc, Val.str, h2], rfl⟩
    obtain ⟨y, i, h1, h2⟩ := hr
    rw [hp] at h1; cases h1; exact h2
  · obtain ⟨x, hx, rfl⟩ := key "value" z hz hm
    have hu : Usual .parse valueAttr := ⟨rfl, nofun, .inl rfl, nofun⟩
    refine (process_ok valueAttr hu x w j (found_tame ht hx) hp).mpr ?_
    refine .inr ?_
    exact ⟨⟨trivial, nofun⟩, nofun⟩

/-- Reading a list of operations each of which says what to do in a way that is understood. -/
theorem ops_clean {Es : List (List (Str × Val))} (ht : ∀ E ∈ Es, (Val.dict E).Tame) (hs : ∀ E ∈ Es, OpSays E)
    (he : ∀ E ∈ Es, ∀ t p v, OpInput (Val.toCont (.dict E)) t p v → opPathErrs t p = [] ∧ opValueErrs t v = [])
    {w : Val} {j : Issues} (h : opsA.process .parse (convVal (.list (Es.map Val.dict))) = .ok (w, j)) : j.hasIssues = false := by
  have hconv : convVal (.list (Es.map Val.dict)) = .list (Es.map fun D => Val.toCont (.dict D)) := by
    rw [convVal, convItems_eq, List.map_map]; rfl
  rw [hconv, opsA_eq] at h
  obtain ⟨r1, is1, h1, hcase⟩ := complex_split h
  have hc1 : is1.hasIssues = false := by
    rw [complex_process_eq, info_process_eq] at h1
    simp only [Val.isNone, Bool.false_eq_true, if_false, AttrInfo.base, show opsInfo.multi = true from rfl, if_true,
      (opsInfo_decl .parse).procs, runProcs] at h1
    have hit : ∀ rs is, opsInfo.processItems .parse 0 (Es.map fun D => Val.toCont (.dict D)) {} = .ok (rs, is) →
        rs = (Es.map fun D => Val.toCont (.dict D)) ∧ is = {} := by
      intro rs is hh
      have hm : (Es.map fun D => Val.toCont (.dict D)) = (Es.map Val.dict).map itemConv := by rw [List.map_map]; rfl
      rw [hm] at hh ⊢
      refine (complexInfo_items (m := .parse) (i := opsInfo) rfl rfl (Es.map Val.dict) 0 rs {} is ?_ hh).2 ?_
      · intro x hx
        obtain ⟨E, hE, rfl⟩ := List.mem_map.mp hx
        exact ht E hE
      · intro x hx
        obtain ⟨E, hE, rfl⟩ := List.mem_map.mp hx
        exact ⟨E, rfl⟩
    cases hpi : opsInfo.processItems .parse 0 (Es.map fun D => Val.toCont (.dict D)) {} with
    | error e => rw [hpi] at h1; simp at h1
    | ok q =>
      obtain ⟨rs, is2⟩ := q
      obtain ⟨rfl, rfl⟩ := hit rs is2 hpi
      rw [hpi] at h1
      simp only [ite_self, canProceed_empty, Bool.not_true, Val.isNone, Bool.or_self, Bool.false_eq_true, if_false, complexBody,
        show opsInfo.multi = true from rfl, if_true, Attr.cprocs, runProcs] at h1
      cases hci : complexItems (fun loc item is => processSubs .parse [opAttr, pathAttr, valueAttr] loc item .emptyCont is) 0
          (Es.map fun D => Val.toCont (.dict D)) {} with
      | error e => rw [hci] at h1; simp at h1
      | ok q =>
        obtain ⟨ys, j2⟩ := q
        have := complexItems_clean Es hci rfl (fun E hE => sub_clean (ht E hE) (hs E hE))
        rw [hci] at h1
        simp only [this, Bool.false_eq_true, if_false] at h1
        cases h1
        exact this
  obtain ⟨ys, rfl, hlen, hw1, hreach, hitem⟩ := ops_items h1
  obtain ⟨ys', e, -, -, hgood, -⟩ := C27_multi .parse opsInfo _ [] [] (opsInfo_decl _) rfl ops_subs_plain ops_subs_sane
    (by simp [Attr.cprocs]) _ _ is1 h1
  cases e
  rcases hcase with ⟨rfl, rfl, hc⟩ | ⟨hni, hrun⟩
  · exact hc1
  · have he1 := eq_empty_of_noIssues hw1 hni
    subst he1
    simp only [Attr.cprocs, runProcs, validateOperations] at hrun
    cases hv : validateOpsLoop 0 ys {} with
    | error e => rw [hv] at hrun; cases hrun
    | ok q =>
      obtain ⟨os, iv⟩ := q
      rw [hv] at hrun
      simp only at hrun
      cases hsp : validateSinglePrimary (.list os) with
      | error e => rw [hsp] at hrun; cases hrun
      | ok q =>
        obtain ⟨w', ip⟩ := q
        rw [hsp] at hrun
        obtain ⟨-, hprim⟩ := C26_single_primary os w' ip hsp
        obtain ⟨rfl, hwp⟩ := validateSinglePrimary_wf hsp
        cases hrun
        have hx : ∀ i, i < ys.length → ∃ E ∈ Es, (Es.map fun D => Val.toCont (.dict D))[i]? = some (Val.toCont (.dict E)) := by
          intro i hi
          rw [hlen] at hi
          obtain ⟨E, hE, e⟩ := List.mem_map.mp (List.getElem_mem hi)
          exact ⟨E, hE, by rw [List.getElem?_eq_getElem hi, e]⟩
        have hys : ∀ y ∈ ys, y.Reach ∧ y.NoKeyFor [] := by
          intro y hy
          refine ⟨hreach y hy, ?_⟩
          obtain ⟨i, hi⟩ := List.getElem?_of_mem hy
          obtain ⟨E, hE, ex⟩ := hx i (List.getElem?_eq_some_iff.mp hi).1
          obtain ⟨o, t, p, v, b1, -, -, -, -, -, b7⟩ := hitem i _ ex (fun _ => rfl)
          rw [hi] at b1; cases b1; exact b7
        obtain ⟨g1, g2, g3, g4⟩ := validateOpsLoop_spec WF.empty hys hv
        have hall : ∀ i, i < ys.length → ∃ y, ys[i]? = some y ∧ os[i]? = some y ∧ iv.errorsAt [.idx i, .name pathWord] = [] ∧
            iv.errorsAt [.idx i, .name valWord] = [] := by
          intro i hi
          obtain ⟨E, hE, ex⟩ := hx i hi
          obtain ⟨y, t, p, v, b1, b2, b3, b4, b5, b6, -⟩ := hitem i _ ex (fun _ => rfl)
          obtain ⟨o, t', p', v', c1, c2, c3, c4, c5, c6, c7, c8, c9, c10, c11⟩ := g3 i y b1
          rw [b3] at c2; cases c2
          rw [b4] at c3; cases c3
          rw [b5] at c4; cases c4
          obtain ⟨e1, e2⟩ := he E hE t p v b6
          rw [Nat.zero_add, e1] at c10
          rw [Nat.zero_add, e2] at c11
          refine ⟨y, b1, ?_, c10, c11⟩
          rcases c9 with rfl | c9
          · exact c1
          · exact absurd e1 c9
        have hiv : iv.hasIssues = false := by
          rw [← Bool.not_eq_true]
          intro hh
          obtain ⟨l, hl⟩ := (hasIssues_iff_errors g1).mp hh
          by_cases hloc : ∀ i, i < ys.length → l ≠ [.idx (0 + i), .name pathWord] ∧ l ≠ [.idx (0 + i), .name valWord]
          · exact hl (g4 l hloc)
          · apply hloc
            intro i hi
            obtain ⟨y, -, -, e1, e2⟩ := hall i hi
            rw [Nat.zero_add]
            exact ⟨fun e => hl (e ▸ e1), fun e => hl (e ▸ e2)⟩
        have hip : ip.hasIssues = false := by
          rw [← Bool.not_eq_true]
          intro hh
          obtain ⟨i, -, x, -, -, hi, -, hpx, -⟩ := hprim.mp hh
          have hlt : i < ys.length := by rw [← g2]; exact (List.getElem?_eq_some_iff.mp hi).1
          obtain ⟨E, hE, ex⟩ := hx i hlt
          obtain ⟨y, hy, hsr, -⟩ := hgood i _ ex rfl
          obtain ⟨y', hy', ho, -⟩ := hall i hlt
          rw [hy] at hy'; cases hy'
          rw [hi] at ho; cases ho
          have hname : x.getName "primary".toList = x.getItem { attr := "primary".toList } := by
            have hc := hsr.cont
            cases x <;> simp only [Val.isCont, Bool.false_eq_true] at hc
            simp only [Val.getName, primary_parse]
          have hk : x.NoKeyFor "primary".toList := by
            intro k hk
            obtain ⟨s, hs, rfl, -⟩ := hsr.declared k hk
            simp only [List.mem_cons, List.not_mem_nil, or_false] at hs
            rw [show lower "primary".toList = "primary".toList from PyEnv.lower_ascii _ (by decide)]
            rcases hs with rfl | rfl | rfl
            · rw [show lower opAttr.rep.attr = opWord from PyEnv.lower_ascii opWord (by decide)]; decide
            · rw [show lower pathAttr.rep.attr = pathWord from PyEnv.lower_ascii pathWord (by decide)]; decide
            · rw [show lower valueAttr.rep.attr = valWord from PyEnv.lower_ascii valWord (by decide)]; decide
          unfold IsPrimary at hpx
          rw [hname, getItem_undeclared (hys x (List.mem_of_getElem? hy)).1 (hys x (List.mem_of_getElem? hy)).2 hk] at hpx
          cases hpx
        rw [hasIssues_merge_false, hasIssues_merge_false]
        exact ⟨⟨rfl, hiv⟩, hip⟩

/-! ### Removing -/

omit [PyEnv] in
theorem issue304_has (b : Bool) (is : Issues) : (issue304 b is).hasIssues = false ↔ b = false ∧ is.hasIssues = false := by
  unfold issue304
  cases b
  · simp
  · simp [hasIssues_add]

omit [PyEnv] in
theorem issue306_has (b : Bool) (is : Issues) : (issue306 b is).hasIssues = false ↔ b = false ∧ is.hasIssues = false := by
  unfold issue306
  cases b
  · simp
  · simp [hasIssues_add]

omit [PyEnv] in
theorem notReadOnly_iff {a : Attr} : (a.info.mutability == Mutability.readOnly) = false ↔ ¬ a.ReadOnly := by
  unfold Attr.ReadOnly
  cases a.info.mutability <;> decide

theorem remove_iff {r : Schema} {p : PatchPath} {o : Val} {io : Issues} (h : parseRemove r (.obj (.path p)) = .ok (o, io)) :
    io.hasIssues = false ↔ Removable r p := by
  by_cases hd : p.Declared r
  · have hu : undeclared r p = false := by
      rw [← Bool.not_eq_true, undeclared_iff]; exact fun h' => h' hd
    have hv : validatePath r p = {} := by unfold validatePath; rw [if_neg (by simp [hu])]
    unfold parseRemove at h
    simp only [hv, has_empty, Bool.false_eq_true, if_false] at h
    unfold Removable
    obtain ⟨a, ha⟩ := Option.isSome_iff_exists.mp hd.1
    rw [ha] at h
    simp only [ha, Option.some.injEq, exists_eq_left']
    cases hs : p.subRep with
    | none =>
      rw [hs] at h
      cases h
      rw [issue306_has, issue304_has, notReadOnly_iff]
      simp only [has_empty, and_true]
      rw [and_comm]
      refine and_congr_right fun _ => ?_
      cases a.info.required <;> cases a.isComplex <;> simp
    | some s =>
      obtain ⟨b, hb⟩ := Option.isSome_iff_exists.mp (hd.2 s hs)
      rw [hs] at h
      simp only [hb] at h ⊢
      cases h
      rw [issue304_has, issue306_has, Bool.or_eq_false_iff, notReadOnly_iff, notReadOnly_iff]
      simp [has_empty, and_assoc]
  · rw [remove_undeclared hd] at h
    cases h
    refine ⟨fun hn => (by cases hn), fun hr => absurd ?_ hd⟩
    obtain ⟨a, ha, -, hs⟩ := hr
    refine ⟨by rw [ha]; rfl, fun s e => ?_⟩
    rw [e] at hs
    obtain ⟨b, hb, -⟩ := hs
    rw [hb]; rfl

/-! ### New values -/

theorem processItems_rep (m : Mode) (i : AttrInfo) (rep : AttrRep) (xs : List Val) (k : Nat) (acc : Issues) :
    AttrInfo.processItems m { i with rep := rep } k xs acc = AttrInfo.processItems m i k xs acc := by
  induction xs generalizing k acc with
  | nil => rfl
  | cons x xs ih =>
    unfold AttrInfo.processItems
    simp only [ih]
    rfl

/-- The name of a simple attribute does not matter for its values. -/
theorem process_rep (m : Mode) (i : AttrInfo) (rep : AttrRep) (v : Val) :
    (Attr.simple { i with rep := rep }).process m v = (Attr.simple i).process m v := by
  unfold Attr.process AttrInfo.process
  simp only [processItems_rep]
  rfl

theorem conv_given {m : Mode} {t : AttrType} {v item : Val} {j : Issues} (h : t.conv m v = .ok (item, j)) (hv : v ≠ .missing) :
    item ≠ .missing := by
  have hp : ∀ {item j}, t.parse v = .ok (item, j) → item ≠ .missing := by
    intro item j h
    unfold AttrType.parse booleanConv decimalConv integerConv stringConv binaryConv extRefConv badType at h
    repeat' split at h
    all_goals first
      | (cases h; done)
      | (cases h; exact hv)
      | (cases h; simp)
  cases m with
  | parse => exact hp h
  | dump =>
    unfold AttrType.conv AttrType.dump badType at h
    dsimp only at h
    repeat' split at h
    all_goals first
      | (cases h; simp; done)
      | exact hp h

theorem runProcs_bulk {v w : Val} {acc is : Issues} (h : runProcs [bulkIdValidator] v acc = .ok (w, is)) : w = v ∨ w = .invalid := by
  simp only [runProcs] at h
  split at h
  · cases h
  · rename_i v' j hb
    cases h
    unfold bulkIdValidator at hb
    repeat' split at hb
    all_goals first
      | (cases hb; done)
      | (cases hb; exact .inl rfl)
      | (cases hb; exact .inr rfl)

theorem simple_given {m : Mode} {i : AttrInfo} (hu : Usual m (.simple i)) {v r : Val} {is : Issues} (hv : v ≠ .missing)
    (h : (Attr.simple i).process m v = .ok (r, is)) : r ≠ .missing := by
  unfold Usual at hu
  obtain ⟨-, -, hp, -⟩ := hu
  have hrun : ∀ {p w acc is}, runProcs (i.procs m) p acc = .ok (w, is) → w = p ∨ w = .invalid := by
    intro p w acc is h
    rcases hp with hp | ⟨-, -, hp⟩
    · rw [hp] at h; cases h; exact .inl rfl
    · rw [hp] at h; exact runProcs_bulk h
  unfold Attr.process at h
  rw [info_process_eq] at h
  split at h
  · cases h; exact hv
  · split at h
    · cases h
    · cases h; simp
    · rename_i p j hb
      have hne : p ≠ .missing := by
        unfold AttrInfo.base at hb
        split at hb
        · split at hb
          · split at hb
            · cases hb
            · cases hb; simp
          · cases hb
        · split at hb
          · cases hb
          · rename_i q j' hone
            cases hb
            unfold AttrInfo.processOne at hone
            split at hone
            · cases hone
            · rename_i item j2 hc
              dsimp only at hone
              split at hone
              · cases hone; simp
              · cases hone; exact conv_given hc hv
      split at h
      · cases h; exact hne
      · rcases hrun h with rfl | rfl
        · exact hne
        · simp

/-- What is processed is there. -/
theorem process_given {m : Mode} {a : Attr} (hu : Usual m a) (hs : a.Sane) {v r : Val} (ht : v.Tame) {is : Issues}
    (h : a.process m (convVal v) = .ok (r, is)) (hn : is.hasIssues = false) : r ≠ .missing := by
  cases a with
  | simple i => exact simple_given hu (conv_not_missing ht) h
  | complex i subs ps ds =>
    have hv := (process_ok _ hu v r is ht h).mp hn
    unfold Attr.Sane at hs
    unfold ValidFor at hv
    rcases hv with rfl | hv
    · rw [show convVal Val.null = .null from rfl, C25_null] at h
      cases h
      simp
    · by_cases hm : i.multi = true
      · rw [if_pos hm] at hv
        obtain ⟨xs, rfl, -⟩ := hv
        obtain ⟨ys, rfl, -⟩ := complex_multi hu hs.2 hm h
        simp
      · rw [if_neg hm] at hv
        obtain ⟨D, rfl, -⟩ := hv
        have hr := (complex_single hu hs.2 (by simpa using hm) h).cont
        rintro rfl
        cases hr

/-- An attribute with a type of values wants a value. -/
theorem process_missing {a : Attr} (hu : Usual .parse a) (ht : a.info.type ≠ .unknown) {r : Val} {is : Issues}
    (h : a.process .parse .missing = .ok (r, is)) : is.hasIssues = true := by
  rw [← Bool.not_eq_false]
  intro hn
  cases a with
  | simple i =>
    have hv := (simple_ok hu (v := .missing) h).mp hn
    unfold ValidFor at hv
    rcases hv with e | hv
    · cases e
    · have hone : ¬ TypeOk .parse i.type .missing := by
        replace ht : i.type ≠ .unknown := ht
        cases e : i.type <;> simp only [TypeOk, reduceCtorEq, false_and, exists_false, or_self, not_false_eq_true, not_true_eq_false]
        exact ht e
      split at hv
      · obtain ⟨xs, e, -⟩ := hv; cases e
      · exact hone hv.1.1
  | complex i subs ps ds =>
    unfold Usual at hu
    obtain ⟨-, hty, hvc, hpr, hcp, -⟩ := hu
    have hpi : i.process .parse .missing = .ok (.invalid, blocking 2) ∨
        i.process .parse .missing = .ok (.invalid, Issues.merge {} (blocking 2)) := by
      rw [info_process_eq]
      cases hm : i.multi with
      | true => exact .inl (by simp [Val.isNone, AttrInfo.base, hm])
      | false =>
        refine .inr ?_
        simp only [Val.isNone, Bool.false_eq_true, if_false, AttrInfo.base, hm, AttrInfo.processOne, hty, AttrType.conv,
          AttrType.parse, Val.isCont, badType, hvc, Bool.and_false]
        rw [if_pos (by rfl)]
    rw [complex_process_eq] at h
    rcases hpi with hpi | hpi <;> rw [hpi] at h <;> dsimp only at h <;> rw [if_pos (by rfl)] at h <;> cases h <;> cases hn

theorem readOnlySubs_iff {value : Val} : ∀ {as : List Attr} {acc is : Issues}, readOnlySubs value as acc = .ok is →
    (is.hasIssues = false ↔ acc.hasIssues = false ∧ ∀ a ∈ as, a.ReadOnly → value.getItem a.rep = .ok .missing) ∧
    ∀ a ∈ as, a.ReadOnly → ∃ w, value.getItem a.rep = .ok w
  | [], acc, is, h => by cases h; simp
  | a :: as, acc, is, h => by
    rw [readOnlySubs] at h
    split at h
    · rename_i hm
      obtain ⟨h1, h2⟩ := readOnlySubs_iff h
      have hro : ¬ a.ReadOnly := by
        intro hro
        rw [show a.info.mutability = .readOnly from hro] at hm
        exact absurd hm (by decide)
      refine ⟨?_, ?_⟩
      · rw [h1]
        simp [hro]
      · intro b hb hb'
        rcases List.mem_cons.mp hb with rfl | hb
        · exact absurd hb' hro
        · exact h2 b hb hb'
    · rename_i hm
      have hro : a.ReadOnly := by
        unfold Attr.ReadOnly
        revert hm
        cases a.info.mutability <;> simp <;> decide
      split at h
      · cases h
      · rename_i w hw
        obtain ⟨h1, h2⟩ := readOnlySubs_iff h
        refine ⟨?_, ?_⟩
        · rw [h1]
          have : (if w.isMissing then acc else acc.add ⟨304, []⟩ false [.name a.rep.sub]).hasIssues = false ↔
              acc.hasIssues = false ∧ w = .missing := by
            cases hc : w.isMissing with
            | true => cases w <;> simp [Val.isMissing] at hc; simp
            | false =>
              simp only [Bool.false_eq_true, if_false, hasIssues_add]
              refine ⟨fun e => (by cases e), fun ⟨_, e⟩ => ?_⟩
              rw [e] at hc; cases hc
          rw [this]
          simp only [List.mem_cons, forall_eq_or_imp, hro, true_implies, hw, Except.ok.injEq]
          exact ⟨fun ⟨⟨a, b⟩, c⟩ => ⟨a, b, c⟩, fun ⟨a, b, c⟩ => ⟨⟨a, b⟩, c⟩⟩
        · intro b hb hb'
          rcases List.mem_cons.mp hb with rfl | hb
          · exact ⟨w, hw⟩
          · exact h2 b hb hb'

theorem parseUpdate_iff {r : Schema} {rep : AttrRep} {a : Attr} (ha : r.attrs.get rep = some a) {value v : Val} {iv : Issues}
    (h : parseUpdate r rep value = .ok (v, iv)) :
    (iv.hasIssues = false ↔ ¬ a.ReadOnly ∧ ∃ ip, a.process .parse value = .ok (v, ip) ∧ ip.hasIssues = false ∧
      (a.isComplex = true → a.info.multi = false → ∀ s ∈ a.subs, s.ReadOnly → v.getItem s.rep = .ok .missing)) ∧
    (¬ a.ReadOnly → ∃ ip, a.process .parse value = .ok (v, ip) ∧ (ip.hasIssues = false → a.isComplex = true → a.info.multi = false →
      ∀ s ∈ a.subs, s.ReadOnly → ∃ w, v.getItem s.rep = .ok w)) := by
  unfold parseUpdate at h
  rw [ha] at h
  dsimp only at h
  split at h
  · rename_i hro
    cases h
    have hro' : a.ReadOnly := by
      apply Classical.byContradiction
      intro hn
      rw [notReadOnly_iff.mpr hn] at hro
      cases hro
    rw [hasIssues_add]
    exact ⟨⟨fun e => (by cases e), fun e => absurd hro' e.1⟩, fun e => absurd hro' e⟩
  · rename_i hro
    have hro' : ¬ a.ReadOnly := notReadOnly_iff.mp (by simpa using hro)
    split at h
    · cases h
    · rename_i parsed ip hp
      split at h
      · rename_i hi
        cases h
        rw [hasIssues_merge_false, hi]
        refine ⟨⟨fun e => (by cases e.2), ?_⟩, fun _ => ⟨ip, hp, fun e => by rw [hi] at e; cases e⟩⟩
        rintro ⟨-, ip', e, hn, -⟩
        rw [hp] at e; cases e
        rw [hi] at hn; cases hn
      · rename_i hi
        have hi' : ip.hasIssues = false := by simpa using hi
        split at h
        · rename_i hcm
          split at h
          · cases h
          · rename_i il hl
            cases h
            obtain ⟨h1, h2⟩ := readOnlySubs_iff hl
            refine ⟨?_, fun _ => ⟨ip, hp, fun _ _ _ => h2⟩⟩
            rw [h1]
            constructor
            · rintro ⟨-, hs⟩
              exact ⟨hro', ip, hp, hi', fun _ _ => hs⟩
            · rintro ⟨-, ip', -, -, hs⟩
              simp only [Bool.and_eq_true, Bool.not_eq_true'] at hcm
              exact ⟨rfl, hs hcm.1 hcm.2⟩
        · rename_i hcm
          cases h
          have hcm' : a.isComplex = true → a.info.multi = false → False := fun e1 e2 => hcm (by simp [e1, e2])
          exact ⟨⟨fun _ => ⟨hro', ip, hp, hi', fun e1 e2 => (hcm' e1 e2).elim⟩, fun _ => rfl⟩,
            fun _ => ⟨ip, hp, fun _ e1 e2 => (hcm' e1 e2).elim⟩⟩

theorem get_in {r : Schema} {rep : AttrRep} {a : Attr} (h : r.attrs.get rep = some a) : a ∈ r.attrs.all := by
  unfold Attributes.get at h
  exact List.mem_of_find?_eq_some h

theorem top_of {r : Schema} (hr : r.WF) {a : Attr} (ha : a ∈ r.attrs.all) (hs : a.rep.sub = []) : a ∈ r.attrs.top := by
  rw [hr.topAll]; exact List.mem_filter.mpr ⟨ha, by simp [hs]⟩

/-- The values accepted by declared attributes. -/
theorem target_ok {r : Schema} (hP : Patchable r) {a : Attr} (ha : a ∈ r.attrs.all) {u v : Val} (ht : u.Tame) {ip : Issues}
    (h : a.process .parse (convVal u) = .ok (v, ip)) : ip.hasIssues = false ↔ ValidFor .parse a u := by
  by_cases hs : a.rep.sub = []
  · exact process_ok a (usualAll_iff.mp (hP.proper.usual .parse) a (top_of hP.proper.wf ha hs)) u v ip ht h
  · obtain ⟨i, rfl, hu⟩ := hP.parts a ha hs
    rw [← process_rep _ _ { i.rep with sub := [] }] at h
    rw [simple_ok hu h]
    unfold ValidFor
    exact Iff.rfl

theorem target_missing {r : Schema} (hP : Patchable r) {a : Attr} (ha : a ∈ r.attrs.all) {v : Val} {ip : Issues}
    (h : a.process .parse .missing = .ok (v, ip)) : ip.hasIssues = true := by
  by_cases hs : a.rep.sub = []
  · exact process_missing (usualAll_iff.mp (hP.proper.usual .parse) a (top_of hP.proper.wf ha hs)) (hP.typed a ha) h
  · obtain ⟨i, rfl, hu⟩ := hP.parts a ha hs
    rw [← process_rep _ _ { i.rep with sub := [] }] at h
    have hty := hP.typed _ ha
    exact process_missing hu hty h

/-- Whether an object has something for a part can be seen after processing. -/
theorem part_missing {i : AttrInfo} {subs : List Attr} {ps ds : List Proc} (hu : Usual .parse (.complex i subs ps ds))
    (hs : SaneAll subs) (hm : i.multi = false) {E : List (Str × Val)} (ht : (Val.dict E).Tame) {v : Val} {is : Issues}
    (h : (Attr.complex i subs ps ds).process .parse (convVal (.dict E)) = .ok (v, is)) (hn : is.hasIssues = false) {s : Attr}
    (hsm : s ∈ subs) : v.getItem s.rep = .ok .missing ↔ found s.rep.attr E = none := by
  have hr := complex_single hu hs hm h
  have hval := (process_ok _ hu _ v is ht h).mp hn
  unfold ValidFor at hval
  simp only [hm, Bool.false_eq_true, if_false] at hval
  obtain ⟨D, e, hval⟩ : ∃ D, Val.dict E = .dict D ∧ ValidIn .parse subs D := by
    rcases hval with e | e
    · cases e
    · exact e
  cases e
  obtain ⟨-, hp, hall, -⟩ := hu.complex
  have hpl := hp.plain s hsm
  have hread := getItem_look (clear_of_tame ht hpl.1) hpl.2.1
  rw [look_plain ht hpl.1] at hread
  cases hf : found s.rep.attr E with
  | none =>
    rw [hf] at hread
    exact ⟨fun _ => rfl, fun _ => hr.absent s hsm hread⟩
  | some x =>
    rw [hf] at hread
    dsimp only at hread
    have htx := found_tame ht hf
    have hnm := conv_not_missing htx
    obtain ⟨y, j, hy, hg⟩ := hr.present s hsm _ hread (by
      generalize convVal x = z at hnm
      cases z <;> first | rfl | exact absurd rfl hnm)
    have hv := validIn_iff.mp hval s hsm x (by rw [look_plain ht hpl.1]; exact hf)
    have hus := usualAll_iff.mp hall s hsm
    have hj := (process_ok s hus x y j htx hy).mpr hv
    rw [hg]
    refine ⟨fun e => ?_, fun e => (by cases e)⟩
    cases e
    exact absurd rfl (process_given hus (saneAll_iff.mp hs s hsm) htx hy hj)

theorem update_iff {r : Schema} (hP : Patchable r) {E : List (Str × Val)} (ht : (Val.dict E).Tame) {p : PatchPath}
    {t value o : Val} {io : Issues} (hval : value = match says "value" E with | some x => convVal x | none => .missing)
    (h : parseAddReplace r t (.obj (.path p)) value = .ok (o, io)) : io.hasIssues = false ↔ UpdateAt r p E := by
  by_cases hd : p.Declared r
  · have hu : undeclared r p = false := by
      rw [← Bool.not_eq_true, undeclared_iff]; exact fun h' => h' hd
    have hv : pathIssues r (.obj (.path p)) = {} := by
      show validatePath r p = _
      unfold validatePath; rw [if_neg (by simp [hu])]
    unfold parseAddReplace at h
    rw [hv] at h
    simp only [has_empty, Bool.false_eq_true, if_false] at h
    cases hpv : parseValue r (.obj (.path p)) value with
    | error e => rw [hpv] at h; cases h
    | ok q =>
      obtain ⟨v, iv⟩ := q
      rw [hpv] at h
      cases h
      obtain ⟨rep, hrep, hpu⟩ := parseValue_target hpv
      have hsome : (p.target r).isSome := by
        unfold PatchPath.target
        split
        · rename_i s _ hs
          split
          · exact hd.2 _ hs
          · exact hd.1
        · exact hd.1
      obtain ⟨a, ha⟩ := Option.isSome_iff_exists.mp hsome
      have hget := hrep.trans ha
      have hmem := get_in hget
      obtain ⟨h1, h2⟩ := parseUpdate_iff hget hpu
      rw [hasIssues_merge_false]
      show _ ∧ _ ↔ _
      rw [h1]
      have key : ∀ u ip, says "value" E = some u → a.process .parse value = .ok (v, ip) → ip.hasIssues = false →
          a.isComplex = true → a.info.multi = false → ∀ s ∈ a.subs, (∃ w, v.getItem s.rep = .ok w) →
          (v.getItem s.rep = .ok .missing ↔ under s.rep.attr (some u) = none) := by
        intro u ip hu' hp hn hc hm s hs hw
        have htu := found_tame ht hu'
        rw [hu'] at hval
        dsimp only at hval
        subst hval
        have hsub : a.rep.sub = [] := by
          apply Classical.byContradiction
          intro e
          obtain ⟨i, rfl, -⟩ := hP.parts a hmem e
          cases hc
        have htop := top_of hP.proper.wf hmem hsub
        have hus := usualAll_iff.mp (hP.proper.usual .parse) a htop
        have hsane := saneAll_iff.mp hP.proper.sane a htop
        cases a with
        | simple i => cases hc
        | complex i subs ps ds =>
          unfold Attr.Sane at hsane
          have hvf := (process_ok _ hus u v ip htu hp).mp hn
          unfold ValidFor at hvf
          simp only [show i.multi = false from hm, Bool.false_eq_true, if_false] at hvf
          rcases hvf with rfl | ⟨D, rfl, -⟩
          · rw [show convVal Val.null = .null from rfl, C25_null] at hp
            cases hp
            obtain ⟨w, hw⟩ := hw
            cases hw
          · exact part_missing hus hsane.2 hm htu hp hn hs
      constructor
      · rintro ⟨-, hro, ip, hp, hn, hs⟩
        cases hsay : says "value" E with
        | none =>
          rw [hsay] at hval
          subst hval
          rw [target_missing hP hmem hp] at hn
          cases hn
        | some u =>
          have htu := found_tame ht hsay
          refine ⟨hd, a, u, ha, hro, hsay, ?_, ?_⟩
          · rw [hsay] at hval
            subst hval
            exact (target_ok hP hmem htu hp).mp hn
          · intro hc hm s hsm hsr
            exact (key u ip hsay hp hn hc hm s hsm ⟨_, hs hc hm s hsm hsr⟩).mp (hs hc hm s hsm hsr)
      · rintro ⟨-, a', u, ha', hro, hsay, hvf, hs⟩
        rw [ha] at ha'
        cases ha'
        obtain ⟨ip, hp, hw⟩ := h2 hro
        have htu := found_tame ht hsay
        have hn : ip.hasIssues = false := by
          rw [hsay] at hval
          subst hval
          exact (target_ok hP hmem htu hp).mpr hvf
        refine ⟨rfl, hro, ip, hp, hn, ?_⟩
        intro hc hm s hsm hsr
        exact (key u ip hsay hp hn hc hm s hsm (hw hn hc hm s hsm hsr)).mpr (hs hc hm s hsm hsr)
  · rw [update_undeclared hd] at h
    cases h
    refine ⟨fun e => ?_, fun e => absurd e.1 hd⟩
    cases e

end Scim.PatchA
