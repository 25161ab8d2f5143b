import Verif.Lemmas.BulkBody
import Verif.Lemmas.BulkDone

/-! Which issues stop: all codes a schema reports are among the blocking codes of their location, but for a few. -/

namespace Scim

open Issues

/-- The codes that block at a location. -/
def Issues.stopsAt (i : Issues) (l : Loc) : List Nat := (aget l i.stop).getD []

theorem Issues.stopsAt_add (s : Issues) (e : VErr) (b : Bool) (loc l : Loc) (c : Nat) :
    c ∈ (s.add e b loc).stopsAt l ↔ c ∈ s.stopsAt l ∨ (b = false ∧ loc = l ∧ c = e.code) := by
  unfold stopsAt add
  cases b
  · simp only [Bool.false_eq_true, if_false, updateAt, aget_aset]
    by_cases h : loc = l
    · subst h; simp [mem_unionCodes]
    · simp [h]
  · simp

theorem Issues.stopsAt_mergeLoop (st) (loc : Loc) (s : Issues) (L : List (Loc × List VErr)) (l : Loc) (c : Nat) :
    c ∈ (mergeLoop st loc s L).stopsAt l ↔
      c ∈ s.stopsAt l ∨ ∃ m ∈ L.map (·.1), loc ++ m = l ∧ c ∈ (aget m st).getD [] := by
  induction L generalizing s with
  | nil => simp [mergeLoop]
  | cons p r ih =>
    simp only [mergeLoop, List.foldl_cons]
    have := ih { issues := extendAt (loc ++ p.1) p.2 s.issues
                 stop := updateAt (loc ++ p.1) ((aget p.1 st).getD []) s.stop }
    simp only [mergeLoop] at this
    rw [this]
    simp only [stopsAt, updateAt, aget_aset, List.map_cons, List.mem_cons, exists_eq_or_imp]
    by_cases h : loc ++ p.1 = l
    · simp [h, mem_unionCodes, or_assoc]
    · simp [h]

theorem Issues.stopsAt_merge (s o : Issues) (loc l : Loc) (c : Nat) :
    c ∈ (s.merge o loc).stopsAt l ↔ c ∈ s.stopsAt l ∨ ∃ m ∈ o.issues.map (·.1), loc ++ m = l ∧ c ∈ o.stopsAt m := by
  rw [merge_eq, stopsAt_mergeLoop]; rfl

/-- A well-formed collection whose codes, but for those in `S`, block at their location. -/
structure Issues.Firm (S : Nat → Prop) (i : Issues) : Prop where
  wf : i.WF
  firm : ∀ l, ∀ e ∈ i.errorsAt l, S e.code ∨ e.code ∈ i.stopsAt l

namespace Issues.Firm

variable {S : Nat → Prop}

theorem empty : Firm S {} := ⟨WF.empty, by simp⟩

theorem add {i : Issues} (h : Firm S i) {e : VErr} {b : Bool} (he : b = false ∨ S e.code) (l : Loc) : Firm S (i.add e b l) := by
  refine ⟨h.wf.add _ _ _, ?_⟩
  intro l' e' hm
  rw [errorsAt_add] at hm
  rw [stopsAt_add]
  rcases List.mem_append.mp hm with hm | hm
  · rcases h.firm _ _ hm with h' | h'
    · exact .inl h'
    · exact .inr (.inl h')
  · split at hm
    · rename_i hl
      rw [List.mem_singleton.mp hm]
      rcases he with rfl | he
      · exact .inr (.inr ⟨rfl, hl, rfl⟩)
      · exact .inl he
    · simp at hm

theorem merge {i o : Issues} (h : Firm S i) (ho : Firm S o) (l : Loc) : Firm S (i.merge o l) := by
  refine ⟨h.wf.merge ho.wf l, ?_⟩
  intro l' e' hm
  rw [errorsAt_merge ho.wf] at hm
  rw [stopsAt_merge]
  rcases List.mem_append.mp hm with hm | hm
  · rcases h.firm _ _ hm with h' | h'
    · exact .inl h'
    · exact .inr (.inl h')
  · split at hm
    · rename_i hp
      obtain ⟨m, rfl⟩ := hp
      rw [List.drop_left] at hm
      rcases ho.firm _ _ hm with h' | h'
      · exact .inl h'
      · refine .inr (.inr ⟨m, ?_, rfl, h'⟩)
        rw [← errorsAt_ne_nil_iff ho.wf]
        intro e; rw [e] at hm; cases hm
    · simp at hm

theorem blocking (c : Nat) : Firm S (Scim.blocking c) := empty.add (e := ⟨c, []⟩) (.inl rfl) _

end Issues.Firm

variable [PyEnv]

section
variable {S : Nat → Prop}

theorem parse_firm (t : AttrType) (v r : Val) (i : Issues) (h : t.parse v = .ok (r, i)) :
    i.Firm S := by
  have b : ∀ c, (blocking c).Firm S := fun c => .blocking c
  have b1 := b 1
  have b2 := b 2
  have b3 := b 3
  have b8 := b 8
  have e0 : Issues.Firm S {} := .empty
  cases t with
  | unknown => simp only [AttrType.parse, Except.ok.injEq, Prod.mk.injEq] at h; rw [← h.2]; exact e0
  | boolean =>
    simp only [AttrType.parse, booleanConv] at h
    split at h <;> cases h
    · exact e0
    · exact b2
  | decimal =>
    simp only [AttrType.parse, decimalConv] at h
    split at h
    · cases h; exact e0
    · split at h
      · split at h <;> cases h
        exact e0
      · cases h; exact b2
    · cases h; exact b2
  | integer =>
    simp only [AttrType.parse, integerConv] at h
    split at h
    · split at h
      · cases h
      · split at h <;> cases h
        · exact e0
        · exact b2
    · cases h; exact e0
    · cases h; exact e0
    · cases h; exact b2
  | binary =>
    simp only [AttrType.parse, binaryConv] at h
    split at h
    · split at h
      · cases h
      · split at h
        · cases h; exact b3
        · split at h <;> cases h
          · exact b3
          · exact e0
    · cases h; exact b2
  | extRef =>
    simp only [AttrType.parse, extRefConv] at h
    split at h
    · split at h <;> cases h
      · exact e0
      · exact e0.merge b8 []
    · cases h; exact b2
  | dateTime =>
    simp only [AttrType.parse] at h
    split at h
    · split at h <;> cases h
      · exact e0
      · exact b1
    · cases h; exact b2
  | complex =>
    simp only [AttrType.parse] at h
    split at h <;> cases h
    · exact e0
    · exact b2
  | string | uriRef | scimRef =>
    simp only [AttrType.parse, stringConv] at h
    split at h <;> cases h
    · exact e0
    · exact b2

theorem conv_firm {m : Mode} {t : AttrType} {v r : Val} {i : Issues} (h : t.conv m v = .ok (r, i)) :
    i.Firm S := by
  cases m
  · exact parse_firm t v r i h
  · have h : t.dump v = .ok (r, i) := h
    by_cases hd : t = .dateTime
    · subst hd
      simp only [AttrType.dump] at h
      split at h <;> cases h
      · exact .empty
      · exact .blocking _
    · have h' : t.parse v = .ok (r, i) := by
        cases t <;> first | exact absurd rfl hd | exact h
      exact parse_firm t v r i h'

end

section
variable {S : Nat → Prop}

theorem processOne_firm {m : Mode} {a : AttrInfo} {loc : Loc} {v r : Val} {s is : Issues} (hs : s.Firm S)
    (h : a.processOne m loc v s = .ok (r, is)) : is.Firm S := by
  unfold AttrInfo.processOne at h
  split at h
  · cases h
  · rename_i item i hc
    simp only at h
    split at h <;> cases h
    · exact (hs.merge (conv_firm hc) loc).add (.inl rfl) _
    · exact hs.merge (conv_firm hc) loc

theorem processItems_firm {m : Mode} {a : AttrInfo} {k : Nat} {xs ys : List Val} {s is : Issues} (hs : s.Firm S)
    (h : a.processItems m k xs s = .ok (ys, is)) : is.Firm S := by
  induction xs generalizing k s ys with
  | nil => simp only [AttrInfo.processItems] at h; cases h; exact hs
  | cons x xs ih =>
    simp only [AttrInfo.processItems] at h
    split at h
    · cases h
    · rename_i item s1 hx
      split at h
      · cases h
      · rename_i items s2 hr
        cases h
        exact ih (processOne_firm hs hx) hr

omit [PyEnv] in
theorem runProcs_firm {ps : List Proc} (hps : ∀ p ∈ ps, ∀ v r is, p v = .ok (r, is) → is.Firm S) {v r : Val}
    {s is : Issues} (hs : s.Firm S) (h : runProcs ps v s = .ok (r, is)) : is.Firm S := by
  induction ps generalizing v s with
  | nil => simp only [runProcs] at h; cases h; exact hs
  | cons p ps ih =>
    simp only [runProcs] at h
    split at h
    · cases h
    · rename_i v' i hp
      exact ih (fun q hq => hps q (List.mem_cons_of_mem _ hq)) (hs.merge (hps p (by simp) _ _ _ hp) []) h

theorem base_firm {m : Mode} {a : AttrInfo} {v : Val} {o : Option Val} {is : Issues}
    (h : a.base m v = .ok (o, is)) : is.Firm S := by
  unfold AttrInfo.base at h
  split at h
  · split at h
    · split at h
      · cases h
      · rename_i hx; cases h; exact processItems_firm .empty hx
    · cases h; exact .blocking _
  · split at h
    · cases h
    · rename_i hx; cases h; exact processOne_firm .empty hx

theorem info_process_firm {m : Mode} {a : AttrInfo} (ha : ∀ p ∈ a.procs m, ∀ v r is, p v = .ok (r, is) → is.Firm S)
    {v r : Val} {is : Issues} (h : a.process m v = .ok (r, is)) : is.Firm S := by
  rw [info_process_eq] at h
  split at h
  · cases h; exact .empty
  · split at h
    · cases h
    · rename_i hb; cases h; exact base_firm hb
    · rename_i p i hb
      split at h
      · cases h; exact base_firm hb
      · exact runProcs_firm ha (base_firm hb) h

theorem complexItems_firm {f : Loc → Val → Issues → PyM (Val × Issues)}
    (hf : ∀ loc v s r is, s.Firm S → f loc v s = .ok (r, is) → is.Firm S) {k : Nat} {xs ys : List Val}
    {s is : Issues} (hs : s.Firm S) (h : complexItems f k xs s = .ok (ys, is)) : is.Firm S := by
  induction xs generalizing k s ys with
  | nil => simp only [complexItems] at h; cases h; exact hs
  | cons x xs ih =>
    simp only [complexItems] at h
    split at h
    · cases h
    · rename_i item s1 hx
      split at h
      · cases h
      · rename_i items s2 hr
        cases h
        exact ih (hf _ _ _ _ _ hs hx) hr

omit [PyEnv] in
/-- The processor reports only such codes. -/
def ProcFirm (S : Nat → Prop) (p : Proc) : Prop := ∀ v r is, p v = .ok (r, is) → is.Firm S

mutual
/-- The processors of an attribute, and of its sub-attributes, report only such codes. -/
def _root_.Scim.Attr.ProcsFirm (S : Nat → Prop) (m : Mode) : Attr → Prop
  | .simple i => ∀ p ∈ i.procs m, ProcFirm S p
  | .complex i subs ps ds =>
    (∀ p ∈ i.procs m, ProcFirm S p) ∧ (∀ p ∈ (match m with | .parse => ps | .dump => ds), ProcFirm S p) ∧ ProcsFirmAll S m subs
/-- the same for all attributes of a list -/
def _root_.Scim.ProcsFirmAll (S : Nat → Prop) (m : Mode) : List Attr → Prop
  | [] => True
  | a :: r => a.ProcsFirm S m ∧ ProcsFirmAll S m r
end

omit [PyEnv] in
theorem procsFirmAll_iff {m : Mode} {as : List Attr} : ProcsFirmAll S m as ↔ ∀ a ∈ as, a.ProcsFirm S m := by
  induction as with
  | nil => simp [ProcsFirmAll]
  | cons a as ih => simp [ProcsFirmAll, ih]

mutual
theorem process_firm {m : Mode} : ∀ (a : Attr), a.ProcsFirm S m → ∀ {v r : Val} {is : Issues},
    a.process m v = .ok (r, is) → is.Firm S
  | .simple info, hs, v, r, is, h => by
    rw [Attr.process] at h
    exact info_process_firm hs h
  | .complex info subs ps ds, hs, v, r, is, h => by
    obtain ⟨hs1, hs2, hs3⟩ := hs
    rw [complex_process_eq] at h
    split at h
    · cases h
    · rename_i value issues hi
      have hw : issues.Firm S := info_process_firm hs1 hi
      split at h
      · cases h; exact hw
      · split at h
        · cases h
        · rename_i parsed issues2 hb
          have hw2 : issues2.Firm S := by
            unfold complexBody at hb
            split at hb
            · split at hb
              · split at hb
                · cases hb
                · rename_i hc
                  cases hb
                  exact complexItems_firm (fun loc v s r is hs h => processSubs_firm subs hs3 hs h) hw hc
              · cases hb
            · exact processSubs_firm subs hs3 hw hb
          split at h
          · cases h; exact hw2
          · exact runProcs_firm hs2 hw2 h
theorem processSubs_firm {m : Mode} : ∀ (ss : List Attr), ProcsFirmAll S m ss → ∀ {loc : Loc} {item parsed r : Val}
    {s is : Issues}, s.Firm S → processSubs m ss loc item parsed s = .ok (r, is) → is.Firm S
  | [], _, loc, item, parsed, r, s, is, hw, h => by
    rw [processSubs] at h; cases h; exact hw
  | a :: ss, hs, loc, item, parsed, r, s, is, hw, h => by
    have hs1 : a.ProcsFirm S m := hs.1
    have hs2 : ProcsFirmAll S m ss := hs.2
    rw [processSubs] at h
    split at h
    · cases h
    · exact processSubs_firm ss hs2 hw h
    · split at h
      · cases h
      · rename_i hp
        split at h
        · cases h
        · exact processSubs_firm ss hs2 (hw.merge (process_firm a hs1 hp) _) h
end

theorem processTop_firm {m : Mode} : ∀ (as : List Attr), ProcsFirmAll S m as → ∀ {data r0 r : Val} {s is : Issues}, s.Firm S →
    processTop m as data r0 s = .ok (r, is) → is.Firm S
  | [], _, data, r0, r, s, is, hw, h => by rw [processTop] at h; cases h; exact hw
  | a :: as, hs, data, r0, r, s, is, hw, h => by
    rw [processTop] at h
    split at h
    · cases h
    · exact processTop_firm as hs.2 hw h
    · split at h
      · cases h
      · rename_i hp
        split at h
        · cases h
        · exact processTop_firm as hs.2 (hw.merge (process_firm a hs.1 hp) _) h

end

section
variable {S : Nat → Prop}

theorem procFirm_primary (h9 : S 9) : ProcFirm S validateSinglePrimary := by
  intro v r is hv
  unfold validateSinglePrimary at hv
  split at hv
  · split at hv
    · cases hv
    · cases hv
      split
      · exact Issues.Firm.empty.add (e := ⟨9, []⟩) (.inr h9) _
      · exact .empty
  · cases hv

mutual
/-- The processors of standard attributes. -/
theorem standard_procsFirm {m : Mode} (h9 : S 9) : ∀ (a : Attr), a.Standard m → a.ProcsFirm S m
  | .simple info, hs => by
    intro p hp v r is hv
    have hs' : info.procs m = [] ∨ (info.type = .string ∧ info.multi = false ∧ info.procs m = [bulkIdValidator]) := hs
    have hp' : p ∈ info.procs m := hp
    rcases hs' with hs' | ⟨_, _, hs'⟩
    · rw [hs'] at hp'; simp at hp'
    · rw [hs'] at hp'
      rw [List.mem_singleton.mp hp'] at hv
      unfold bulkIdValidator at hv
      split at hv
      · split at hv <;> cases hv
        · exact .blocking _
        · exact .empty
      · cases hv
  | .complex info subs ps ds, hs => by
    obtain ⟨_, _, hs1, hs2, _, hs3⟩ := hs
    refine ⟨?_, ?_, standard_procsFirmAll h9 subs hs3⟩
    · intro p hp
      have hp' : p ∈ info.procs m := hp
      rw [hs1] at hp'; simp at hp'
    · intro p hp
      rw [(hs2 p hp).1]
      exact procFirm_primary h9
theorem standard_procsFirmAll {m : Mode} (h9 : S 9) : ∀ (as : List Attr), StandardAll m as → ProcsFirmAll S m as
  | [], _ => trivial
  | a :: as, hs => ⟨standard_procsFirm h9 a hs.1, standard_procsFirmAll h9 as hs.2⟩
end

end

section
variable {S : Nat → Prop}

omit [PyEnv] in
theorem schemasLoop_firm (h27 : S 27) {main : Str} {known : List Str} : ∀ {l : List Str} {a b : Bool} {s : Issues},
    s.Firm S → (schemasLoop main known l a b s).2.Firm S
  | [], _, _, _, hs => hs
  | x :: r, a, b, s, hs => by
    rw [schemasLoop]
    split
    · exact schemasLoop_firm h27 hs
    · split
      · exact schemasLoop_firm h27 (hs.add (e := ⟨27, []⟩) (.inr h27) _)
      · exact schemasLoop_firm h27 hs

theorem extKeysLoop_firm (h29 : S 29) {known listed : List Str} : ∀ {l : List Str} {s : Issues},
    s.Firm S → (extKeysLoop known listed l s).Firm S
  | [], _, hs => hs
  | k :: r, s, hs => by
    rw [extKeysLoop]
    refine extKeysLoop_firm h29 ?_
    split
    · exact hs.add (e := ⟨29, k⟩) (.inr h29) _
    · exact hs

theorem validateSchemasField_firm (h27 : S 27) (h28 : S 28) (h29 : S 29) {d : Val} {xs : List Val} {main : Str}
    {known : List Str} {is : Issues} (h : validateSchemasField d xs main known = .ok is) : is.Firm S := by
  unfold validateSchemasField at h
  split at h
  · cases h
  · rename_i listed hl
    cases h
    refine extKeysLoop_firm h29 ?_
    split
    · exact schemasLoop_firm h27 .empty
    · exact (schemasLoop_firm h27 .empty).add (e := ⟨28, []⟩) (.inr h28) _

end

/-- The codes that do not block. -/
def softCodes : List Nat := [9, 17, 27, 28, 29]

theorem schema_process_firm {m : Mode} {s : Schema} (hs : StandardAll m s.attrs.top) {data r : Val} {is : Issues}
    (hd : data.isNone = false) (h : s.process m data = .ok (r, is)) : is.Firm (· ∈ softCodes) := by
  unfold Schema.process at h
  rw [hd, if_neg (by simp)] at h
  split at h
  · cases h; exact .blocking _
  · split at h
    · cases h
    · rename_i r1 is1 ht
      have h1 : is1.Firm (· ∈ softCodes) :=
        processTop_firm _ (standard_procsFirmAll (by decide) _ hs) .empty ht
      simp only at h
      split at h
      · cases h
      · split at h
        · cases h
        · split at h
          · split at h
            · split at h
              · cases h
              · rename_i hv
                cases h
                exact (Issues.Firm.empty.merge h1 []).merge
                  (validateSchemasField_firm (by decide) (by decide) (by decide) hv) []
            · cases h
          · cases h; exact Issues.Firm.empty.merge h1 []

theorem schema_process_firm' {m : Mode} {s : Schema} (hs : StandardAll m s.attrs.top) {data r : Val} {is : Issues}
    (h : s.process m data = .ok (r, is)) : is.Firm (· ∈ softCodes) := by
  cases hd : data.isNone
  · exact schema_process_firm hs hd h
  · unfold Schema.process at h
    rw [hd, if_pos rfl] at h
    cases h
    exact .blocking _

theorem schema_dump_firm {s : Schema} (hs : StandardAll .dump s.attrs.top) {data r : Val} {is : Issues}
    (h : s.dump data = .ok (r, is)) : is.Firm (· ∈ softCodes) := by
  unfold Schema.dump at h
  split at h
  · cases h
  · rename_i r0 is0 hp
    have h0 := schema_process_firm' hs hp
    repeat' split at h
    all_goals first
      | (cases h; done)
      | (cases h; exact h0)
      | skip
    rename_i is2 hv
    cases h
    refine h0.merge ?_ _
    unfold validateResourceType at hv
    split at hv
    · cases hv
    · cases hv
      split
      · exact .empty
      · exact Issues.Firm.empty.add (e := ⟨17, []⟩) (.inr (by decide)) _

/-! ### Presence checks -/

theorem checkPresence_firm (c : Checker) (v : Val) (d : Direction) (a : Attr) : (c.checkPresence v d a).Firm (· = 19) := by
  have h19 : (Issues.empty.add ⟨19, []⟩ true).Firm (· = 19) := Issues.Firm.add (S := (· = 19)) .empty (.inr rfl) _
  have h15 : (Issues.empty.add ⟨15, []⟩ false).Firm (· = 19) := Issues.Firm.empty.add (.inl rfl) _
  unfold Checker.checkPresence
  repeat' split
  all_goals first
    | exact .empty
    | exact h19
    | exact h15

theorem checkItems_firm {c : Checker} {d : Direction} {a : Attr} {n : Nat} {xs : List Val} {s r : Issues}
    (hs : s.Firm (· = 19)) (h : c.checkItems d a n xs s = .ok r) : r.Firm (· = 19) := by
  induction xs generalizing n s with
  | nil => simp only [Checker.checkItems, Except.ok.injEq] at h; subst h; exact hs
  | cons x xs ih =>
    rw [Checker.checkItems] at h
    split at h
    · simp at h
    · split at h
      · simp at h
      · exact ih hs h
      · exact ih (hs.merge (checkPresence_firm _ _ _ _) _) h

theorem checkAttr_firm {c : Checker} {data : Val} {attrs : Attributes} {d : Direction} {a : Attr} {s r : Issues}
    (hs : s.Firm (· = 19)) (h : c.checkAttr data attrs d a s = .ok r) : r.Firm (· = 19) := by
  unfold Checker.checkAttr at h
  have hm : ∀ v l, (s.merge (c.checkPresence v d a) l).Firm (· = 19) := fun v l => hs.merge (checkPresence_firm _ _ _ _) _
  have hsing : ∀ {r}, (match data.getItem a.rep with
      | .error e => Except.error e
      | .ok .invalid => Except.ok s
      | .ok v => Except.ok (s.merge (c.checkPresence v d a) a.rep.loc)) = Except.ok r → r.Firm (· = 19) := by
    intro r h
    split at h
    · cases h
    · cases h; exact hs
    · cases h; exact hm _ _
  simp only at h
  split at h
  · cases h
  · split at h
    · exact hsing h
    · split at h
      · cases h
      · split at h
        · exact hsing h
        · split at h
          all_goals first
            | (cases h; done)
            | (cases h; exact hs)
            | (cases h; exact hm _ _)
            | exact checkItems_firm hs h

theorem checkAll_firm {c : Checker} {data : Val} {attrs : Attributes} {d : Direction} {as : List Attr} {s r : Issues}
    (hs : s.Firm (· = 19)) (h : c.checkAll data attrs d as s = .ok r) : r.Firm (· = 19) := by
  induction as generalizing s with
  | nil => simp only [Checker.checkAll, Except.ok.injEq] at h; subst h; exact hs
  | cons a as ih =>
    rw [Checker.checkAll] at h
    split at h
    · simp at h
    · rename_i s' hs'
      exact ih (checkAttr_firm hs hs') h

theorem call_firm {c : Checker} {data : Val} {attrs : Attributes} {d : Direction} {r : Issues}
    (h : c.call data attrs d = .ok r) : r.Firm (· = 19) := checkAll_firm .empty h

omit [PyEnv] in
theorem Issues.Firm.mono {S T : Nat → Prop} (hST : ∀ c, S c → T c) {i : Issues} (h : i.Firm S) : i.Firm T :=
  ⟨h.wf, fun l e he => (h.firm l e he).imp (hST _) id⟩

/-! ### Taking issues out -/

omit [PyEnv] in
theorem popLoop_none {code : Nat} : ∀ (f i : Nat) (l : List VErr), (∀ e ∈ l, e.code ≠ code) → popLoop code f i l = l
  | 0, _, l, _ => by rw [popLoop]
  | f + 1, i, l, h => by
    rw [popLoop]
    split
    · rfl
    · rename_i x hx
      rw [if_neg (h x (List.mem_of_getElem? hx))]
      exact popLoop_none f (i + 1) l h

omit [PyEnv] in
theorem erase_last {e : VErr} : ∀ {A : List VErr}, e ∉ A → (A ++ [e]).erase e = A
  | [], _ => by simp
  | a :: A, h => by
    rw [List.cons_append, List.erase_cons_tail, erase_last (fun h' => h (List.mem_cons_of_mem _ h'))]
    simp only [beq_iff_eq]
    rintro rfl
    exact h (by simp)

omit [PyEnv] in
/-- The only issue with the code, the last one, is taken out. -/
theorem popLoop_last {code : Nat} {e : VErr} (he : e.code = code) {A : List VErr} (hA : ∀ a ∈ A, a.code ≠ code) :
    ∀ (f i : Nat), i + f = A.length + 1 → popLoop code f i (A ++ [e]) = if f = 0 then A ++ [e] else A
  | 0, i, _ => by rw [popLoop]; rfl
  | f + 1, i, hi => by
    rw [if_neg (by omega), popLoop]
    by_cases hl : i < A.length
    · rw [List.getElem?_append_left hl, List.getElem?_eq_getElem hl]
      simp only
      rw [if_neg (hA _ (List.getElem_mem hl)), popLoop_last he hA f (i + 1) (by omega), if_neg (by omega)]
    · have : i = A.length := by omega
      subst this
      rw [List.getElem?_append_right (Nat.le_refl _)]
      simp only [Nat.sub_self, List.getElem?_cons_zero]
      rw [if_pos he, erase_last (fun h => hA _ h he), popLoop_none _ _ _ hA]

omit [PyEnv] in
/-- What is left after taking out the only issue of a kind still stops, if the rest does. -/
theorem Issues.AllStop.pop {i : Issues} (hw : i.WF) (h : i.AllStop) {l : Loc} {code : Nat} {A : List VErr}
    (hA : ∀ a ∈ A, a.code ≠ code ∧ a.code ∈ i.stopsAt l)
    (he : i.errorsAt l = A ∨ ∃ e, e.code = code ∧ i.errorsAt l = A ++ [e]) : (i.pop l code).AllStop := by
  intro q hq
  unfold Issues.pop at hq ⊢
  cases hg : aget l i.issues with
  | none => rw [hg] at hq; exact h q hq
  | some errs =>
    rw [hg] at hq
    simp only at hq ⊢
    have hea : i.errorsAt l = errs := by unfold errorsAt; rw [hg]; rfl
    rw [hea] at he
    have hpl : popLoop code errs.length 0 errs = A := by
      rcases he with he | ⟨e, hc, he⟩
      · rw [he, popLoop_none _ _ _ (fun a ha => (hA a ha).1)]
      · rw [he, popLoop_last hc (fun a ha => (hA a ha).1) _ _ (by simp), if_neg (by simp)]
    rw [hpl] at hq
    have hother : ∀ k : Loc, k ≠ l → ∀ st : List (Loc × List Nat),
        st = (if popHits code errs then
          match aget l i.stop with
          | some codes => aset l (codes.erase code) i.stop
          | none => i.stop
        else i.stop) → aget k (match aget l st with | some [] => adel l st | _ => st) = aget k i.stop := by
      intro k hk st hst
      have h1 : aget k st = aget k i.stop := by
        rw [hst]
        split
        · split
          · rw [aget_aset_ne (Ne.symm hk)]
          · rfl
        · rfl
      split
      · rw [aget_adel_ne (Ne.symm hk), h1]
      · exact h1
    by_cases hql : q.1 = l
    · have hne : A ≠ [] := by
        intro e
        rw [e] at hq
        simp only [List.isEmpty_nil, if_true] at hq
        have hm : q.1 ∈ (adel l i.issues).map (·.1) := List.mem_map.mpr ⟨q, hq, rfl⟩
        rw [← aget_isSome_iff, hql, aget_adel_self hw.keys] at hm
        cases hm
      obtain ⟨a, ha⟩ := List.exists_mem_of_ne_nil A hne
      obtain ⟨h1, h2⟩ := hA a ha
      unfold stopsAt at h2
      cases hs : aget l i.stop with
      | none => rw [hs] at h2; simp at h2
      | some cs =>
        rw [hs] at h2
        simp only [Option.getD_some] at h2
        simp only [hql]
        cases popHits code errs
        · simp only [Bool.false_eq_true, if_false, hs]
          cases cs with
          | nil => simp at h2
          | cons c cs => simp [hs]
        · simp only [if_true, aget_aset_self]
          have : a.code ∈ cs.erase code := (List.mem_erase_of_ne h1).mpr h2
          generalize hce : cs.erase code = ce at this
          cases ce with
          | nil => simp at this
          | cons c ce => simp [aget_aset_self]
    · have hin : q.1 ∈ i.issues.map (·.1) := by
        have hm := List.mem_map_of_mem (f := (·.1)) hq
        split at hm
        · exact mem_keys_adel hm
        · exact (mem_keys_aset.mp hm).resolve_left hql
      have := hother q.1 hql _ rfl
      obtain ⟨q', h1, h2⟩ := List.mem_map.mp hin
      have hq' := h q' h1
      rw [h2, ← this] at hq'
      exact hq'

end Scim
