import Verif.Spec.Attributes
import Verif.Lemmas.IssuesMore
import Verif.Lemmas.Container
import Verif.Props.Types

/-! Helper lemmas about processing attribute values. -/

namespace Scim
open Issues

theorem wf_blocking (c : Nat) (loc : Loc := []) : (blocking c loc).WF := WF.empty.add _ _ _

theorem errorsAt_blocking (c : Nat) (loc l : Loc) :
    (blocking c loc).errorsAt l = if loc = l then [⟨c, []⟩] else [] := by
  unfold blocking; rw [errorsAt_add]; simp

section
variable [PyEnv]

/-- What a type conversion can report. -/
theorem parse_issues (t : AttrType) (v r : Val) (i : Issues) (h : t.parse v = .ok (r, i)) :
    i = {} ∨ ∃ c, i = blocking c ∨ i = Issues.empty.merge (blocking c) := by
  cases t with
  | unknown => simp only [AttrType.parse, Except.ok.injEq, Prod.mk.injEq] at h; exact .inl h.2.symm
  | boolean =>
    simp only [AttrType.parse, booleanConv] at h
    split at h <;> cases h
    · exact .inl rfl
    · exact .inr ⟨2, .inl rfl⟩
  | decimal =>
    simp only [AttrType.parse, decimalConv] at h
    split at h
    · cases h; exact .inl rfl
    · split at h
      · split at h <;> cases h
        exact .inl rfl
      · cases h; exact .inr ⟨2, .inl rfl⟩
    · cases h; exact .inr ⟨2, .inl rfl⟩
  | integer =>
    simp only [AttrType.parse, integerConv] at h
    split at h
    · split at h
      · cases h
      · split at h <;> cases h
        · exact .inl rfl
        · exact .inr ⟨2, .inl rfl⟩
    · cases h; exact .inl rfl
    · cases h; exact .inl rfl
    · cases h; exact .inr ⟨2, .inl rfl⟩
  | binary =>
    simp only [AttrType.parse, binaryConv] at h
    split at h
    · split at h
      · cases h
      · split at h
        · cases h; exact .inr ⟨3, .inl rfl⟩
        · split at h <;> cases h
          · exact .inr ⟨3, .inl rfl⟩
          · exact .inl rfl
    · cases h; exact .inr ⟨2, .inl rfl⟩
  | extRef =>
    simp only [AttrType.parse, extRefConv] at h
    split at h
    · split at h <;> cases h
      · exact .inl rfl
      · exact .inr ⟨8, .inr rfl⟩
    · cases h; exact .inr ⟨2, .inl rfl⟩
  | dateTime =>
    simp only [AttrType.parse] at h
    split at h
    · split at h <;> cases h
      · exact .inl rfl
      · exact .inr ⟨1, .inl rfl⟩
    · cases h; exact .inr ⟨2, .inl rfl⟩
  | complex =>
    simp only [AttrType.parse] at h
    split at h <;> cases h
    · exact .inl rfl
    · exact .inr ⟨2, .inl rfl⟩
  | string | uriRef | scimRef =>
    simp only [AttrType.parse, stringConv] at h
    split at h <;> cases h
    · exact .inl rfl
    · exact .inr ⟨2, .inl rfl⟩

theorem dump_issues (t : AttrType) (v r : Val) (i : Issues) (h : t.dump v = .ok (r, i)) :
    i = {} ∨ ∃ c, i = blocking c ∨ i = Issues.empty.merge (blocking c) := by
  by_cases hd : t = .dateTime
  · subst hd
    simp only [AttrType.dump] at h
    split at h <;> cases h
    · exact .inl rfl
    · exact .inr ⟨2, .inl rfl⟩
  · have h' : t.parse v = .ok (r, i) := by
      cases t <;> first | exact absurd rfl hd | exact h
    exact parse_issues t v r i h'

theorem conv_issues {m : Mode} {t : AttrType} {v r : Val} {i : Issues} (h : t.conv m v = .ok (r, i)) :
    i = {} ∨ ∃ c, i = blocking c ∨ i = Issues.empty.merge (blocking c) := by
  cases m
  · exact parse_issues t v r i h
  · exact dump_issues t v r i h

theorem conv_wf {m : Mode} {t : AttrType} {v r : Val} {i : Issues} (h : t.conv m v = .ok (r, i)) : i.WF := by
  rcases conv_issues h with rfl | ⟨c, rfl | rfl⟩
  · exact WF.empty
  · exact wf_blocking c
  · exact WF.empty.merge (wf_blocking c) []

/-- A type conversion files its issues at the empty location. -/
theorem conv_errors {m : Mode} {t : AttrType} {v r : Val} {i : Issues} (h : t.conv m v = .ok (r, i))
    {l : Loc} (hl : l ≠ []) : i.errorsAt l = [] := by
  rcases conv_issues h with rfl | ⟨c, rfl | rfl⟩
  · rfl
  · rw [errorsAt_blocking, if_neg (Ne.symm hl)]
  · rw [errorsAt_merge (wf_blocking c), errorsAt_blocking]
    simp [Ne.symm hl]

theorem conv_dichotomy {m : Mode} {t : AttrType} (ht : t ≠ .unknown) {v r : Val} {i : Issues}
    (h : t.conv m v = .ok (r, i)) : (r = .invalid ∧ i.Blocks) ∨ (i = {} ∧ r ≠ .invalid) := by
  cases m
  · rcases C19_parse_dichotomy t ht v r i h with h | ⟨h1, _, h2⟩
    · exact .inl h
    · exact .inr ⟨h1, h2⟩
  · rcases C19_dump_dichotomy t ht v r i h with h | ⟨h1, _, h2⟩
    · exact .inl h
    · exact .inr ⟨h1, h2⟩

theorem conv_unknown (m : Mode) (v : Val) : AttrType.unknown.conv m v = .ok (v, {}) := by
  cases m <;> rfl

/-- One value, at the empty location: what `processOne` reports. -/
def AttrInfo.one (m : Mode) (a : AttrInfo) (v : Val) : PyM (Val × Issues) := a.processOne m [] v {}

theorem processOne_wf {m : Mode} {a : AttrInfo} {loc : Loc} {v r : Val} {s is : Issues} (hs : s.WF)
    (h : a.processOne m loc v s = .ok (r, is)) : is.WF := by
  unfold AttrInfo.processOne at h
  split at h
  · cases h
  · rename_i item i hc
    simp only at h
    split at h <;> cases h
    · exact (hs.merge (conv_wf hc) loc).add _ _ _
    · exact hs.merge (conv_wf hc) loc

/-- Processing at a location adds what processing at the empty location reports, below that location. -/
theorem processOne_at {m : Mode} {a : AttrInfo} {loc : Loc} {v r : Val} {s is : Issues}
    (h : a.processOne m loc v s = .ok (r, is)) :
    ∃ i1, a.one m v = .ok (r, i1) ∧ i1.WF ∧ (∀ l, l ≠ [] → i1.errorsAt l = []) ∧
      (∀ l, is.errorsAt l = s.errorsAt l ++ if loc <+: l then i1.errorsAt (l.drop loc.length) else []) ∧
      (is.hasIssues = true ↔ s.hasIssues = true ∨ i1.hasIssues = true) := by
  unfold AttrInfo.one
  unfold AttrInfo.processOne at h ⊢
  cases hc : a.type.conv m v with
  | error e => rw [hc] at h; cases h
  | ok p =>
    obtain ⟨item, i⟩ := p
    rw [hc] at h
    simp only at h ⊢
    have hw : i.WF := conv_wf hc
    by_cases hcan : (!a.isCanonical item && a.validateCanon) = true
    · rw [if_pos hcan] at h ⊢
      cases h
      refine ⟨_, rfl, (WF.empty.merge hw []).add _ _ _, ?_, ?_, ?_⟩
      · intro l hl
        rw [errorsAt_add, errorsAt_merge hw, if_neg (Ne.symm hl)]
        simp [conv_errors hc hl]
      · intro l
        rw [errorsAt_add, errorsAt_merge hw, List.append_assoc]
        congr 1
        by_cases hp : loc <+: l
        · rw [if_pos hp, if_pos hp, errorsAt_add, errorsAt_merge hw]
          simp only [errorsAt_empty, List.nil_append, List.nil_prefix, if_true, List.length_nil, List.drop_zero]
          congr 1
          obtain ⟨t, rfl⟩ := hp
          cases t <;> simp
        · rw [if_neg hp, if_neg hp]
          have : loc ≠ l := fun e => hp (e ▸ List.prefix_refl _)
          simp [this]
      · simp [hasIssues_add]
    · rw [if_neg hcan] at h ⊢
      cases h
      refine ⟨_, rfl, WF.empty.merge hw [], ?_, ?_, ?_⟩
      · intro l hl
        rw [errorsAt_merge hw]
        simp [conv_errors hc hl]
      · intro l
        rw [errorsAt_merge hw]
        congr 1
        by_cases hp : loc <+: l
        · rw [if_pos hp, if_pos hp, errorsAt_merge hw]
          simp
        · rw [if_neg hp, if_neg hp]
      · rw [hasIssues_merge, hasIssues_merge]
        simp [(hasIssues_false_iff {}).mpr rfl]

theorem processItems_wf {m : Mode} {a : AttrInfo} {k : Nat} {xs ys : List Val} {s is : Issues} (hs : s.WF)
    (h : a.processItems m k xs s = .ok (ys, is)) : is.WF := by
  induction xs generalizing k s ys with
  | nil => simp only [AttrInfo.processItems] at h; cases h; exact hs
  | cons x xs ih =>
    simp only [AttrInfo.processItems] at h
    split at h
    · cases h
    · rename_i item s1 hx
      split at h
      · cases h
      · rename_i items s2 hr
        cases h
        exact ih (processOne_wf hs hx) hr

theorem processItems_length {m : Mode} {a : AttrInfo} {k : Nat} {xs ys : List Val} {s is : Issues}
    (h : a.processItems m k xs s = .ok (ys, is)) : ys.length = xs.length := by
  induction xs generalizing k s ys with
  | nil => simp only [AttrInfo.processItems] at h; cases h; rfl
  | cons x xs ih =>
    simp only [AttrInfo.processItems] at h
    split at h
    · cases h
    · rename_i item s1 hx
      split at h
      · cases h
      · rename_i items s2 hr
        cases h
        simp [ih hr]

/-- The items of a multi-valued attribute, one by one. -/
theorem processItems_spec {m : Mode} {a : AttrInfo} {k : Nat} {xs ys : List Val} {s is : Issues}
    (h : a.processItems m k xs s = .ok (ys, is)) :
    (∀ i x, xs[i]? = some x → ∃ y i1, ys[i]? = some y ∧ a.one m x = .ok (y, i1) ∧
      ∀ l, is.errorsAt (.idx (k + i) :: l) = s.errorsAt (.idx (k + i) :: l) ++ i1.errorsAt l) ∧
    (∀ l, (∀ i l', i < xs.length → l ≠ .idx (k + i) :: l') → is.errorsAt l = s.errorsAt l) ∧
    (is.hasIssues = true ↔ s.hasIssues = true ∨ ∃ x ∈ xs, ∃ y i1, a.one m x = .ok (y, i1) ∧ i1.hasIssues = true) := by
  induction xs generalizing k s ys with
  | nil =>
    simp only [AttrInfo.processItems] at h; cases h
    exact ⟨by simp, by simp, by simp⟩
  | cons x xs ih =>
    simp only [AttrInfo.processItems] at h
    split at h
    · cases h
    · rename_i item s1 hx
      split at h
      · cases h
      · rename_i items s2 hr
        cases h
        obtain ⟨i1, hone, hw, hnl, hat, hhas⟩ := processOne_at hx
        obtain ⟨h1, h2, h3⟩ := ih hr
        refine ⟨?_, ?_, ?_⟩
        · intro i z hz
          cases i with
          | zero =>
            simp only [List.getElem?_cons_zero, Option.some.injEq] at hz
            subst hz
            refine ⟨item, i1, by simp, hone, ?_⟩
            intro l
            rw [Nat.add_zero, h2, hat]
            · simp
            · intro i l' _ e
              simp only [List.cons.injEq, LKey.idx.injEq] at e
              omega
          | succ i =>
            simp only [List.getElem?_cons_succ] at hz
            obtain ⟨y, i2, hy, ho, he⟩ := h1 i z hz
            refine ⟨y, i2, by simpa using hy, ho, ?_⟩
            intro l
            have := he l
            rw [show k + 1 + i = k + (i + 1) by omega] at this
            rw [this, hat]
            congr 1
            rw [if_neg]
            · simp
            · simp [List.cons_prefix_cons]
        · intro l hl
          rw [h2 l, hat l]
          · rw [if_neg]
            · simp
            · rintro ⟨t, rfl⟩
              exact hl 0 t (by simp) rfl
          · intro i l' hi e
            exact hl (i + 1) l' (by simpa using hi) (by rw [e]; congr 2; omega)
        · rw [h3, hhas]
          constructor
          · rintro ((h | h) | ⟨x', hx', r⟩)
            · exact .inl h
            · exact .inr ⟨x, by simp, item, i1, hone, h⟩
            · exact .inr ⟨x', by simp [hx'], r⟩
          · rintro (h | ⟨x', hx', y, i2, ho, hi⟩)
            · exact .inl (.inl h)
            · rcases List.mem_cons.mp hx' with rfl | hx'
              · rw [hone] at ho; cases ho; exact .inl (.inr hi)
              · exact .inr ⟨x', hx', y, i2, ho, hi⟩

theorem processItems_error {m : Mode} {a : AttrInfo} {k : Nat} {xs : List Val} {s : Issues} {e : PyErr}
    (h : a.processItems m k xs s = .error e) : ∃ x ∈ xs, a.type.conv m x = .error e := by
  induction xs generalizing k s with
  | nil => simp [AttrInfo.processItems] at h
  | cons x xs ih =>
    simp only [AttrInfo.processItems] at h
    split at h
    · rename_i e' hx
      cases h
      refine ⟨x, by simp, ?_⟩
      unfold AttrInfo.processOne at hx
      split at hx
      · rename_i hc; cases hx; exact hc
      · simp only at hx
        split at hx <;> cases hx
    · split at h
      · rename_i hr
        cases h
        obtain ⟨y, hy, he⟩ := ih hr
        exact ⟨y, by simp [hy], he⟩
      · cases h

/-! ## Complex values -/

/-- What the loop over the sub-attributes does for one of them. -/
def subOut (m : Mode) (item : Val) (s : Attr) : Option (Str × Val × Issues) :=
  match item.getItem s.rep with
  | .error _ => none
  | .ok .missing => none
  | .ok x => match s.process m x with
    | .error _ => none
    | .ok (p, is) => some (s.rep.attr, p, is)

/-- `merge` of the issues of the processed sub-attributes. -/
def mergeSubs (loc : Loc) (acc : Issues) (outs : List (Str × Val × Issues)) : Issues :=
  outs.foldl (fun acc o => acc.merge o.2.2 (loc ++ [.name o.1])) acc

omit [PyEnv] in
theorem aset_append_new {κ β : Type} [DecidableEq κ] (k : κ) (v : β) (m : List (κ × β))
    (h : k ∉ m.map (·.1)) : aset k v m = m ++ [(k, v)] := by
  induction m with
  | nil => rfl
  | cons p r ih =>
    obtain ⟨a, b⟩ := p
    simp only [List.map_cons, List.mem_cons, not_or] at h
    rw [aset_cons, if_neg (Ne.symm h.1), ih h.2]; rfl

omit [PyEnv] in
theorem eq_of_map_nodup {α β : Type} {f : α → β} {l : List α} (h : (l.map f).Nodup) {a b : α}
    (ha : a ∈ l) (hb : b ∈ l) (e : f a = f b) : a = b := by
  induction l with
  | nil => simp at ha
  | cons x r ih =>
    simp only [List.map_cons, List.nodup_cons] at h
    rcases List.mem_cons.mp ha with rfl | ha' <;> rcases List.mem_cons.mp hb with rfl | hb'
    · rfl
    · exact absurd (List.mem_map.mpr ⟨b, hb', e.symm⟩) h.1
    · exact absurd (List.mem_map.mpr ⟨a, ha', e⟩) h.1
    · exact ih h.2 ha' hb'

/-- The container with the given entries. -/
def mkCont (entries : List (Str × Val)) : Val := .cont entries (lcOf (entries.map (·.1)))

theorem mkCont_nil : mkCont [] = Val.emptyCont := rfl

theorem mkCont_set (entries : List (Str × Val)) (r : AttrRep) (he : r.ext = false) (hs : r.sub = [])
    (v : Val) (hnew : r.attr ∉ entries.map (·.1)) :
    (mkCont entries).setItem r v = .ok (mkCont (entries ++ [(r.attr, v)])) := by
  simp [mkCont, Val.setItem, he, Val.setLocal, hs, Val.setPlain, aset_append_new _ _ _ hnew, lcOf_snoc]

theorem mkCont_inv (entries : List (Str × Val)) (h : (entries.map (·.1)).Nodup) :
    CInv entries (lcOf (entries.map (·.1))) :=
  ⟨h, lcOf_nodup _, fun l k hk => lcOf_sound _ l k hk⟩

theorem lower_nodup_attr {ss : List Attr} (h : (ss.map (fun s => lower s.rep.attr)).Nodup) :
    (ss.map (fun s => s.rep.attr)).Nodup := by
  have : ss.map (fun s => lower s.rep.attr) = (ss.map (fun s => s.rep.attr)).map lower := by simp
  rw [this] at h
  exact List.Pairwise.of_map _ (fun _ _ hne e => hne (e ▸ rfl)) h

/-- The loop over the sub-attributes, in closed form. -/
theorem processSubs_spec {m : Mode} (ss : List Attr) (loc : Loc) (item : Val)
    (entries : List (Str × Val)) (acc : Issues) (r : Val) (is : Issues)
    (hp : ∀ s ∈ ss, s.rep.Plain) (hn : (ss.map (fun s => s.rep.attr)).Nodup)
    (hf : ∀ s ∈ ss, s.rep.attr ∉ entries.map (·.1))
    (h : processSubs m ss loc item (mkCont entries) acc = .ok (r, is)) :
    r = mkCont (entries ++ (ss.filterMap (subOut m item)).map (fun o => (o.1, o.2.1))) ∧
    is = mergeSubs loc acc (ss.filterMap (subOut m item)) ∧
    (∀ s ∈ ss, ∃ x, item.getItem s.rep = .ok x ∧ (x.isMissing = false → ∃ o, s.process m x = .ok o)) := by
  induction ss generalizing entries acc with
  | nil =>
    simp only [processSubs] at h; cases h
    simp [mergeSubs]
  | cons s ss ih =>
    simp only [List.map_cons, List.nodup_cons] at hn
    rw [processSubs] at h
    have ihp : ∀ s ∈ ss, s.rep.Plain := fun t ht => hp t (List.mem_cons_of_mem _ ht)
    split at h
    · cases h
    · rename_i hg
      obtain ⟨h1, h2, h3⟩ := ih entries acc ihp hn.2 (fun t ht => hf t (List.mem_cons_of_mem _ ht)) h
      have ho : subOut m item s = none := by simp [subOut, hg]
      rw [List.filterMap_cons_none ho]
      refine ⟨h1, h2, ?_⟩
      intro t ht
      rcases List.mem_cons.mp ht with rfl | ht
      · exact ⟨.missing, hg, by simp [Val.isMissing]⟩
      · exact h3 t ht
    · rename_i x hx hg
      split at h
      · cases h
      · rename_i p i hpr
        rw [mkCont_set entries s.rep (hp s (by simp)).2.2 (hp s (by simp)).2.1 p (hf s (by simp))] at h
        simp only at h
        obtain ⟨h1, h2, h3⟩ := ih (entries ++ [(s.rep.attr, p)]) _ ihp hn.2 (by
          intro t ht
          simp only [List.map_append, List.map_cons, List.map_nil, List.mem_append, List.mem_singleton, not_or]
          refine ⟨hf t (List.mem_cons_of_mem _ ht), ?_⟩
          intro e
          exact hn.1 (e ▸ List.mem_map.mpr ⟨t, ht, rfl⟩)) h
        have ho : subOut m item s = some (s.rep.attr, p, i) := by
          cases x <;> first | exact absurd rfl hx | simp [subOut, hg, hpr]
        rw [List.filterMap_cons_some ho]
        refine ⟨?_, ?_, ?_⟩
        · rw [h1]; simp
        · rw [h2]; simp [mergeSubs]
        · intro t ht
          rcases List.mem_cons.mp ht with rfl | ht
          · exact ⟨x, hg, fun _ => ⟨_, hpr⟩⟩
          · exact h3 t ht

theorem subOut_name {m : Mode} {item : Val} {s : Attr} {o} (h : subOut m item s = some o) :
    o.1 = s.rep.attr := by
  unfold subOut at h
  split at h
  · cases h
  · cases h
  · split at h <;> cases h
    rfl

theorem outs_names {m : Mode} {item : Val} {ss : List Attr}
    (f : Str → Str) (hn : (ss.map (fun s => f s.rep.attr)).Nodup) :
    ((ss.filterMap (subOut m item)).map (fun o => f o.1)).Nodup ∧
    ∀ o ∈ ss.filterMap (subOut m item), ∃ s ∈ ss, subOut m item s = some o := by
  induction ss with
  | nil => simp
  | cons s ss ih =>
    simp only [List.map_cons, List.nodup_cons] at hn
    obtain ⟨h1, h2⟩ := ih hn.2
    cases ho : subOut m item s with
    | none =>
      rw [List.filterMap_cons_none ho]
      exact ⟨h1, fun o hm => let ⟨t, ht, e⟩ := h2 o hm; ⟨t, List.mem_cons_of_mem _ ht, e⟩⟩
    | some o' =>
      rw [List.filterMap_cons_some ho]
      refine ⟨?_, ?_⟩
      · simp only [List.map_cons, List.nodup_cons]
        refine ⟨?_, h1⟩
        intro hmem
        obtain ⟨o, hm, e⟩ := List.mem_map.mp hmem
        obtain ⟨t, ht, e'⟩ := h2 o hm
        apply hn.1
        rw [subOut_name e', subOut_name ho] at e
        exact List.mem_map.mpr ⟨t, ht, e⟩
      · intro o hm
        rcases List.mem_cons.mp hm with rfl | hm
        · exact ⟨s, by simp, ho⟩
        · obtain ⟨t, ht, e⟩ := h2 o hm
          exact ⟨t, List.mem_cons_of_mem _ ht, e⟩

/-- The lower-case index of distinct names. -/
theorem aget_lcOf_of_mem {keys : List Str} (hn : (keys.map lower).Nodup) {k : Str} (hk : k ∈ keys) :
    aget (lower k) (lcOf keys) = some k := by
  rw [← List.reverse_reverse keys] at hn hk ⊢
  generalize keys.reverse = ks at *
  induction ks with
  | nil => simp at hk
  | cons x ks ih =>
    rw [List.reverse_cons] at hn hk ⊢
    rw [lcOf_snoc, aget_aset]
    rw [List.map_append, List.nodup_append] at hn
    simp only [List.mem_append, List.mem_singleton] at hk
    rcases hk with hk | rfl
    · rw [if_neg, ih hn.1 hk]
      intro e
      exact hn.2.2 (lower k) (List.mem_map.mpr ⟨k, hk, rfl⟩) (lower x) (by simp) e.symm
    · simp

theorem aget_lcOf_none {keys : List Str} {l : Str} (h : ∀ k ∈ keys, lower k ≠ l) :
    aget l (lcOf keys) = none := by
  cases hg : aget l (lcOf keys) with
  | none => rfl
  | some k =>
    obtain ⟨h1, h2⟩ := lcOf_sound _ _ _ hg
    exact absurd h1.symm (h k h2)

/-- Reading a plain name from a container with given entries. -/
theorem mkCont_get {entries : List (Str × Val)} (hn : (entries.map (fun e => lower e.1)).Nodup)
    {r : AttrRep} (hs : r.sub = []) (h0 : ∀ e ∈ entries, lower e.1 ≠ lower r.schema) :
    (mkCont entries).getItem r =
      match entries.find? (fun e => lower e.1 == lower r.attr) with
      | none => .ok .missing
      | some e => .ok e.2 := by
  have hn' : ((entries.map (·.1)).map lower).Nodup := by rw [List.map_map]; exact hn
  have hnk : (entries.map (·.1)).Nodup := List.Pairwise.of_map _ (fun _ _ hne e => hne (e ▸ rfl)) hn'
  unfold mkCont
  rw [getItem_noKey (aget_lcOf_none (by
    intro k hk
    obtain ⟨e, he, rfl⟩ := List.mem_map.mp hk
    exact h0 e he))]
  cases hf : entries.find? (fun e => lower e.1 == lower r.attr) with
  | none =>
    rw [aget_lcOf_none]
    intro k hk
    obtain ⟨e, he, rfl⟩ := List.mem_map.mp hk
    simpa using List.find?_eq_none.mp hf e he
  | some e =>
    have he := List.mem_of_find?_eq_some hf
    have hl : lower e.1 = lower r.attr := by simpa using List.find?_some hf
    rw [← hl, aget_lcOf_of_mem hn' (List.mem_map.mpr ⟨e, he, rfl⟩)]
    simp only
    rw [aget_of_mem hnk (show (e.1, e.2) ∈ entries from he)]
    simp [hs]

/-- The result of the loop meets the specification of complex values. -/
theorem subResult_of_processSubs {m : Mode} {subs : List Attr} (hs : PlainSubs subs) {loc : Loc}
    {item : Val} {acc : Issues} {r : Val} {is : Issues}
    (h : processSubs m subs loc item .emptyCont acc = .ok (r, is)) :
    SubResult m subs item r := by
  rw [← mkCont_nil] at h
  obtain ⟨h1, h2, h3⟩ := processSubs_spec subs loc item [] acc r is hs.plain
    (lower_nodup_attr hs.distinct) (by simp) h
  rw [List.nil_append] at h1
  obtain ⟨hn, hmem⟩ := outs_names (m := m) (item := item) lower hs.distinct
  have hkeys : ∀ e ∈ (subs.filterMap (subOut m item)).map (fun o => (o.1, o.2.1)), ∃ s ∈ subs, s.rep.attr = e.1 ∧
      ∃ x, item.getItem s.rep = .ok x ∧ x.isMissing = false := by
    intro e he
    obtain ⟨o, ho, rfl⟩ := List.mem_map.mp he
    obtain ⟨s, hs, e⟩ := hmem o ho
    refine ⟨s, hs, (subOut_name e).symm, ?_⟩
    unfold subOut at e
    split at e
    · cases e
    · cases e
    · rename_i x hx hg
      refine ⟨x, hg, ?_⟩
      cases x <;> first | exact absurd rfl hx | rfl
  have hget : ∀ s ∈ subs, r.getItem s.rep =
      match ((subs.filterMap (subOut m item)).map (fun o => (o.1, o.2.1))).find?
        (fun e => lower e.1 == lower s.rep.attr) with
      | none => .ok .missing
      | some e => .ok e.2 := by
    intro s hsm
    rw [h1]
    apply mkCont_get
    · rw [List.map_map]; exact hn
    · exact (hs.plain s hsm).2.1
    · intro e he
      obtain ⟨t, ht, e', _⟩ := hkeys e he
      rw [(hs.plain s hsm).1, ← e']
      intro hl
      exact hs.named t ht ((PyEnv.lower_eq_nil _).1 (by rw [hl, (PyEnv.lower_eq_nil []).2 rfl]))
  refine ⟨by rw [h1]; rfl, ?_, ?_, ?_, fun s hsm => (h3 s hsm).imp fun _ hx => hx.1⟩
  · intro k hk
    rw [h1] at hk
    simp only [mkCont, Val.keys] at hk
    obtain ⟨e, he, rfl⟩ := List.mem_map.mp hk
    exact hkeys e he
  · intro s hsm x hx hm
    obtain ⟨x', hx', hp⟩ := h3 s hsm
    rw [hx] at hx'; cases hx'
    obtain ⟨⟨y, i⟩, hpr⟩ := hp hm
    refine ⟨y, i, hpr, ?_⟩
    have ho : subOut m item s = some (s.rep.attr, y, i) := by
      cases x <;> simp [Val.isMissing] at hm <;> simp [subOut, hx, hpr]
    have hmemo : (s.rep.attr, y) ∈ (subs.filterMap (subOut m item)).map (fun o => (o.1, o.2.1)) :=
      List.mem_map.mpr ⟨_, List.mem_filterMap.mpr ⟨s, hsm, ho⟩, rfl⟩
    rw [hget s hsm]
    cases hf : ((subs.filterMap (subOut m item)).map (fun o => (o.1, o.2.1))).find?
        (fun e => lower e.1 == lower s.rep.attr) with
    | none =>
      have := List.find?_eq_none.mp hf _ hmemo
      simp at this
    | some e =>
      have he := List.mem_of_find?_eq_some hf
      have hl : lower e.1 = lower s.rep.attr := by simpa using List.find?_some hf
      obtain ⟨o, hom, rfl⟩ := List.mem_map.mp he
      obtain ⟨t, ht, e'⟩ := hmem o hom
      have : t = s := by
        rw [subOut_name e'] at hl
        exact eq_of_map_nodup hs.distinct ht hsm hl
      subst this
      rw [ho] at e'; cases e'
      rfl
  · intro s hsm hx
    have ho : subOut m item s = none := by simp [subOut, hx]
    rw [hget s hsm]
    cases hf : ((subs.filterMap (subOut m item)).map (fun o => (o.1, o.2.1))).find?
        (fun e => lower e.1 == lower s.rep.attr) with
    | none => rfl
    | some e =>
      have he := List.mem_of_find?_eq_some hf
      have hl : lower e.1 = lower s.rep.attr := by simpa using List.find?_some hf
      obtain ⟨o, hom, rfl⟩ := List.mem_map.mp he
      obtain ⟨t, ht, e'⟩ := hmem o hom
      have : t = s := by
        rw [subOut_name e'] at hl
        exact eq_of_map_nodup hs.distinct ht hsm hl
      subst this
      rw [ho] at e'; cases e'

/-! ## The issues reported are well-formed -/

omit [PyEnv] in
theorem runProcs_wf {ps : List Proc} (hps : ∀ p ∈ ps, ProcSane p) {v r : Val} {s is : Issues} (hs : s.WF)
    (h : runProcs ps v s = .ok (r, is)) : is.WF := by
  induction ps generalizing v s with
  | nil => simp only [runProcs] at h; cases h; exact hs
  | cons p ps ih =>
    simp only [runProcs] at h
    split at h
    · cases h
    · rename_i v' i hp
      exact ih (fun q hq => hps q (List.mem_cons_of_mem _ hq))
        (hs.merge (hps p (by simp) _ _ _ hp) []) h

/-- The part of `AttrInfo.process` before the post-processors. -/
def AttrInfo.base (m : Mode) (a : AttrInfo) (v : Val) : PyM (Option Val × Issues) :=
  if a.multi then
    match v with
    | .list xs =>
      match a.processItems m 0 xs {} with
      | .error e => .error e
      | .ok (items, issues) => .ok (some (.list items), issues)
    | _ => .ok (none, blocking 2)
  else
    match a.processOne m [] v {} with
    | .error e => .error e
    | .ok (p, issues) => .ok (some p, issues)

theorem info_process_eq (m : Mode) (a : AttrInfo) (v : Val) :
    a.process m v = if v.isNone then .ok (v, {}) else
      match a.base m v with
      | .error e => .error e
      | .ok (none, issues) => .ok (.invalid, issues)
      | .ok (some p, issues) =>
        if issues.hasIssues then .ok (p, issues) else runProcs (a.procs m) p issues := rfl

theorem base_wf {m : Mode} {a : AttrInfo} {v : Val} {o : Option Val} {is : Issues}
    (h : a.base m v = .ok (o, is)) : is.WF := by
  unfold AttrInfo.base at h
  split at h
  · split at h
    · split at h
      · cases h
      · rename_i hx; cases h; exact processItems_wf WF.empty hx
    · cases h; exact wf_blocking 2
  · split at h
    · cases h
    · rename_i hx; cases h; exact processOne_wf WF.empty hx

theorem info_process_wf {m : Mode} {a : AttrInfo} (ha : ∀ p ∈ a.procs m, ProcSane p) {v r : Val}
    {is : Issues} (h : a.process m v = .ok (r, is)) : is.WF := by
  rw [info_process_eq] at h
  split at h
  · cases h; exact WF.empty
  · split at h
    · cases h
    · rename_i hb; cases h; exact base_wf hb
    · rename_i p i hb
      split at h
      · cases h; exact base_wf hb
      · exact runProcs_wf ha (base_wf hb) h

theorem complexItems_wf {f : Loc → Val → Issues → PyM (Val × Issues)}
    (hf : ∀ loc v s r is, s.WF → f loc v s = .ok (r, is) → is.WF) {k : Nat} {xs ys : List Val}
    {s is : Issues} (hs : s.WF) (h : complexItems f k xs s = .ok (ys, is)) : is.WF := by
  induction xs generalizing k s ys with
  | nil => simp only [complexItems] at h; cases h; exact hs
  | cons x xs ih =>
    simp only [complexItems] at h
    split at h
    · cases h
    · rename_i item s1 hx
      split at h
      · cases h
      · rename_i items s2 hr
        cases h
        exact ih (hf _ _ _ _ _ hs hx) hr

omit [PyEnv] in
theorem procs_sane {m : Mode} {a : AttrInfo} (h : ∀ p, p ∈ a.parsers ∨ p ∈ a.dumpers → ProcSane p) :
    ∀ p ∈ a.procs m, ProcSane p := by
  intro p hp
  cases m
  · exact h p (.inl hp)
  · exact h p (.inr hp)

/-- The part of a complex attribute's processing after the type check. -/
def complexBody (m : Mode) (info : AttrInfo) (subs : List Attr) (value : Val) (issues : Issues) :
    PyM (Val × Issues) :=
  if info.multi then
    match value with
    | .list xs =>
      match complexItems (fun loc item is => processSubs m subs loc item .emptyCont is) 0 xs issues with
      | .error e => .error e
      | .ok (items, issues) => .ok (.list items, issues)
    | _ => .error .typeError
  else processSubs m subs [] value.toCont .emptyCont issues

theorem complex_process_eq (m : Mode) (info : AttrInfo) (subs : List Attr) (ps ds : List Proc) (v : Val) :
    (Attr.complex info subs ps ds).process m v =
      match info.process m v with
      | .error e => .error e
      | .ok (value, issues) =>
        if !issues.canProceed || value.isNone then .ok (value, issues)
        else match complexBody m info subs value issues with
        | .error e => .error e
        | .ok (parsed, issues) =>
          if issues.hasIssues then .ok (parsed, issues)
          else runProcs ((Attr.complex info subs ps ds).cprocs m) parsed issues := by
  unfold Attr.process; rfl

mutual
theorem process_wf {m : Mode} : ∀ (a : Attr), a.Sane → ∀ {v r : Val} {is : Issues},
    a.process m v = .ok (r, is) → is.WF
  | .simple info, hs, v, r, is, h => by
    rw [Attr.process] at h
    exact info_process_wf (procs_sane hs) h
  | .complex info subs ps ds, hs, v, r, is, h => by
    have hs1 : ∀ p, p ∈ info.parsers ∨ p ∈ info.dumpers ∨ p ∈ ps ∨ p ∈ ds → ProcSane p := hs.1
    have hs2 : SaneAll subs := hs.2
    rw [complex_process_eq] at h
    split at h
    · cases h
    · rename_i value issues hi
      have hw : issues.WF := info_process_wf (procs_sane (fun p hp => hs1 p (by
        rcases hp with hp | hp
        · exact .inl hp
        · exact .inr (.inl hp)))) hi
      split at h
      · cases h; exact hw
      · split at h
        · cases h
        · rename_i parsed issues2 hb
          have hw2 : issues2.WF := by
            unfold complexBody at hb
            split at hb
            · split at hb
              · split at hb
                · cases hb
                · rename_i hc
                  cases hb
                  exact complexItems_wf (fun loc v s r is hs h => processSubs_wf subs hs2 hs h) hw hc
              · cases hb
            · exact processSubs_wf subs hs2 hw hb
          split at h
          · cases h; exact hw2
          · refine runProcs_wf (fun p hp => hs1 p ?_) hw2 h
            cases m
            · exact .inr (.inr (.inl hp))
            · exact .inr (.inr (.inr hp))
theorem processSubs_wf {m : Mode} : ∀ (ss : List Attr), SaneAll ss → ∀ {loc : Loc} {item parsed r : Val}
    {s is : Issues}, s.WF → processSubs m ss loc item parsed s = .ok (r, is) → is.WF
  | [], _, loc, item, parsed, r, s, is, hw, h => by
    rw [processSubs] at h; cases h; exact hw
  | a :: ss, hs, loc, item, parsed, r, s, is, hw, h => by
    have hs1 : a.Sane := hs.1
    have hs2 : SaneAll ss := hs.2
    rw [processSubs] at h
    split at h
    · cases h
    · exact processSubs_wf ss hs2 hw h
    · split at h
      · cases h
      · rename_i hp
        split at h
        · cases h
        · exact processSubs_wf ss hs2 (hw.merge (process_wf a hs1 hp) _) h
end

omit [PyEnv] in
theorem saneAll_iff {ss : List Attr} : SaneAll ss ↔ ∀ s ∈ ss, s.Sane := by
  induction ss with
  | nil => simp [SaneAll]
  | cons a r ih => simp [SaneAll, ih]

/-! ## Where the issues of complex values are -/

omit [PyEnv] in
/-- The issues of the processed sub-attributes are filed under their names. -/
theorem mergeSubs_errors {outs : List (Str × Val × Issues)} (hw : ∀ o ∈ outs, o.2.2.WF)
    (hn : (outs.map (fun o => o.1)).Nodup) (loc : Loc) (acc : Issues) :
    (∀ o ∈ outs, ∀ l, (mergeSubs loc acc outs).errorsAt (loc ++ .name o.1 :: l) =
      acc.errorsAt (loc ++ .name o.1 :: l) ++ o.2.2.errorsAt l) ∧
    (∀ l, (∀ o ∈ outs, ∀ l', l ≠ loc ++ .name o.1 :: l') → (mergeSubs loc acc outs).errorsAt l = acc.errorsAt l) ∧
    ((mergeSubs loc acc outs).hasIssues = true ↔ acc.hasIssues = true ∨ ∃ o ∈ outs, o.2.2.hasIssues = true) := by
  induction outs generalizing acc with
  | nil => simp [mergeSubs]
  | cons o outs ih =>
    simp only [List.map_cons, List.nodup_cons] at hn
    have hwo := hw o (by simp)
    obtain ⟨h1, h2, h3⟩ := ih (fun q hq => hw q (List.mem_cons_of_mem _ hq)) hn.2
      (acc.merge o.2.2 (loc ++ [.name o.1]))
    have hms : mergeSubs loc acc (o :: outs) = mergeSubs loc (acc.merge o.2.2 (loc ++ [.name o.1])) outs := rfl
    rw [hms]
    refine ⟨?_, ?_, ?_⟩
    · intro q hq l
      rcases List.mem_cons.mp hq with rfl | hq
      · rw [h2, errorsAt_merge hwo]
        · congr 1
          rw [if_pos ⟨l, by simp⟩]
          rw [show loc ++ LKey.name q.1 :: l = (loc ++ [.name q.1]) ++ l by simp, List.drop_left]
        · intro p hp l' e
          have := List.append_cancel_left e
          simp only [List.cons.injEq, LKey.name.injEq] at this
          exact hn.1 (List.mem_map.mpr ⟨p, hp, this.1.symm⟩)
      · rw [h1 q hq, errorsAt_merge hwo]
        rw [if_neg]
        · simp
        · rintro ⟨t, e⟩
          rw [List.append_assoc] at e
          have := List.append_cancel_left e
          simp only [List.cons_append, List.cons.injEq, LKey.name.injEq] at this
          exact hn.1 (List.mem_map.mpr ⟨q, hq, this.1.symm⟩)
    · intro l hl
      rw [h2, errorsAt_merge hwo]
      · rw [if_neg]
        · simp
        · rintro ⟨t, e⟩
          exact hl o (by simp) t (by rw [← e]; simp)
      · intro p hp l'
        exact hl p (List.mem_cons_of_mem _ hp) l'
    · rw [h3, hasIssues_merge]
      simp only [List.mem_cons]
      constructor
      · rintro ((h | h) | ⟨q, hq, h⟩)
        · exact .inl h
        · exact .inr ⟨o, .inl rfl, h⟩
        · exact .inr ⟨q, .inr hq, h⟩
      · rintro (h | ⟨q, rfl | hq, h⟩)
        · exact .inl (.inl h)
        · exact .inl (.inr h)
        · exact .inr ⟨q, hq, h⟩

/-- One complex value: where its issues are. -/
theorem processSubs_errors {m : Mode} {subs : List Attr} (hs : PlainSubs subs) (hsane : SaneAll subs)
    {loc : Loc} {item : Val} {acc : Issues} {r : Val} {is : Issues}
    (h : processSubs m subs loc item .emptyCont acc = .ok (r, is)) :
    (∀ s ∈ subs, ∀ x y i, item.getItem s.rep = .ok x → x.isMissing = false → s.process m x = .ok (y, i) →
      ∀ l, is.errorsAt (loc ++ .name s.rep.attr :: l) =
        acc.errorsAt (loc ++ .name s.rep.attr :: l) ++ i.errorsAt l) ∧
    (∀ l, (∀ s ∈ subs, ∀ l', l ≠ loc ++ .name s.rep.attr :: l') → is.errorsAt l = acc.errorsAt l) ∧
    (is.hasIssues = true ↔ acc.hasIssues = true ∨ ∃ s ∈ subs, ∃ x y i, item.getItem s.rep = .ok x ∧
      x.isMissing = false ∧ s.process m x = .ok (y, i) ∧ i.hasIssues = true) := by
  rw [← mkCont_nil] at h
  obtain ⟨h1, h2, h3⟩ := processSubs_spec subs loc item [] acc r is hs.plain
    (lower_nodup_attr hs.distinct) (by simp) h
  obtain ⟨hn, hmem⟩ := outs_names (m := m) (item := item) id (lower_nodup_attr hs.distinct)
  have hout : ∀ {s : Attr} {o}, subOut m item s = some o → ∃ x, item.getItem s.rep = .ok x ∧
      x.isMissing = false ∧ s.process m x = .ok (o.2.1, o.2.2) ∧ o.1 = s.rep.attr := by
    intro s o ho
    unfold subOut at ho
    split at ho
    · cases ho
    · cases ho
    · rename_i x hx hg
      split at ho
      · cases ho
      · rename_i p i hp
        cases ho
        refine ⟨x, hg, ?_, hp, rfl⟩
        cases x <;> first | exact absurd rfl hx | rfl
  have hw : ∀ o ∈ subs.filterMap (subOut m item), o.2.2.WF := by
    intro o ho
    obtain ⟨s, hsm, e⟩ := hmem o ho
    obtain ⟨x, _, _, hp, _⟩ := hout e
    exact process_wf s (saneAll_iff.mp hsane s hsm) hp
  obtain ⟨g1, g2, g3⟩ := mergeSubs_errors hw hn loc acc
  rw [← h2] at g1 g2 g3
  refine ⟨?_, ?_, ?_⟩
  · intro s hsm x y i hx hmiss hp l
    have ho : subOut m item s = some (s.rep.attr, y, i) := by
      cases x <;> simp [Val.isMissing] at hmiss <;> simp [subOut, hx, hp]
    exact g1 _ (List.mem_filterMap.mpr ⟨s, hsm, ho⟩) l
  · intro l hl
    apply g2
    intro o ho l'
    obtain ⟨s, hsm, e⟩ := hmem o ho
    obtain ⟨_, _, _, _, hname⟩ := hout e
    rw [hname]
    exact hl s hsm l'
  · rw [g3]
    constructor
    · rintro (h | ⟨o, ho, hi⟩)
      · exact .inl h
      · obtain ⟨s, hsm, e⟩ := hmem o ho
        obtain ⟨x, hx, hmiss, hp, _⟩ := hout e
        exact .inr ⟨s, hsm, x, _, _, hx, hmiss, hp, hi⟩
    · rintro (h | ⟨s, hsm, x, y, i, hx, hmiss, hp, hi⟩)
      · exact .inl h
      · have ho : subOut m item s = some (s.rep.attr, y, i) := by
          cases x <;> simp [Val.isMissing] at hmiss <;> simp [subOut, hx, hp]
        exact .inr ⟨_, List.mem_filterMap.mpr ⟨s, hsm, ho⟩, hi⟩

end
end Scim
