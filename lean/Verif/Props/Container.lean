import Verif.Lemmas.Container
import Verif.Lemmas.AttrRep

/-!
# Properties of `SCIMDataContainer` (C03–C09, C11)

`Val.Reach c`: `c` is built from a dictionary and changed by any history of writes and deletions.
`c.NoKeyFor s`: no key of `c` equals `s` up to letter case.
-/

namespace Scim

/-! ### Example containers -/

/-- `SCIMDataContainer({"userName": "bj", "Name": {"given": "B"}})` -/
def exDict : List (Str × Val) :=
  [("userName".toList, .str "bj".toList), ("Name".toList, .dict [("given".toList, .str "B".toList)])]

theorem exDict_nodup : (exDict.map (·.1)).Nodup := by decide

section
variable [PyEnv]

/-- **C03** after `c[a] = v` for a plain attribute `a`, every spelling of `a` reads `v`. -/
theorem C03_read_after_write {c : Val} (hc : c.Reach) (a : AttrRep) (hext : a.ext = false)
    (hsub : a.sub = []) (v : Val) :
    ∃ c', c.setItem a v = .ok c' ∧ ∀ b : AttrRep, lower b.attr = lower a.attr → b.sub = [] →
      c'.NoKeyFor b.schema → c'.getItem b = .ok v := by
  obtain ⟨data, lc, rfl, hi⟩ := hc.inv
  refine ⟨.cont (aset a.attr v data) (aset (lower a.attr) a.attr lc), ?_, ?_⟩
  · simp [Val.setItem, hext, hsub, Val.setLocal, Val.setPlain]
  · intro b hb hbs hn
    have hi' := hi.setPlain a.attr v
    rw [getItem_noKey (hi'.noKey hn), hb]
    simp [hbs]

/-- **C03** the same with names given as strings. -/
theorem C03_read_after_write_names {c : Val} (hc : c.Reach) (n m : Str) (a b : AttrRep)
    (hn : AttrRep.parse n = some a) (hm : AttrRep.parse m = some b) (ha : a.sub = [])
    (hb : b.sub = []) (hab : lower a.attr = lower b.attr) (v : Val) :
    ∃ c', c.setItem a v = .ok c' ∧ (c'.NoKeyFor b.schema → c'.getName m = .ok v) := by
  have hext : a.ext = false := ((parse_eq_some_iff n a).1 hn).1.ext
  obtain ⟨c', h1, h2⟩ := C03_read_after_write hc a hext ha v
  refine ⟨c', h1, fun hk => ?_⟩
  have := h2 b hab.symm hb hk
  obtain ⟨data, lc, rfl, _⟩ := (Val.Reach.set a v hc h1).inv
  simp [Val.getName, hm, this]

/-- **C04** writing a plain attribute leaves every other attribute as it was. -/
theorem C04_write_frame {c c' : Val} (hc : c.Reach) (a b : AttrRep) (hext : a.ext = false)
    (hsub : a.sub = []) (v : Val) (hab : lower b.attr ≠ lower a.attr)
    (hs : c.setItem a v = .ok c') (hn : c'.NoKeyFor b.schema) :
    c'.getItem b = c.getItem b := by
  obtain ⟨data, lc, rfl, hi⟩ := hc.inv
  have hi' := hi.setPlain a.attr v
  simp only [Val.setItem, hext, Bool.false_eq_true, ↓reduceIte, Val.setLocal, hsub, List.isEmpty_nil,
    Val.setPlain, Except.ok.injEq] at hs
  subst hs
  have hk := hi'.noKey hn
  have hk0 : aget (lower b.schema) lc = none := by
    rw [aget_aset] at hk
    split at hk
    · cases hk
    · exact hk
  rw [getItem_noKey hk, getItem_noKey hk0, aget_aset_ne (Ne.symm hab)]
  cases hl : aget (lower b.attr) lc with
  | none => rfl
  | some k =>
    have hka : a.attr ≠ k := by
      intro e
      have := (hi.sound _ _ hl).1
      rw [← e] at this
      exact hab this
    simp [aget_aset_ne hka]

/-- **C04** deleting a plain attribute leaves every other attribute as it was. -/
theorem C04_delete_frame {c c' : Val} (hc : c.Reach) (a b : AttrRep)
    (hsub : a.sub = []) (hab : lower b.attr ≠ lower a.attr) (hna : c.NoKeyFor a.schema)
    (hs : c.delItem a = .ok c') (hnb : c.NoKeyFor b.schema) :
    c'.getItem b = c.getItem b := by
  obtain ⟨data, lc, rfl, hi⟩ := hc.inv
  simp only [Val.delItem, Val.delX, Bool.false_and, Bool.false_eq_true, ↓reduceIte, hi.noKey hna,
    hsub, List.isEmpty_nil] at hs
  split at hs
  · simp only [Except.ok.injEq] at hs
    rw [hs]
  · rename_i k hk
    split at hs
    · simp only [Except.ok.injEq] at hs
      subst hs
      have hnk := hi.noKey hnb
      have hnk' : aget (lower b.schema) (adel (lower a.attr) lc) = none := by
        by_cases he : lower a.attr = lower b.schema
        · rw [← he, aget_adel_self hi.lcKeys]
        · rw [aget_adel_ne he]; exact hnk
      rw [getItem_noKey hnk, getItem_noKey hnk', aget_adel_ne (Ne.symm hab)]
      cases hl : aget (lower b.attr) lc with
      | none => rfl
      | some k' =>
        have hkk : k ≠ k' := by
          intro e; subst e
          exact hab ((hi.sound _ _ hl).1.trans (hi.sound _ _ hk).1.symm)
        simp [aget_adel_ne hkk]
    · cases hs

end

example : letI := asciiEnv
    let c := Val.toCont (.dict exDict)
    let b : AttrRep := { attr := "USERNAME".toList }
    c.Reach ∧ c.NoKeyFor b.schema ∧ lower b.attr = lower "userName".toList ∧
      lower "name".toList ≠ lower b.attr := by
  letI := asciiEnv
  exact ⟨.ofDict _ exDict_nodup, by unfold Val.NoKeyFor; decide, by decide, by decide⟩

section
variable [PyEnv]

/-- **C05** writing a sub-attribute (not a list) of an attribute that is absent or complex: it reads back,
and the other sub-attributes keep their values. -/
theorem C05_write_sub {c : Val} (hc : c.Reach) (a s : Str) (v : Val) (hs : isAttrName s = true)
    (hv : v.isList = false) (h0 : c.NoKeyFor [])  (ha0 : a ≠ [])
    (ha : (∀ k ∈ c.keys, lower k ≠ lower a) ∨
      ∃ d : Val, c.getItem { attr := a } = .ok d ∧ d.Reach ∧ d.NoKeyFor []) :
    ∃ c', c.setItem { attr := a, sub := s } v = .ok c' ∧
      (∀ a' s', lower a' = lower a → lower s' = lower s → isAttrName s' = true →
        c'.getItem { attr := a', sub := s' } = .ok v) ∧
      (∀ a' t, lower a' = lower a → lower t ≠ lower s → isAttrName t = true →
        c'.getItem { attr := a', sub := t } = c.getItem { attr := a', sub := t }) := by
  obtain ⟨data, lc, rfl, hi⟩ := hc.inv
  have hsne : s ≠ [] := attrName_ne_nil ((isAttrName_iff s).1 hs)
  have hsemp : s.isEmpty = false := by simpa using hsne
  have hn0 : aget (lower []) lc = none := hi.noKey h0
  have hlower0 : lower s ≠ lower [] := by
    rw [(PyEnv.lower_eq_nil []).2 rfl]
    exact fun h => hsne ((PyEnv.lower_eq_nil s).1 h)
  have hla0 : lower a ≠ lower [] := by
    rw [(PyEnv.lower_eq_nil []).2 rfl]
    exact fun h => ha0 ((PyEnv.lower_eq_nil a).1 h)
  have subne : ∀ {t : Str}, isAttrName t = true → t.isEmpty = false := fun ht => by
    simpa using attrName_ne_nil ((isAttrName_iff _).1 ht)
  have assign : ∀ d l, assignSub (.cont d l) s v
      = .ok (.cont (aset s v d) (aset (lower s) s l)) := by
    intro d l
    unfold assignSub
    cases v with
    | list xs => simp [Val.isList] at hv
    | _ => simp [hs, Val.setPlain]
  rcases ha with ha | ⟨d, hd, hdr, hd0⟩
  · have hla : aget (lower a) lc = none := hi.noKey (schema := a) ha
    refine ⟨.cont (aset a (.cont (aset s v []) (aset (lower s) s [])) (aset a .emptyCont data))
      (aset (lower a) a lc), ?_, ?_, ?_⟩
    · simp [Val.setItem, Val.setLocal, hsemp, Val.setSub, hla, hv, assign]
    · intro a' s' haa hss hsn
      have h00 : aget (lower []) (aset (lower a) a lc) = none := by
        rw [aget_aset_ne hla0]; exact hn0
      rw [getItem_noKey h00]
      simp only [haa, aget_aset_self, subne hsn, Bool.false_eq_true, ↓reduceIte]
      rw [getX_true_cont hsn (by rw [aget_aset_ne hlower0]; rfl)]
      simp [hss]
    · intro a' t haa hts htn
      have h00 : aget (lower []) (aset (lower a) a lc) = none := by
        rw [aget_aset_ne hla0]; exact hn0
      rw [getItem_noKey h00, getItem_noKey hn0]
      simp only [haa, aget_aset_self, subne htn, Bool.false_eq_true, ↓reduceIte, hla]
      rw [getX_true_cont htn (by rw [aget_aset_ne hlower0]; rfl), aget_aset_ne (Ne.symm hts)]
      simp
  · obtain ⟨dd, dl, rfl, hdi⟩ := hdr.inv
    have hdn : aget (lower []) dl = none := hdi.noKey hd0
    rw [getItem_noKey hn0] at hd
    cases hl : aget (lower a) lc with
    | none => simp [hl] at hd
    | some k =>
      cases hk : aget k data with
      | none => simp [hl, hk] at hd
      | some w =>
        simp only [hl, hk, List.isEmpty_nil, ↓reduceIte, Except.ok.injEq] at hd
        subst hd
        refine ⟨.cont (aset k (.cont (aset s v dd) (aset (lower s) s dl)) data) lc, ?_, ?_, ?_⟩
        · simp [Val.setItem, Val.setLocal, hsemp, Val.setSub, hl, hk, canAssignToComplex, assign]
        · intro a' s' haa hss hsn
          rw [getItem_noKey hn0]
          simp only [haa, hl, aget_aset_self, subne hsn, Bool.false_eq_true, ↓reduceIte]
          rw [getX_true_cont hsn (by rw [aget_aset_ne hlower0]; exact hdn)]
          simp [hss]
        · intro a' t haa hts htn
          rw [getItem_noKey hn0, getItem_noKey hn0]
          simp only [haa, hl, hk, aget_aset_self, subne htn, Bool.false_eq_true, ↓reduceIte]
          rw [getX_true_cont htn (by rw [aget_aset_ne hlower0]; exact hdn), getX_true_cont htn hdn,
            aget_aset_ne (Ne.symm hts)]
          cases hlt : aget (lower t) dl with
          | none => rfl
          | some kt =>
            have : s ≠ kt := by
              intro e; subst e
              exact hts (hdi.sound _ _ hlt).1
            simp [aget_aset_ne this]

/-- **C05** writing a list to a sub-attribute of an absent attribute creates one item per element: the
sub-attribute reads back as that list, every other sub-attribute is `Missing` in every item. -/
theorem C05_write_sub_list {c : Val} (hc : c.Reach) (a s : Str) (vs : List Val)
    (hs : isAttrName s = true) (h0 : c.NoKeyFor []) (ha0 : a ≠ [])
    (ha : ∀ k ∈ c.keys, lower k ≠ lower a) :
    ∃ c', c.setItem { attr := a, sub := s } (.list vs) = .ok c' ∧
      (∀ a' s', lower a' = lower a → lower s' = lower s → isAttrName s' = true →
        c'.getItem { attr := a', sub := s' } = .ok (.list vs)) ∧
      (∀ a' t, lower a' = lower a → lower t ≠ lower s → isAttrName t = true →
        c'.getItem { attr := a', sub := t } = .ok (.list (vs.map fun _ => .missing))) := by
  obtain ⟨data, lc, rfl, hi⟩ := hc.inv
  have hsne : s ≠ [] := attrName_ne_nil ((isAttrName_iff s).1 hs)
  have hsemp : s.isEmpty = false := by simpa using hsne
  have hn0 : aget (lower []) lc = none := hi.noKey h0
  have hlower0 : lower s ≠ lower [] := by
    rw [(PyEnv.lower_eq_nil []).2 rfl]
    exact fun h => hsne ((PyEnv.lower_eq_nil s).1 h)
  have hla0 : lower a ≠ lower [] := by
    rw [(PyEnv.lower_eq_nil []).2 rfl]
    exact fun h => ha0 ((PyEnv.lower_eq_nil a).1 h)
  have subne : ∀ {t : Str}, isAttrName t = true → t.isEmpty = false := fun ht => by
    simpa using attrName_ne_nil ((isAttrName_iff _).1 ht)
  have hla : aget (lower a) lc = none := hi.noKey (schema := a) ha
  refine ⟨.cont (aset a (.list (vs.map (fun v => if v.isMissing then .emptyCont
        else .cont [(s, v)] [(lower s, s)]))) (aset a (.list []) data)) (aset (lower a) a lc), ?_, ?_, ?_⟩
  · simp [Val.setItem, Val.setLocal, hsemp, Val.setSub, hla, assignSub, zipSet_fresh s hs,
      Val.isList]
  · intro a' s' haa hss hsn
    have h00 : aget (lower []) (aset (lower a) a lc) = none := by
      rw [aget_aset_ne hla0]; exact hn0
    rw [getItem_noKey h00]
    simp only [haa, aget_aset_self, subne hsn, Bool.false_eq_true, ↓reduceIte, Val.getX, hsn,
      Bool.not_true, Bool.and_false]
    have : getMap (vs.map (fun v => if v.isMissing then .emptyCont
        else .cont [(s, v)] [(lower s, s)])) { attr := s' } = .ok vs := by
      induction vs with
      | nil => simp [getMap]
      | cons v vs ih =>
        simp only [List.map_cons, getMap, ih]
        cases v <;>
          simp [Val.isMissing, Val.getX, aget_cons, hss, hlower0]
    rw [this]
  · intro a' t haa hts htn
    have h00 : aget (lower []) (aset (lower a) a lc) = none := by
      rw [aget_aset_ne hla0]; exact hn0
    rw [getItem_noKey h00]
    simp only [haa, aget_aset_self, subne htn, Bool.false_eq_true, ↓reduceIte, Val.getX, htn,
      Bool.not_true, Bool.and_false]
    have : getMap (vs.map (fun v => if v.isMissing then .emptyCont
        else .cont [(s, v)] [(lower s, s)])) { attr := t } = .ok (vs.map fun _ => .missing) := by
      induction vs with
      | nil => simp [getMap]
      | cons v vs ih =>
        simp only [List.map_cons, getMap, ih]
        cases v <;>
          simp [Val.isMissing, Val.getX, aget_cons, Ne.symm hts, hlower0]
    rw [this]

end

example : letI := asciiEnv
    let c := Val.toCont (.dict exDict)
    c.Reach ∧ c.NoKeyFor [] ∧
      (∃ d : Val, c.getItem { attr := "name".toList } = .ok d ∧ d.Reach ∧ d.NoKeyFor []) ∧
      (∀ k ∈ c.keys, lower k ≠ lower "emails".toList) := by
  letI := asciiEnv
  refine ⟨.ofDict _ exDict_nodup, by unfold Val.NoKeyFor; decide,
    ⟨Val.toCont (.dict [("given".toList, .str "B".toList)]), rfl, .ofDict _ (by decide), ?_⟩,
    by decide⟩
  unfold Val.NoKeyFor; decide

section
variable [PyEnv]

/-- **C06** writing an attribute of an extension whose URN is not yet a key (in any spelling): it succeeds,
reads back under its qualified name, is stored under the URN, and the core attributes — including the one
of the same name — keep their values. -/
theorem C06_extension_new {c : Val} (hc : c.Reach) (r : AttrRep) (v : Val) (hext : r.ext = true)
    (hattr : isAttrName r.attr = true) (hsub : r.sub = []) (hsch : r.schema ≠ [])
    (hnew : c.NoKeyFor r.schema) (h0 : c.NoKeyFor []) :
    ∃ c', c.setItem r v = .ok c' ∧
      (∀ s a, lower s = lower r.schema → lower a = lower r.attr →
        c'.getItem { schema := s, attr := a } = .ok v) ∧
      c'.stored r.schema = some (.cont [(r.attr, v)] [(lower r.attr, r.attr)]) ∧
      (∀ a sub, lower a ≠ lower r.schema →
        c'.getItem { attr := a, sub := sub } = c.getItem { attr := a, sub := sub }) := by
  obtain ⟨data, lc, rfl, hi⟩ := hc.inv
  have hn : aget (lower r.schema) lc = none := hi.noKey hnew
  have hn0 : aget (lower []) lc = none := hi.noKey h0
  have hane : r.attr ≠ [] := attrName_ne_nil ((isAttrName_iff _).1 hattr)
  have hla0 : lower r.attr ≠ lower [] := by
    rw [(PyEnv.lower_eq_nil []).2 rfl]
    exact fun h => hane ((PyEnv.lower_eq_nil _).1 h)
  have hls0 : lower r.schema ≠ lower [] := by
    rw [(PyEnv.lower_eq_nil []).2 rfl]
    exact fun h => hsch ((PyEnv.lower_eq_nil _).1 h)
  refine ⟨.cont (aset r.schema (.cont [(r.attr, v)] [(lower r.attr, r.attr)])
    (aset r.schema .emptyCont data)) (aset (lower r.schema) r.schema lc), ?_, ?_, ?_, ?_⟩
  · simp [Val.setItem, hext, hn, hsub, Val.setLocal, Val.setPlain, aset]
  · intro s a hs ha
    simp [Val.getItem, Val.getX, getAt_eq, hs, ha, aget_cons, hla0]
  · simp [Val.stored]
  · intro a sub ha
    have h00 : aget (lower []) (aset (lower r.schema) r.schema lc) = none := by
      rw [aget_aset_ne hls0]; exact hn0
    rw [getItem_noKey h00, getItem_noKey hn0, aget_aset_ne (Ne.symm ha)]
    cases hl : aget (lower a) lc with
    | none => rfl
    | some k =>
      have : r.schema ≠ k := by
        intro e
        have := (hi.sound _ _ hl).1
        rw [← e] at this; exact ha this
      simp [aget_aset_ne this]

/-- **C06** the same when the extension is already there under this spelling of its URN, holding a
container `d`: the other attributes of the extension keep their values too. -/
theorem C06_extension_existing {c d : Val} (hc : c.Reach) (r : AttrRep) (v : Val) (hext : r.ext = true)
    (hattr : isAttrName r.attr = true) (hsub : r.sub = [])
    (hsp : c.spelling r.schema = some r.schema) (hst : c.stored r.schema = some d)
    (hd : d.Reach) (hd0 : d.NoKeyFor []) (h0 : c.NoKeyFor []) :
    ∃ c', c.setItem r v = .ok c' ∧
      (∀ s a, lower s = lower r.schema → lower a = lower r.attr →
        c'.getItem { schema := s, attr := a } = .ok v) ∧
      (∀ s a, lower s = lower r.schema → lower a ≠ lower r.attr →
        c'.getItem { schema := s, attr := a } = c.getItem { schema := s, attr := a }) ∧
      (∀ a sub, lower a ≠ lower r.schema →
        c'.getItem { attr := a, sub := sub } = c.getItem { attr := a, sub := sub }) := by
  obtain ⟨data, lc, rfl, hi⟩ := hc.inv
  obtain ⟨dd, dl, rfl, hdi⟩ := hd.inv
  have hn0 : aget (lower []) lc = none := hi.noKey h0
  have hdn0 : aget (lower []) dl = none := hdi.noKey hd0
  have hane : r.attr ≠ [] := attrName_ne_nil ((isAttrName_iff _).1 hattr)
  have hla0 : lower r.attr ≠ lower [] := by
    rw [(PyEnv.lower_eq_nil []).2 rfl]
    exact fun h => hane ((PyEnv.lower_eq_nil _).1 h)
  have hdl0' : aget (lower []) (aset (lower r.attr) r.attr dl) = none := by
    rw [aget_aset_ne hla0]; exact hdn0
  simp only [Val.stored] at hst
  simp only [Val.spelling] at hsp
  refine ⟨.cont (aset r.schema (.cont (aset r.attr v dd) (aset (lower r.attr) r.attr dl)) data) lc,
    ?_, ?_, ?_, ?_⟩
  · simp [Val.setItem, hext, hsp, hst, hsub, Val.setLocal, Val.setPlain]
  · intro s a hs ha
    simp only [Val.getItem, Val.getX, Bool.false_and, Bool.false_eq_true, ↓reduceIte, getAt_eq, hs, ha,
      hsp, aget_aset_self, hdl0', List.isEmpty_nil]
  · intro s a hs ha
    simp only [Val.getItem, Val.getX, Bool.false_and, Bool.false_eq_true, ↓reduceIte, getAt_eq, hs,
      hsp, aget_aset_self, hdl0', hst, hdn0, List.isEmpty_nil]
    rw [aget_aset_ne (Ne.symm ha)]
    cases hl : aget (lower a) dl with
    | none => rfl
    | some k =>
      have : r.attr ≠ k := by
        intro e
        have := (hdi.sound _ _ hl).1
        rw [← e] at this; exact ha this
      simp [aget_aset_ne this]
  · intro a sub ha
    rw [getItem_noKey hn0, getItem_noKey hn0]
    cases hl : aget (lower a) lc with
    | none => rfl
    | some k =>
      have : r.schema ≠ k := by
        intro e
        have := (hi.sound _ _ hl).1
        rw [← e] at this; exact ha this
      simp [aget_aset_ne this]

end

/-- The extension attribute of the examples. -/
def exExt : AttrRep := { schema := "urn:e".toList, attr := "userName".toList, ext := true }

example : letI := asciiEnv
    let c := Val.toCont (.dict exDict)
    c.Reach ∧ c.NoKeyFor exExt.schema ∧ c.NoKeyFor [] ∧ isAttrName exExt.attr = true ∧
      lower exExt.attr ≠ lower exExt.schema := by
  letI := asciiEnv
  exact ⟨.ofDict _ exDict_nodup, by unfold Val.NoKeyFor; decide, by unfold Val.NoKeyFor; decide,
    by decide, by decide⟩

example : letI := asciiEnv
    let c := Val.toCont (.dict [("urn:e".toList, .dict [("x".toList, .int 1)])])
    let d := Val.toCont (.dict [("x".toList, .int 1)])
    c.Reach ∧ c.spelling exExt.schema = some exExt.schema ∧ c.stored exExt.schema = some d ∧
      d.Reach ∧ d.NoKeyFor [] ∧ c.NoKeyFor [] := by
  letI := asciiEnv
  exact ⟨.ofDict _ (by decide), by decide, rfl, .ofDict _ (by decide),
    by unfold Val.NoKeyFor; decide, by unfold Val.NoKeyFor; decide⟩

/-- **C06** a write to an extension whose URN is present in another spelling does not succeed: it raises
`KeyError`. -/
theorem C06_other_spelling_raises : letI := asciiEnv
    ∃ c : Val, c.Reach ∧ c.setItem exExt (.int 1) = .error .keyError := by
  letI := asciiEnv
  exact ⟨Val.toCont (.dict [("URN:e".toList, .dict [])]), .ofDict _ (by decide), rfl⟩

/-- **C06** reading an extension attribute of an absent extension falls back to the core attribute. -/
theorem C06_absent_extension_reads_core : letI := asciiEnv
    ∃ c : Val, c.Reach ∧ c.NoKeyFor exExt.schema ∧ c.getItem exExt = .ok (.str "bj".toList) := by
  letI := asciiEnv
  exact ⟨Val.toCont (.dict exDict), .ofDict _ exDict_nodup, by unfold Val.NoKeyFor; decide, rfl⟩

section
variable [PyEnv]

/-- **C07** after `del c[a]` every spelling of `a` reads `Missing`; the deletion does not raise. -/
theorem C07_delete {c : Val} (hc : c.Reach) (a : AttrRep) (hsub : a.sub = [])
    (hna : c.NoKeyFor a.schema) :
    ∃ c', c.delItem a = .ok c' ∧ ∀ b : AttrRep, lower b.attr = lower a.attr →
      c.NoKeyFor b.schema → c'.getItem b = .ok .missing := by
  obtain ⟨data, lc, rfl, hi⟩ := hc.inv
  simp only [Val.delItem, Val.delX, Bool.false_and, Bool.false_eq_true, ↓reduceIte, hi.noKey hna,
    hsub, List.isEmpty_nil]
  cases hl : aget (lower a.attr) lc with
  | none =>
    refine ⟨_, rfl, ?_⟩
    intro b hb hnb
    rw [getItem_noKey (hi.noKey hnb), hb, hl]
  | some k =>
    have hk : (aget k data).isSome := aget_isSome_iff.2 (hi.sound _ _ hl).2
    cases hg : aget k data with
    | none => rw [hg] at hk; cases hk
    | some w =>
      refine ⟨.cont (adel k data) (adel (lower a.attr) lc), by simp [hg], ?_⟩
      intro b hb hnb
      have hnk' : aget (lower b.schema) (adel (lower a.attr) lc) = none := by
        by_cases he : lower a.attr = lower b.schema
        · rw [← he, aget_adel_self hi.lcKeys]
        · rw [aget_adel_ne he]; exact hi.noKey hnb
      rw [getItem_noKey hnk', hb, aget_adel_self hi.lcKeys]

/-- **C07** deleting an absent attribute (with or without sub-attribute) changes nothing. -/
theorem C07_delete_absent {c : Val} (hc : c.Reach) (a : AttrRep) (hna : c.NoKeyFor a.schema)
    (habs : ∀ k ∈ c.keys, lower k ≠ lower a.attr) : c.delItem a = .ok c := by
  obtain ⟨data, lc, rfl, hi⟩ := hc.inv
  simp only [Val.delItem, Val.delX, Bool.false_and, Bool.false_eq_true, ↓reduceIte, hi.noKey hna,
    hi.noKey (schema := a.attr) habs]

/-- **C07** for a container built from a dictionary without two keys equal up to case, the attribute is
also gone from `to_dict()`. -/
theorem C07_delete_keys (kvs : List (Str × Val)) (hn : (kvs.map (·.1)).Nodup) (a : AttrRep)
    (hsub : a.sub = []) (hna : (Val.toCont (.dict kvs)).NoKeyFor a.schema)
    (huniq : ∀ k ∈ kvs.map (·.1), ∀ k' ∈ kvs.map (·.1), lower k = lower k' → k = k') :
    ∃ c', (Val.toCont (.dict kvs)).delItem a = .ok c' ∧ ∀ k ∈ c'.keys, lower k ≠ lower a.attr := by
  have hi := CInv.ofDict kvs hn
  rw [Val.toCont] at hna ⊢
  simp only [Val.delItem, Val.delX, Bool.false_and, Bool.false_eq_true, ↓reduceIte, hi.noKey hna,
    hsub, List.isEmpty_nil]
  cases hl : aget (lower a.attr) (lcOf (kvs.map (·.1))) with
  | none =>
    refine ⟨_, rfl, ?_⟩
    intro k hk he
    simp only [Val.keys, keys_convPairs] at hk
    rw [aget_lcOf, List.getLast?_eq_none_iff, List.filter_eq_nil_iff] at hl
    exact hl k hk (by simpa using he)
  | some k0 =>
    have hk : (aget k0 (convPairs kvs)).isSome := aget_isSome_iff.2 (hi.sound _ _ hl).2
    cases hg : aget k0 (convPairs kvs) with
    | none => rw [hg] at hk; cases hk
    | some w =>
      refine ⟨.cont (adel k0 (convPairs kvs)) (adel (lower a.attr) (lcOf (kvs.map (·.1)))), by simp [hg], ?_⟩
      intro k hk he
      simp only [Val.keys] at hk
      have hk2 := mem_keys_adel hk
      rw [keys_convPairs] at hk2
      have h0 := (hi.sound _ _ hl)
      rw [keys_convPairs] at h0
      have : k = k0 := huniq k hk2 k0 h0.2 (he.trans h0.1)
      subst this
      rw [← aget_isSome_iff, aget_adel_self hi.dataKeys] at hk
      cases hk

end

example : letI := asciiEnv
    (Val.toCont (.dict exDict)).NoKeyFor [] ∧
    (∀ k ∈ exDict.map (·.1), ∀ k' ∈ exDict.map (·.1), lower k = lower k' → k = k') ∧
    (∀ k ∈ (Val.toCont (.dict exDict)).keys, lower k ≠ lower "emails".toList) := by
  letI := asciiEnv
  exact ⟨by unfold Val.NoKeyFor; decide, by decide, by decide⟩

/-- **C07** without that condition the deleted attribute can stay visible in `to_dict()`: write `"A"`, write
`"a"`, delete `"a"`. -/
theorem C07_stale_key_stays : letI := asciiEnv
    ∃ c c' : Val, c.Reach ∧ c.delItem { attr := "a".toList } = .ok c' ∧
      c'.toDict = .dict [("A".toList, .int 1)] ∧
      c'.getItem { attr := "A".toList } = .ok .missing := by
  letI := asciiEnv
  refine ⟨.cont [("A".toList, .int 1), ("a".toList, .int 2)] [("a".toList, "a".toList)], _,
    ?_, rfl, rfl, rfl⟩
  have h0 : (Val.toCont (.dict [("A".toList, .int 1)])).Reach := .ofDict _ (by decide)
  exact .set { attr := "a".toList } (.int 2) h0 rfl

section
variable [PyEnv]

/-- **C08** `SCIMDataContainer(d).to_dict() == d` for every JSON object, at any nesting depth. -/
theorem C08_roundtrip (kvs : List (Str × Val)) (h : (Val.dict kvs).isJson = true) :
    (Val.toCont (.dict kvs)).toDict = .dict kvs := by
  rw [Val.toCont, Val.toDict, dictPairs_convPairs kvs (by simpa [Val.isJson] using h)]

/-- **C09** a container built from a dictionary reads, for any name, the value of the last key equal to it
up to letter case, in container form; and `Missing` when there is none. -/
theorem C09_lookup (kvs : List (Str × Val)) (hn : (kvs.map (·.1)).Nodup) (b : AttrRep)
    (hsub : b.sub = []) (hk : (Val.toCont (.dict kvs)).NoKeyFor b.schema) :
    (Val.toCont (.dict kvs)).getItem b =
      match (kvs.filter (fun p => lower p.1 = lower b.attr)).getLast? with
      | none => .ok .missing
      | some p => .ok (convVal p.2) := by
  have hi := CInv.ofDict kvs hn
  rw [Val.toCont] at hk ⊢
  rw [getItem_noKey (hi.noKey hk), aget_lcOf]
  have hmap : ((kvs.map (·.1)).filter (fun k => lower k = lower b.attr)) =
      (kvs.filter (fun p => lower p.1 = lower b.attr)).map (·.1) := by
    rw [List.filter_map]; rfl
  rw [hmap, List.getLast?_map]
  cases hf : (kvs.filter (fun p => lower p.1 = lower b.attr)).getLast? with
  | none => rfl
  | some p =>
    have hm : p ∈ kvs := (List.mem_filter.1 (List.mem_of_getLast? hf)).1
    have hg : aget p.1 kvs = some p.2 := aget_of_mem hn hm
    simp only [Option.map_some, aget_convPairs, hg, hsub, List.isEmpty_nil, ↓reduceIte]

/-- **C09** two spellings of a name read the same. -/
theorem C09_spelling (c : Val) (b b' : AttrRep) (h : lower b.attr = lower b'.attr)
    (hs : lower b.schema = lower b'.schema) (hsub : b.sub = b'.sub) :
    c.getItem b = c.getItem b' := by
  unfold Val.getItem
  exact getX_false_lower c b b' h hs hsub

/-- **C11** reading a plain attribute (no schema, no sub-attribute) never raises, for any reachable
container without empty-string key. -/
theorem C11_read_total {c : Val} (hc : c.Reach) (h0 : c.NoKeyFor []) (a : Str) :
    ∃ v, c.getItem { attr := a } = .ok v := by
  obtain ⟨data, lc, rfl, hi⟩ := hc.inv
  rw [getItem_noKey (hi.noKey h0)]
  cases hl : aget (lower a) lc with
  | none => exact ⟨_, rfl⟩
  | some k =>
    have hk : (aget k data).isSome := aget_isSome_iff.2 (hi.sound _ _ hl).2
    cases hg : aget k data with
    | none => rw [hg] at hk; cases hk
    | some w => exact ⟨w, by simp [hg]⟩

/-- **C11** a sub-attribute of an attribute that is absent, or whose value is neither an object nor a list, is missing. -/
theorem C11_scalar_sub {c : Val} (hc : c.Reach) (h0 : c.NoKeyFor []) (a b : Str) (hb : b ≠ []) (v : Val)
    (hv : c.getItem { attr := a } = .ok v) (hs : v.isCont = false) (hl : v.isList = false) :
    c.getItem { attr := a, sub := b } = .ok .missing := by
  obtain ⟨data, lc, rfl, hi⟩ := hc.inv
  have hk0 := hi.noKey (schema := []) h0
  have he : b.isEmpty = false := by cases b <;> simp_all
  simp only [Val.getItem, Val.getX, Bool.false_and, Bool.false_eq_true, ↓reduceIte, hk0, List.isEmpty_nil, he] at hv ⊢
  cases hg : aget (lower a) lc with
  | none => rfl
  | some k =>
    simp only [hg] at hv ⊢
    have hga : ∀ d : List (Str × Val), aget k d = some v → getAt true k d { attr := b } = .ok .missing := by
      intro d
      induction d with
      | nil => intro h; cases h
      | cons p d ih =>
        obtain ⟨k', w⟩ := p
        intro h
        rw [getAt]
        by_cases e : k' = k
        · rw [if_pos e]
          simp only [aget, e, if_true, Option.some.injEq] at h
          subst h
          cases w <;> simp_all [Val.isCont, Val.isList, Val.getX]
        · rw [if_neg e]
          simp only [aget, e, if_false] at h
          exact ih h
    split at hv
    · rename_i w hw
      cases hv
      exact hga data hw
    · cases hv

end

/-- the sub-attribute of a text, and of nothing -/
example : letI := asciiEnv
    (Val.toCont (.dict exDict)).getItem { attr := "username".toList, sub := "x".toList } = .ok .missing ∧
    (Val.toCont (.dict exDict)).getItem { attr := "other".toList, sub := "x".toList } = .ok .missing := by
  letI := asciiEnv
  exact ⟨rfl, rfl⟩

example : letI := asciiEnv
    (Val.dict exDict).isJson = true ∧
    (Val.toCont (.dict exDict)).getItem { attr := "NAME".toList } =
      .ok (Val.toCont (.dict [("given".toList, .str "B".toList)])) := by
  letI := asciiEnv
  exact ⟨by decide, rfl⟩

/-- **C11** with an empty-string key the claim fails: every schema-less lookup is redirected into the value
stored under it. -/
theorem C11_empty_key_raises : letI := asciiEnv
    ∃ c : Val, c.Reach ∧ c.getItem { attr := "a".toList } = .error .typeError := by
  letI := asciiEnv
  exact ⟨Val.toCont (.dict [([], .int 1), ("a".toList, .int 2)]), .ofDict _ (by decide), rfl⟩

end Scim
