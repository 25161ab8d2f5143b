import Verif.Lemmas.FilterForm
import Verif.Lemmas.Assets
import Verif.Props.Equality

/-! Equality of filters. -/

namespace Scim

/-! ## Scalars -/

theorem sameValue_iff (v w : Prim) : SameValue v w ↔ v.pyEq w = true := by
  constructor
  · intro h
    cases h with
    | null => rfl
    | str s => simp [Prim.pyEq]
    | inf b => simp [Prim.pyEq, Prim.num?, PyFloat.eq]
    | num v w q h1 h2 =>
      have key : ∀ {v : Prim}, v.rat? = some q → v.num? = some (.fin q) := by
        intro v h
        cases v with
        | bool b => cases b <;> simp [Prim.rat?, Prim.num?] at h ⊢ <;> exact h
        | int i => simp [Prim.rat?, Prim.num?] at h ⊢; exact h
        | flt f => cases f <;> simp [Prim.rat?, Prim.num?] at h ⊢; exact h
        | _ => simp [Prim.rat?] at h
      have e1 := key h1
      have e2 := key h2
      cases v <;> cases w <;> first
        | (simp [Prim.num?] at e1; done)
        | (simp [Prim.num?] at e2; done)
        | (simp only [Prim.pyEq, e1, e2, PyFloat.eq, beq_self_eq_true])
  · intro h
    have key : ∀ {v : Prim} {x : PyFloat}, v.num? = some x → (∃ q, x = .fin q ∧ v.rat? = some q) ∨ v = .flt x := by
      intro v x h
      cases v with
      | bool b =>
        refine .inl ⟨_, (Option.some.inj h).symm, ?_⟩
        cases b <;> simp [Prim.rat?]
      | int i => exact .inl ⟨_, (Option.some.inj h).symm, rfl⟩
      | flt f => exact .inr (by rw [Option.some.inj h])
      | _ => simp [Prim.num?] at h
    have h' : (v = .none ∧ w = .none) ∨ (∃ s, v = .str s ∧ w = .str s) ∨ ∃ x, x ≠ .nan ∧ v.num? = some x ∧ w.num? = some x := by
      letI := asciiEnv
      have := (C10_eq_scalars v w).mp (by simp [Val.pyEq, Val.pyEqN, h])
      exact this
    rcases h' with ⟨rfl, rfl⟩ | ⟨s, rfl, rfl⟩ | ⟨x, hx, h1, h2⟩
    · exact .null
    · exact .str s
    · cases x with
      | nan => exact absurd rfl hx
      | fin q =>
        have : ∀ {v : Prim}, v.num? = some (.fin q) → v.rat? = some q := by
          intro v hv
          rcases key hv with ⟨q', e, h⟩ | h
          · cases e; exact h
          · rw [h]; rfl
        exact .num v w q (this h1) (this h2)
      | inf b =>
        rcases key h1 with ⟨q', e, h⟩ | h
        · cases e
        · rcases key h2 with ⟨q', e, h'⟩ | h'
          · cases e
          · rw [h, h']; exact .inf b

theorem SameValue.symm {v w : Prim} (h : SameValue v w) : SameValue w v := by
  cases h with
  | null => exact .null
  | str s => exact .str s
  | num _ _ q h1 h2 => exact .num _ _ q h2 h1
  | inf b => exact .inf b

theorem SameValue.trans {u v w : Prim} (h : SameValue u v) (h' : SameValue v w) : SameValue u w := by
  cases h with
  | null => exact h'
  | str s => exact h'
  | inf b => exact h'
  | num _ _ q h1 h2 =>
    cases h' with
    | null => simp [Prim.rat?] at h2
    | str s => simp [Prim.rat?] at h2
    | inf b => simp [Prim.rat?] at h2
    | num _ _ q' h3 h4 =>
      rw [h2] at h3
      cases h3
      exact .num _ _ q h1 h4

/-! ## The relation -/

mutual
theorem SameFilter.symm {a b : Op} (h : SameFilter a b) : SameFilter b a := by
  cases h with
  | pr r s h => exact .pr _ _ h.symm
  | cmp o r s v w h h' => exact .cmp _ _ _ _ _ h.symm h'.symm
  | cplx r s x y h h' => exact .cplx _ _ _ _ h.symm h'.symm
  | not x y h => exact .not _ _ h.symm
  | and xs ys h => exact .and _ _ h.symm
  | or xs ys h => exact .or _ _ h.symm
theorem SameFilters.symm {a b : List Op} (h : SameFilters a b) : SameFilters b a := by
  cases h with
  | nil => exact .nil
  | cons x y xs ys h h' => exact .cons _ _ _ _ h.symm h'.symm
end

mutual
theorem SameFilter.trans {a b c : Op} (h : SameFilter a b) (h' : SameFilter b c) : SameFilter a c := by
  cases h with
  | pr r s h => cases h' with | pr _ _ h' => exact .pr _ _ (h.trans h')
  | cmp o r s v w h hv => cases h' with | cmp _ _ _ _ _ h' hv' => exact .cmp _ _ _ _ _ (h.trans h') (hv.trans hv')
  | cplx r s x y h hx => cases h' with | cplx _ _ _ _ h' hx' => exact .cplx _ _ _ _ (h.trans h') (hx.trans hx')
  | not x y h => cases h' with | not _ _ h' => exact .not _ _ (h.trans h')
  | and xs ys h => cases h' with | and _ _ h' => exact .and _ _ (h.trans h')
  | or xs ys h => cases h' with | or _ _ h' => exact .or _ _ (h.trans h')
theorem SameFilters.trans {a b c : List Op} (h : SameFilters a b) (h' : SameFilters b c) : SameFilters a c := by
  cases h with
  | nil => exact h'
  | cons x y xs ys h ht => cases h' with | cons _ _ _ _ h' ht' => exact .cons _ _ _ _ (h.trans h') (ht.trans ht')
end

section
variable [PyEnv]

mutual
theorem Op.Formed.refl {a : Op} (h : a.Formed) : SameFilter a a := by
  cases a with
  | pr r => exact .pr _ _ rfl
  | cmp o r v =>
    simp only [Op.Formed] at h
    refine .cmp _ _ _ _ _ rfl ((sameValue_iff v v).mpr (Prim.pyEq_refl ?_))
    rintro rfl
    exact h.2.2.2
  | cplx r x => simp only [Op.Formed] at h; exact .cplx _ _ _ _ rfl (Op.Formed.refl h.2.2)
  | not x => simp only [Op.Formed] at h; exact .not _ _ (Op.Formed.refl h)
  | and xs => simp only [Op.Formed] at h; exact .and _ _ (Op.AllFormed.refl h.2)
  | or xs => simp only [Op.Formed] at h; exact .or _ _ (Op.AllFormed.refl h.2)
theorem Op.AllFormed.refl {a : List Op} (h : Op.AllFormed a) : SameFilters a a := by
  cases a with
  | nil => exact .nil
  | cons x xs => simp only [Op.AllFormed] at h; exact .cons _ _ _ _ (Op.Formed.refl h.1) (Op.AllFormed.refl h.2)
end

/-! ## Names -/

theorem proper_colon {r : AttrRep} (h : r.Proper) : ':' ∉ r.attr := by
  rcases h.attr with h | h
  · exact h.not_mem colon_not_word
  · rw [h]; decide

omit [PyEnv] in
theorem append_colon_inj {a b c d : Str} (hb : ':' ∉ b) (hd : ':' ∉ d) (h : a ++ ':' :: b = c ++ ':' :: d) : a = c ∧ b = d := by
  induction a generalizing c with
  | nil =>
    cases c with
    | nil => simp at h; exact ⟨rfl, h⟩
    | cons x c =>
      simp only [List.nil_append, List.cons_append, List.cons.injEq] at h
      rw [h.2] at hb
      simp at hb
  | cons x a ih =>
    cases c with
    | nil =>
      simp only [List.nil_append, List.cons_append, List.cons.injEq] at h
      rw [← h.2] at hd
      simp at hd
    | cons y c =>
      simp only [List.cons_append, List.cons.injEq] at h
      obtain ⟨e1, e2⟩ := ih h.2
      exact ⟨by rw [h.1, e1], e2⟩

theorem shown_inj {r s : AttrRep} (hr : r.Proper) (hs : s.Proper) (hr' : r.sub = []) (hs' : s.sub = [])
    (h : r.shown = s.shown) : r = s := by
  have h1 := proper_colon hr
  have h2 := proper_colon hs
  have e1 := hr.ext
  have e2 := hs.ext
  obtain ⟨a, b, c, d⟩ := r
  obtain ⟨a', b', c', d'⟩ := s
  dsimp only at hr' hs' e1 e2 h1 h2
  subst hr' hs' e1 e2
  simp only [AttrRep.shown, ne_eq, not_true_eq_false, if_false] at h
  by_cases ha : a = []
  · by_cases ha' : a' = []
    · rw [if_neg (by simpa using ha), if_neg (by simpa using ha')] at h
      subst ha ha' h; rfl
    · rw [if_neg (by simpa using ha), if_pos ha'] at h
      rw [h] at h1
      simp at h1
  · by_cases ha' : a' = []
    · rw [if_pos ha, if_neg (by simpa using ha')] at h
      rw [← h] at h2
      simp at h2
    · rw [if_pos ha, if_pos ha'] at h
      obtain ⟨x, y⟩ := append_colon_inj h1 h2 h
      subst x y; rfl

/-! ## The comparison -/

/-- Reading a key of a converted dictionary. -/
theorem getName_conv {kvs : List (Str × Val)} (hw : ∀ p ∈ kvs, WordRun p.1) (hnd : (kvs.map (fun p => lower p.1)).Nodup)
    {k : Str} {w : Val} (hm : (k, w) ∈ kvs) : (convVal (.dict kvs)).getName k = .ok (convVal w) := by
  have hkey : k ∈ kvs.map (·.1) := List.mem_map.2 ⟨(k, w), hm, rfl⟩
  simp only [convVal, Val.getName, parse_wordRun (hw _ hm)]
  have hempty : aget (lower ([] : Str)) (lcOf (kvs.map (·.1))) = none := by
    cases hc : aget (lower ([] : Str)) (lcOf (kvs.map (·.1))) with
    | none => rfl
    | some k' =>
      obtain ⟨h1, h2⟩ := lcOf_sound _ _ _ hc
      have hk' : k' = [] := by
        rw [(PyEnv.lower_eq_nil []).2 rfl] at h1
        exact (PyEnv.lower_eq_nil k').1 h1.symm
      obtain ⟨p, hp1, hp2⟩ := List.mem_map.1 h2
      have := hw p hp1
      rw [hp2, hk'] at this
      exact absurd rfl this.1
  rw [getItem_noKey hempty]
  simp only [aget_lcOf_mem hnd hkey, aget_convPairs, aget_of_mem (nodup_of_lower hnd) hm]
  simp

/-- The check of literal keys. -/
def litKeys (ks : List Str) : Bool :=
  ks.all (fun k => !k.isEmpty && asciiStr k && k.all asciiWord) && decide ((ks.map lowAscii).Nodup)

theorem litKeys_sound {kvs : List (Str × Val)} (h : litKeys (kvs.map (·.1)) = true) :
    (∀ p ∈ kvs, WordRun p.1) ∧ (kvs.map (fun p => lower p.1)).Nodup := by
  simp only [litKeys, Bool.and_eq_true, decide_eq_true_eq, List.all_map, List.map_map] at h
  have hk : ∀ p ∈ kvs, p.1 ≠ [] ∧ asciiStr p.1 = true ∧ p.1.all asciiWord = true := by
    intro p hp
    have := List.all_eq_true.mp h.1 p hp
    simp only [Function.comp, Bool.and_eq_true, Bool.not_eq_true'] at this
    refine ⟨?_, this.1.2, this.2⟩
    intro e; rw [e] at this; simp at this
  constructor
  · intro p hp
    obtain ⟨h1, h2, h3⟩ := hk p hp
    refine ⟨h1, fun c hc => ?_⟩
    have ha := List.all_eq_true.mp h2 c hc
    rw [PyEnv.isWord_ascii c (by simpa using ha)]
    exact List.all_eq_true.mp h3 c hc
  · have : kvs.map (fun p => lower p.1) = kvs.map (lowAscii ∘ fun p => p.1) := by
      apply List.map_congr_left
      intro p hp
      exact lower_asciiStr (hk p hp).2.1
    rw [this]
    exact h.2

omit [PyEnv] in
/-- The items of the dictionary of a filter. -/
def Op.fields : Op → List (Str × Val)
  | .pr r => [("op".toList, .str "pr".toList), ("attr_rep".toList, .str (Op.repText r))]
  | .cmp o r v => [("op".toList, .str o.name), ("attr_rep".toList, .str (Op.repText r)), ("value".toList, .prim v)]
  | .cplx r sub => [("op".toList, .str "complex".toList), ("attr_rep".toList, .str (Op.repText r)),
      ("sub_op".toList, sub.toDict)]
  | .not sub => [("op".toList, .str "not".toList), ("sub_op".toList, sub.toDict)]
  | .and subs => [("op".toList, .str "and".toList), ("sub_ops".toList, .list (Op.toDicts subs))]
  | .or subs => [("op".toList, .str "or".toList), ("sub_ops".toList, .list (Op.toDicts subs))]

omit [PyEnv] in
theorem toDict_fields (a : Op) : a.toDict = .dict a.fields := by
  cases a <;> simp only [Op.toDict, Op.fields]

theorem fields_get {a : Op} {k : Str} {w : Val} (hm : (k, w) ∈ a.fields) :
    (convVal a.toDict).getName k = .ok (convVal w) := by
  have h : litKeys (a.fields.map (·.1)) = true := by
    cases a <;> (simp only [Op.fields, List.map_cons, List.map_nil]; decide)
  obtain ⟨h1, h2⟩ := litKeys_sound h
  rw [toDict_fields]
  exact getName_conv h1 h2 hm

/-- The name of the operator. -/
def Op.kind : Op → Str
  | .pr _ => "pr".toList
  | .cmp o _ _ => o.name
  | .cplx _ _ => "complex".toList
  | .not _ => "not".toList
  | .and _ => "and".toList
  | .or _ => "or".toList

omit [PyEnv] in
theorem SameFilter.kind {a b : Op} (h : SameFilter a b) : a.kind = b.kind := by
  cases h <;> rfl

theorem kind_get (a : Op) : (convVal a.toDict).getName "op".toList = .ok (.str a.kind) := by
  have : ("op".toList, Val.str a.kind) ∈ a.fields := by cases a <;> simp [Op.fields, Op.kind]
  rw [fields_get this]
  simp [convVal, Val.str]

omit [PyEnv] in
theorem repText_shown (r : AttrRep) : Op.repText r = r.shown := by
  unfold Op.repText AttrRep.shown AttrRep.attrWithSchema
  cases r.sub <;> cases r.schema <;> simp

theorem convItems_dicts (xs : List Op) : convItems (Op.toDicts xs) = xs.map (fun x => convVal x.toDict) := by
  induction xs with
  | nil => simp [Op.toDicts, convItems]
  | cons x xs ih =>
    simp only [Op.toDicts, List.map_cons, toDict_fields x]
    rw [convItems, ih, convVal]

theorem contLoop_str {n : Nat} {other : Val} {k s t : Str} (h : other.getName k = .ok (.str s)) (rest : List (Str × Val)) :
    contLoop (Val.pyEqN (n + 1)) other ((k, .str t) :: rest) =
      if s = t then contLoop (Val.pyEqN (n + 1)) other rest else .ok false := by
  have he : Val.pyEqN (n + 1) (.str s) (.str t) = .ok (decide (s = t)) := by
    simp only [Val.pyEqN, Prim.pyEq]
    by_cases hs : s = t
    · simp [hs]
    · simp [hs]
  simp only [contLoop, h, he]
  by_cases hs : s = t
  · simp [hs]
  · simp [hs]

theorem contLoop_last {eq : Val → Val → PyM Bool} {other x v : Val} {k : Str} {b : Bool} (h : other.getName k = .ok x)
    (he : eq x v = .ok b) : contLoop eq other [(k, v)] = .ok b := by
  simp only [contLoop, h, he]
  cases b <;> rfl

omit [PyEnv] in
theorem cmpName_inj {o p : CmpOp} (h : o.name = p.name) : o = p := by
  revert h; cases o <;> cases p <;> decide

omit [PyEnv] in
theorem cmpName_ne (o : CmpOp) : o.name ∉ ["pr".toList, "complex".toList, "not".toList, "and".toList, "or".toList] := by
  cases o <;> decide

omit [PyEnv] in
theorem kind_cases {a b : Op} (h : b.kind = a.kind) :
    (∃ r s, a = .pr r ∧ b = .pr s) ∨ (∃ o r s v w, a = .cmp o r v ∧ b = .cmp o s w) ∨
    (∃ r s x y, a = .cplx r x ∧ b = .cplx s y) ∨ (∃ x y, a = .not x ∧ b = .not y) ∨
    (∃ xs ys, a = .and xs ∧ b = .and ys) ∨ (∃ xs ys, a = .or xs ∧ b = .or ys) := by
  have hc : ∀ o : CmpOp, ∀ s, o.name = s → s ∈ ["pr".toList, "complex".toList, "not".toList, "and".toList, "or".toList] → False :=
    fun o s h h' => cmpName_ne o (h ▸ h')
  cases a <;> cases b <;> simp only [Op.kind] at h <;> first
    | (exact absurd h (by decide))
    | (refine (hc _ _ h ?_).elim; simp; done)
    | (refine (hc _ _ h.symm ?_).elim; simp; done)
    | skip
  · exact .inl ⟨_, _, rfl, rfl⟩
  · cases cmpName_inj h
    exact .inr (.inl ⟨_, _, _, _, _, rfl, rfl⟩)
  · exact .inr (.inr (.inl ⟨_, _, _, _, rfl, rfl⟩))
  · exact .inr (.inr (.inr (.inl ⟨_, _, rfl, rfl⟩)))
  · exact .inr (.inr (.inr (.inr (.inl ⟨_, _, rfl, rfl⟩))))
  · exact .inr (.inr (.inr (.inr (.inr ⟨_, _, rfl, rfl⟩))))

open Classical in
theorem pyEqN_op (n : Nat) : ∀ a b : Op, (convVal a.toDict).size + (convVal b.toDict).size < n →
    Val.pyEqN n (convVal a.toDict) (convVal b.toDict) = .ok (decide (SameFilter b a)) := by
  induction n using Nat.strongRecOn with
  | _ n ih0 =>
    intro a b h
    have hk := kind_get b
    have hlist : ∀ k, k < n → ∀ xs ys : List Op, (∀ x ∈ xs, ∀ y ∈ ys, (convVal x.toDict).size + (convVal y.toDict).size < k) →
        (if (xs.map (fun x => convVal x.toDict)).length = (ys.map (fun x => convVal x.toDict)).length then
          listLoop (Val.pyEqN k) (xs.map (fun x => convVal x.toDict)) (ys.map (fun x => convVal x.toDict)) else .ok false)
          = .ok (decide (SameFilters ys xs)) := by
      intro k hkn xs
      induction xs with
      | nil =>
        intro ys _
        cases ys with
        | nil =>
          simp only [List.map_nil, if_true, listLoop]
          rw [decide_eq_true SameFilters.nil]
        | cons y ys =>
          simp only [List.map_nil, List.map_cons, List.length_nil, List.length_cons]
          rw [if_neg (by omega), decide_eq_false (fun h => by cases h)]
      | cons x xs ihx =>
        intro ys hxy
        cases ys with
        | nil =>
          simp only [List.map_nil, List.map_cons, List.length_nil, List.length_cons]
          rw [if_neg (by omega), decide_eq_false (fun h => by cases h)]
        | cons y ys =>
          have h1 := ih0 k hkn x y (hxy x (by simp) y (by simp))
          have h2 := ihx ys (fun x hx y hy => hxy x (by simp [hx]) y (by simp [hy]))
          simp only [List.map_cons, List.length_cons, Nat.add_right_cancel_iff, listLoop, h1]
          by_cases hs : SameFilter y x
          · rw [decide_eq_true hs]
            dsimp only
            rw [h2]
            by_cases ht : SameFilters ys xs
            · rw [decide_eq_true ht, decide_eq_true (.cons _ _ _ _ hs ht)]
            · rw [decide_eq_false ht, decide_eq_false (fun h => by cases h; exact ht (by assumption))]
          · rw [decide_eq_false hs, decide_eq_false (fun h => by cases h; exact hs (by assumption))]
            simp
    have hne : b.kind ≠ a.kind → decide (SameFilter b a) = false := fun e => decide_eq_false (fun h => e h.kind)
    have hpos : ∃ m, n = m + 1 + 1 := by
      have h1 : 1 ≤ (convVal a.toDict).size := by
        rw [toDict_fields, convVal]; simp only [Val.size]; omega
      exact ⟨n - 2, by omega⟩
    obtain ⟨m, rfl⟩ := hpos
    have ih := ih0 (m + 1) (by omega)
    have hlist' : ∀ xs ys : List Op, sizeList (xs.map (fun x => convVal x.toDict)) + sizeList (ys.map (fun x => convVal x.toDict)) < m →
        Val.pyEqN (m + 1) (.list (xs.map (fun x => convVal x.toDict))) (.list (ys.map (fun x => convVal x.toDict)))
          = .ok (decide (SameFilters ys xs)) := by
      intro xs ys hs
      rw [Val.pyEqN]
      refine hlist m (by omega) xs ys (fun x hx y hy => ?_)
      have h1 := size_lt_of_mem_list (List.mem_map.mpr ⟨x, hx, rfl⟩ : convVal x.toDict ∈ xs.map (fun x => convVal x.toDict))
      have h2 := size_lt_of_mem_list (List.mem_map.mpr ⟨y, hy, rfl⟩ : convVal y.toDict ∈ ys.map (fun x => convVal x.toDict))
      omega
    have hcont : Val.pyEqN (m + 1 + 1) (convVal a.toDict) (convVal b.toDict)
        = contLoop (Val.pyEqN (m + 1)) (convVal b.toDict) (convPairs a.fields) := by
      rw [toDict_fields a, toDict_fields b, convVal, convVal, Val.pyEqN]
    have hop : ∃ rest, a.fields = ("op".toList, Val.str a.kind) :: rest := by
      cases a <;> exact ⟨_, rfl⟩
    obtain ⟨rest, hrest⟩ := hop
    rw [hcont, hrest]
    simp only [convPairs]
    rw [show convVal (Val.str a.kind) = Val.str a.kind from by simp [Val.str, convVal], contLoop_str hk]
    by_cases hkind : b.kind = a.kind
    · rw [if_pos hkind]
      have hrep : ∀ {r : AttrRep} {rest : List (Str × Val)}, ("attr_rep".toList, Val.str (Op.repText r)) ∈ b.fields →
          ∀ s : AttrRep, contLoop (Val.pyEqN (m + 1)) (convVal b.toDict)
              (("attr_rep".toList, convVal (.str (Op.repText s))) :: rest)
            = if r.shown = s.shown then contLoop (Val.pyEqN (m + 1)) (convVal b.toDict) rest else .ok false := by
        intro r rest hm s
        have hg : (convVal b.toDict).getName "attr_rep".toList = .ok (.str r.shown) := by
          rw [fields_get hm, repText_shown]; simp [Val.str, convVal]
        rw [show convVal (.str (Op.repText s)) = Val.str s.shown from by simp [Val.str, convVal, repText_shown], contLoop_str hg]
      rcases kind_cases hkind with ⟨r, s, rfl, rfl⟩ | ⟨o, r, s, v, w, rfl, rfl⟩ | ⟨r, s, x, y, rfl, rfl⟩ | ⟨x, y, rfl, rfl⟩ |
        ⟨xs, ys, rfl, rfl⟩ | ⟨xs, ys, rfl, rfl⟩
      · simp only [Op.fields, Op.kind, List.cons.injEq, true_and] at hrest
        subst hrest
        simp only [convPairs]
        rw [hrep (r := s) (by simp [Op.fields])]
        by_cases e : s.shown = r.shown
        · rw [if_pos e, decide_eq_true (.pr _ _ e)]; rfl
        · rw [if_neg e, decide_eq_false (fun h => by cases h; exact e (by assumption))]
      · simp only [Op.fields, Op.kind, List.cons.injEq, true_and] at hrest
        subst hrest
        simp only [convPairs]
        rw [hrep (r := s) (by simp [Op.fields])]
        by_cases e : s.shown = r.shown
        · rw [if_pos e]
          have hv : (convVal (Op.cmp o s w).toDict).getName "value".toList = .ok (.prim w) := by
            rw [fields_get (w := .prim w) (by simp [Op.fields])]; simp [convVal]
          rw [contLoop_last hv (b := w.pyEq v) (by simp [convVal, Val.pyEqN])]
          by_cases ev : SameValue w v
          · rw [(sameValue_iff w v).mp ev, decide_eq_true (.cmp _ _ _ _ _ e ev)]
          · rw [decide_eq_false (fun h => by cases h; exact ev (by assumption))]
            cases hq : w.pyEq v with
            | false => rfl
            | true => exact absurd ((sameValue_iff w v).mpr hq) ev
        · rw [if_neg e, decide_eq_false (fun h => by cases h; exact e (by assumption))]
      · simp only [Op.fields, Op.kind, List.cons.injEq, true_and] at hrest
        subst hrest
        simp only [convPairs]
        rw [hrep (r := s) (by simp [Op.fields])]
        by_cases e : s.shown = r.shown
        · rw [if_pos e]
          have hv : (convVal (Op.cplx s y).toDict).getName "sub_op".toList = .ok (convVal y.toDict) :=
            fields_get (by simp [Op.fields])
          have hz := ih y x (by
            rw [toDict_fields (.cplx r x), toDict_fields (.cplx s y)] at h
            simp only [Op.fields, convVal, convPairs, Val.size, sizePairs] at h
            omega)
          rw [contLoop_last hv hz]
          by_cases ev : SameFilter y x
          · rw [decide_eq_true ev.symm, decide_eq_true (.cplx _ _ _ _ e ev)]
          · rw [decide_eq_false (fun h => ev h.symm), decide_eq_false (fun h => by cases h; exact ev (by assumption))]
        · rw [if_neg e, decide_eq_false (fun h => by cases h; exact e (by assumption))]
      · simp only [Op.fields, Op.kind, List.cons.injEq, true_and] at hrest
        subst hrest
        simp only [convPairs]
        have hv : (convVal (Op.not y).toDict).getName "sub_op".toList = .ok (convVal y.toDict) :=
          fields_get (by simp [Op.fields])
        have hz := ih y x (by
          rw [toDict_fields (.not x), toDict_fields (.not y)] at h
          simp only [Op.fields, convVal, convPairs, Val.size, sizePairs] at h
          omega)
        rw [contLoop_last hv hz]
        by_cases ev : SameFilter y x
        · rw [decide_eq_true ev.symm, decide_eq_true (.not _ _ ev)]
        · rw [decide_eq_false (fun h => ev h.symm), decide_eq_false (fun h => by cases h; exact ev (by assumption))]
      · simp only [Op.fields, Op.kind, List.cons.injEq, true_and] at hrest
        subst hrest
        simp only [convPairs]
        have hv : (convVal (Op.and ys).toDict).getName "sub_ops".toList = .ok (.list (ys.map (fun x => convVal x.toDict))) := by
          rw [fields_get (w := .list (Op.toDicts ys)) (by simp [Op.fields]), convVal, convItems_dicts]
        have hz := hlist' ys xs (by
          rw [toDict_fields (.and xs), toDict_fields (.and ys)] at h
          simp only [Op.fields, convVal, convPairs, Val.size, sizePairs, convItems_dicts] at h
          omega)
        rw [convVal, convItems_dicts, contLoop_last hv hz]
        by_cases ev : SameFilters ys xs
        · rw [decide_eq_true ev.symm, decide_eq_true (.and _ _ ev)]
        · rw [decide_eq_false (fun h => ev h.symm), decide_eq_false (fun h => by cases h; exact ev (by assumption))]
      · simp only [Op.fields, Op.kind, List.cons.injEq, true_and] at hrest
        subst hrest
        simp only [convPairs]
        have hv : (convVal (Op.or ys).toDict).getName "sub_ops".toList = .ok (.list (ys.map (fun x => convVal x.toDict))) := by
          rw [fields_get (w := .list (Op.toDicts ys)) (by simp [Op.fields]), convVal, convItems_dicts]
        have hz := hlist' ys xs (by
          rw [toDict_fields (.or xs), toDict_fields (.or ys)] at h
          simp only [Op.fields, convVal, convPairs, Val.size, sizePairs, convItems_dicts] at h
          omega)
        rw [convVal, convItems_dicts, contLoop_last hv hz]
        by_cases ev : SameFilters ys xs
        · rw [decide_eq_true ev.symm, decide_eq_true (.or _ _ ev)]
        · rw [decide_eq_false (fun h => ev h.symm), decide_eq_false (fun h => by cases h; exact ev (by assumption))]
    · rw [if_neg hkind, hne hkind]

end
end Scim
