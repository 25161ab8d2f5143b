import Verif.Spec.Declared
import Verif.Lemmas.Attributes
import Verif.Lemmas.IssuesMore

/-! Processing a body looks at what it holds for the declared attributes only. -/

namespace Scim.Declared
variable [PyEnv]

theorem spelling_toCont (D : List (Str × Val)) (n : Str) :
    aget (lower n) (lcOf (D.map (·.1))) = ((D.map (·.1)).filter (fun k => lower k = lower n)).getLast? := aget_lcOf _ _

/-- Reading finds what is found. -/
theorem getItem_found {D : List (Str × Val)} {r : AttrRep} (hs : found r.schema D = none) (hr : r.sub = []) :
    (Val.toCont (.dict D)).getItem r = .ok (match found r.attr D with | some x => convVal x | none => .missing) := by
  have key : ∀ n k, aget (lower n) (lcOf (D.map (·.1))) = some k → ∃ v, aget k D = some v ∧ found n D = some v := by
    intro n k h
    have hk : k ∈ D.map (·.1) := (lcOf_sound _ _ _ h).2
    have : (aget k D).isSome = true := aget_isSome_iff.mpr hk
    obtain ⟨v, hv⟩ := Option.isSome_iff_exists.mp this
    refine ⟨v, hv, ?_⟩
    unfold found
    rw [← spelling_toCont, h]; exact hv
  have none : ∀ n, aget (lower n) (lcOf (D.map (·.1))) = none → found n D = none := by
    intro n h
    unfold found
    rw [← spelling_toCont, h]; rfl
  unfold Val.toCont Val.getItem Val.getX
  simp only [Bool.false_and, Bool.false_eq_true, if_false]
  cases h0 : aget (lower r.schema) (lcOf (D.map (·.1))) with
  | some k => obtain ⟨v, -, e⟩ := key _ _ h0; rw [hs] at e; cases e
  | none =>
    dsimp only
    cases h1 : aget (lower r.attr) (lcOf (D.map (·.1))) with
    | none => rw [none _ h1]
    | some k =>
      obtain ⟨v, e1, e2⟩ := key _ _ h1
      simp only [hr, List.isEmpty_nil, if_true, aget_convPairs, e1, e2, Option.map_some]

theorem getItem_look {D : List (Str × Val)} {r : AttrRep} (hc : Clear r D) (hr : r.sub = []) :
    (Val.toCont (.dict D)).getItem r = .ok (match look r D with | some x => convVal x | none => .missing) := by
  rcases hc with h | ⟨E, h, hE⟩
  · rw [getItem_found h hr]
    unfold look
    rw [h]
  · unfold look
    rw [h]
    dsimp only
    rw [← getItem_found (r := { attr := r.attr, sub := r.sub }) hE hr]
    have h' := h
    unfold found at h'
    rw [← spelling_toCont] at h'
    cases h0 : aget (lower r.schema) (lcOf (D.map (·.1))) with
    | none => rw [h0] at h'; cases h'
    | some k =>
      rw [h0] at h'
      have h' : aget k D = some (.dict E) := h'
      unfold Val.toCont Val.getItem
      conv => lhs; unfold Val.getX
      simp only [Bool.false_and, Bool.false_eq_true, if_false, h0]
      rw [getAt_eq, aget_convPairs, h']
      rfl

/-! ### Values of simple attributes -/

/-- Lists and objects. -/
def box : Val → Bool
  | .list _ | .dict _ | .cont _ _ => true
  | _ => false

theorem conv_box {t : AttrType} (h1 : t ≠ .unknown) (h2 : t ≠ .complex) (m : Mode) {v : Val} (hv : box v = true) :
    t.conv m v = .ok badType := by
  cases v <;> simp [box] at hv <;> cases m <;> cases t <;> first | rfl | exact absurd rfl h1 | exact absurd rfl h2

theorem processOne_box {a : AttrInfo} (h1 : a.type ≠ .unknown) (h2 : a.type ≠ .complex) (m : Mode) {x y : Val}
    (h : x = y ∨ box x = true ∧ box y = true) (loc : Loc) (is : Issues) :
    a.processOne m loc x is = a.processOne m loc y is := by
  rcases h with rfl | ⟨hx, hy⟩
  · rfl
  · unfold AttrInfo.processOne
    rw [conv_box h1 h2 m hx, conv_box h1 h2 m hy]

theorem processItems_box {a : AttrInfo} (h1 : a.type ≠ .unknown) (h2 : a.type ≠ .complex) (m : Mode) :
    ∀ (xs ys : List Val) (k : Nat) (is : Issues), xs.length = ys.length →
      (∀ (i : Nat) x y, xs[i]? = some x → ys[i]? = some y → x = y ∨ box x = true ∧ box y = true) →
      a.processItems m k xs is = a.processItems m k ys is
  | [], [], _, _, _, _ => rfl
  | [], _ :: _, _, _, hl, _ => by cases hl
  | _ :: _, [], _, _, hl, _ => by cases hl
  | x :: xs, y :: ys, k, is, hl, h => by
    unfold AttrInfo.processItems
    rw [processOne_box h1 h2 m (h 0 x y rfl rfl) _ is]
    cases a.processOne m [.idx k] y is with
    | error e => rfl
    | ok p =>
      obtain ⟨v, is'⟩ := p
      dsimp only
      rw [processItems_box h1 h2 m xs ys (k + 1) is' (Nat.succ.inj hl) fun i x y hx hy =>
        h (i + 1) x y hx hy]

/-- The conversion of an item of a list. -/
def itemConv : Val → Val
  | .dict kvs => Val.toCont (.dict kvs)
  | v => v

theorem convItems_get : ∀ (xs : List Val) (i : Nat), (convItems xs)[i]? = (xs[i]?).map itemConv
  | [], i => by simp [convItems]
  | v :: r, 0 => by cases v <;> simp [convItems, Val.toCont, itemConv]
  | v :: r, i + 1 => by
    have := convItems_get r i
    cases v <;> simpa [convItems] using this

theorem convItems_length : ∀ xs : List Val, (convItems xs).length = xs.length
  | [] => rfl
  | v :: r => by
    have := convItems_length r
    cases v <;> simpa [convItems] using this

theorem Blunt.item {x y : Val} (h : Blunt x y) :
    itemConv x = itemConv y ∨ box (itemConv x) = true ∧ box (itemConv y) = true := by
  cases h with
  | same => exact .inl rfl
  | objects D D' => exact .inr ⟨rfl, rfl⟩
  | lists => exact .inr ⟨rfl, rfl⟩

theorem Blunt.process {a : AttrInfo} (h1 : a.type ≠ .unknown) (h2 : a.type ≠ .complex) (m : Mode) {V W : Val}
    (h : Blunt V W) : a.process m (convVal V) = a.process m (convVal W) := by
  cases h with
  | same => rfl
  | objects D D' =>
    unfold AttrInfo.process convVal
    rw [show (Val.cont (convPairs D) (lcOf (D.map (·.1)))).isNone = false from rfl,
      show (Val.cont (convPairs D') (lcOf (D'.map (·.1)))).isNone = false from rfl,
      processOne_box h1 h2 m (x := Val.cont (convPairs D) (lcOf (D.map (·.1))))
        (y := Val.cont (convPairs D') (lcOf (D'.map (·.1)))) (.inr ⟨rfl, rfl⟩)]
    rfl
  | lists xs ys len items =>
    unfold AttrInfo.process convVal
    rw [show (Val.list (convItems xs)).isNone = false from rfl, show (Val.list (convItems ys)).isNone = false from rfl,
      processOne_box h1 h2 m (x := Val.list (convItems xs)) (y := Val.list (convItems ys)) (.inr ⟨rfl, rfl⟩)]
    dsimp only
    rw [processItems_box h1 h2 m (convItems xs) (convItems ys) 0 {}
      (by rw [convItems_length, convItems_length, len]) ?_]
    · rfl
    intro i x y hx hy
    rw [convItems_get] at hx hy
    cases hx' : xs[i]? with
    | none => rw [hx'] at hx; cases hx
    | some u =>
      cases hy' : ys[i]? with
      | none => rw [hy'] at hy; cases hy
      | some v =>
        rw [hx'] at hx; rw [hy'] at hy
        simp only [Option.map_some, Option.some.injEq] at hx hy
        rw [← hx, ← hy]
        exact (items i u v hx' hy').item

/-! ### Values of complex attributes -/

/-- The same exception, or the same issues and related values. -/
def SameOut {α : Type} (P : α → α → Prop) (o o' : PyM (α × Issues)) : Prop :=
  (∃ e, o = .error e ∧ o' = .error e) ∨ ∃ v w is, o = .ok (v, is) ∧ o' = .ok (w, is) ∧ P v w

/-- Items of a complex attribute that hold the same. -/
def Item (subs : List Attr) (x y : Val) : Prop :=
  x = y ∨ (∃ D D', x = Val.toCont (.dict D) ∧ y = Val.toCont (.dict D') ∧ AlikeIn subs D D') ∨
    ∃ us vs, x = .list us ∧ y = .list vs

theorem processOne_item {a : AttrInfo} {subs : List Attr} (m : Mode) {x y : Val} (h : Item subs x y) (loc : Loc)
    (is : Issues) : (∃ e, a.processOne m loc x is = .error e ∧ a.processOne m loc y is = .error e) ∨
      ∃ v w is', a.processOne m loc x is = .ok (v, is') ∧ a.processOne m loc y is = .ok (w, is') ∧ Item subs v w ∧
        (v = w ∨ is' = is) := by
  have go : ∀ x y : Val, Item subs x y → a.isCanonical x = a.isCanonical y →
      ((∃ e, a.type.conv m x = .error e ∧ a.type.conv m y = .error e) ∨
        (∃ p, a.type.conv m x = .ok p ∧ a.type.conv m y = .ok p) ∨
        (a.type.conv m x = .ok (x, {}) ∧ a.type.conv m y = .ok (y, {}))) →
      (∃ e, a.processOne m loc x is = .error e ∧ a.processOne m loc y is = .error e) ∨
      ∃ v w is', a.processOne m loc x is = .ok (v, is') ∧ a.processOne m loc y is = .ok (w, is') ∧ Item subs v w ∧
        (v = w ∨ is' = is) := by
    intro x y h hc hh
    unfold AttrInfo.processOne
    rcases hh with ⟨e, h1, h2⟩ | ⟨⟨v, is'⟩, h1, h2⟩ | ⟨h1, h2⟩
    · rw [h1, h2]; exact .inl ⟨e, rfl, rfl⟩
    · rw [h1, h2]
      dsimp only
      split <;> exact .inr ⟨_, _, _, rfl, rfl, .inl rfl, .inl rfl⟩
    · rw [h1, h2]
      dsimp only
      rw [hc]
      split
      · exact .inr ⟨_, _, _, rfl, rfl, .inl rfl, .inl rfl⟩
      · exact .inr ⟨_, _, _, rfl, rfl, h, .inr rfl⟩
  have h' := h
  rcases h with rfl | ⟨D, D', rfl, rfl, ha⟩ | ⟨us, vs, rfl, rfl⟩
  · cases hx : a.processOne m loc x is with
    | error e => exact .inl ⟨e, rfl, rfl⟩
    | ok p => exact .inr ⟨p.1, p.1, p.2, rfl, rfl, .inl rfl, .inl rfl⟩
  · refine go _ _ h' ?_ ?_
    · unfold Val.toCont AttrInfo.isCanonical
      cases a.canonical <;> rfl
    · unfold Val.toCont
      cases m <;> cases a.type <;> first
        | exact .inr (.inr ⟨rfl, rfl⟩)
        | exact .inr (.inl ⟨badType, rfl, rfl⟩)
  · refine go _ _ h' ?_ ?_
    · unfold AttrInfo.isCanonical
      cases a.canonical <;> rfl
    · cases m <;> cases a.type <;> first
        | exact .inr (.inr ⟨rfl, rfl⟩)
        | exact .inr (.inl ⟨badType, rfl, rfl⟩)

/-- Lists of related items. -/
def Items (P : Val → Val → Prop) (xs ys : List Val) : Prop :=
  xs.length = ys.length ∧ ∀ (i : Nat) x y, xs[i]? = some x → ys[i]? = some y → P x y

theorem Items.cons {P : Val → Val → Prop} {x y : Val} {xs ys : List Val} (h : P x y) (hs : Items P xs ys) :
    Items P (x :: xs) (y :: ys) := by
  refine ⟨congrArg (· + 1) hs.1, fun i a b ha hb => ?_⟩
  cases i with
  | zero => cases ha; cases hb; exact h
  | succ i => exact hs.2 i a b ha hb

theorem Items.tail {P : Val → Val → Prop} {x y : Val} {xs ys : List Val} (h : Items P (x :: xs) (y :: ys)) :
    P x y ∧ Items P xs ys :=
  ⟨h.2 0 x y rfl rfl, Nat.succ.inj h.1, fun i a b ha hb => h.2 (i + 1) a b ha hb⟩

theorem processItems_item {a : AttrInfo} {subs : List Attr} (m : Mode) :
    ∀ (xs ys : List Val) (k : Nat) (is : Issues), Items (Item subs) xs ys →
      SameOut (Items (Item subs)) (a.processItems m k xs is) (a.processItems m k ys is)
  | [], [], _, is, h => .inr ⟨[], [], is, rfl, rfl, h⟩
  | [], _ :: _, _, _, h => by cases h.1
  | _ :: _, [], _, _, h => by cases h.1
  | x :: xs, y :: ys, k, is, h => by
    unfold AttrInfo.processItems
    rcases processOne_item (a := a) m h.tail.1 [.idx k] is with ⟨e, h1, h2⟩ | ⟨v, w, is', h1, h2, hv, -⟩
    · rw [h1, h2]; exact .inl ⟨e, rfl, rfl⟩
    · rw [h1, h2]
      dsimp only
      rcases processItems_item m xs ys (k + 1) is' h.tail.2 with ⟨e, h3, h4⟩ | ⟨vs, ws, is'', h3, h4, hvs⟩
      · rw [h3, h4]; exact .inl ⟨e, rfl, rfl⟩
      · rw [h3, h4]; exact .inr ⟨_, _, _, rfl, rfl, hvs.cons hv⟩

/-- Values of a complex attribute that hold the same. -/
def Whole (subs : List Attr) (x y : Val) : Prop :=
  Item subs x y ∨ ∃ xs ys, x = .list xs ∧ y = .list ys ∧ Items (Item subs) xs ys

theorem Item.isNone {subs : List Attr} {x y : Val} (h : Item subs x y) : x.isNone = y.isNone := by
  rcases h with rfl | ⟨D, D', rfl, rfl, -⟩ | ⟨us, vs, rfl, rfl⟩ <;> rfl

theorem Whole.isNone {subs : List Attr} {x y : Val} (h : Whole subs x y) : x.isNone = y.isNone := by
  rcases h with h | ⟨xs, ys, rfl, rfl, -⟩
  · exact h.isNone
  · rfl

theorem root_aset {β : Type} (k : LKey) (l : Loc) (b : β) (m : List (Loc × β)) :
    aget [] (aset (k :: l) b m) = aget [] m := by
  rw [aget_aset, if_neg (by intro h; cases h)]

theorem root_merge (s o : Issues) (k : LKey) (l : Loc) : aget [] (s.merge o (k :: l)).stop = aget [] s.stop := by
  unfold Issues.merge
  have : ∀ (ps : List (Loc × List VErr)) (s : Issues), aget [] (ps.foldl (fun acc p =>
      { issues := Issues.extendAt ((k :: l) ++ p.1) p.2 acc.issues
        stop := Issues.updateAt ((k :: l) ++ p.1) ((aget p.1 o.stop).getD []) acc.stop : Issues }) s).stop =
      aget [] s.stop := by
    intro ps
    induction ps with
    | nil => intro s; rfl
    | cons p ps ih =>
      intro s
      rw [List.foldl_cons, ih]
      exact root_aset _ _ _ _
  exact this _ _

theorem processOne_root {a : AttrInfo} {m : Mode} {k : LKey} {l : Loc} {v w : Val} {is is' : Issues}
    (h : a.processOne m (k :: l) v is = .ok (w, is')) : aget [] is'.stop = aget [] is.stop := by
  unfold AttrInfo.processOne at h
  split at h
  · cases h
  · dsimp only at h
    split at h <;> cases h
    · unfold Issues.add
      simp only [Bool.false_eq_true, if_false]
      rw [Issues.updateAt, root_aset, root_merge]
    · rw [root_merge]

theorem processItems_root {a : AttrInfo} {m : Mode} : ∀ (xs : List Val) (k : Nat) (ys : List Val) (is is' : Issues),
    a.processItems m k xs is = .ok (ys, is') → aget [] is'.stop = aget [] is.stop
  | [], _, _, _, _, h => by cases h; rfl
  | x :: xs, k, ys, is, is', h => by
    unfold AttrInfo.processItems at h
    split at h
    · cases h
    · rename_i h1
      split at h
      · cases h
      · rename_i h2
        cases h
        rw [processItems_root xs _ _ _ _ h2, processOne_root h1]

theorem process_whole {a : AttrInfo} {subs : List Attr} (m : Mode) (ha : a.procs m = []) {x y : Val}
    (h : Whole subs x y) (hm : a.multi = true → ∀ us vs, x = .list us → y = .list vs → Items (Item subs) us vs) :
    (∃ e, a.process m x = .error e ∧ a.process m y = .error e) ∨
      ∃ v w is, a.process m x = .ok (v, is) ∧ a.process m y = .ok (w, is) ∧ Whole subs v w ∧
        (a.multi = true → ∀ us vs, v = .list us → w = .list vs → Items (Item subs) us vs) ∧
        (v = w ∨ is.canProceed = true) := by
  have refl : ∀ us : List Val, Items (Item subs) us us := fun us =>
    ⟨rfl, fun i x y hx hy => .inl (Option.some.inj (hx.symm.trans hy))⟩
  unfold AttrInfo.process
  rw [h.isNone]
  by_cases hn : y.isNone = true
  · rw [if_pos hn, if_pos hn]
    have hxy : x = y := by
      have hx := h.isNone.trans hn
      cases x <;> simp [Val.isNone] at hx
      cases y <;> simp [Val.isNone] at hn
      rename_i p q
      cases p <;> simp at hx
      cases q <;> simp at hn
      rfl
    exact .inr ⟨_, _, _, rfl, rfl, h, hm, .inl hxy⟩
  · rw [if_neg hn, if_neg hn]
    dsimp only
    rw [ha]
    have fin : ∀ (p : Val) (is : Issues), (if is.hasIssues = true then .ok (p, is) else runProcs [] p is : PyM (Val × Issues)) =
        .ok (p, is) := by
      intro p is; split <;> rfl
    by_cases hmul : a.multi = true
    · rw [if_pos hmul, if_pos hmul]
      by_cases hl : ∃ us vs, x = .list us ∧ y = .list vs
      · obtain ⟨us, vs, rfl, rfl⟩ := hl
        dsimp only
        rcases processItems_item (a := a) m us vs 0 {} (hm hmul us vs rfl rfl) with
          ⟨e, h1, h2⟩ | ⟨p, q, is, h1, h2, hpq⟩
        · rw [h1, h2]; exact .inl ⟨e, rfl, rfl⟩
        · rw [h1, h2]
          dsimp only
          rw [fin, fin]
          refine .inr ⟨_, _, _, rfl, rfl, .inr ⟨p, q, rfl, rfl, hpq⟩, fun _ us' vs' e1 e2 => ?_, .inr ?_⟩
          · cases e1; cases e2; exact hpq
          · rw [Issues.canProceed_nil_iff, processItems_root _ _ _ _ _ h1]; rfl
      · have hx : ∀ us, x ≠ .list us := by
          intro us e
          subst e
          rcases h with (e | ⟨D, D', e, -⟩ | ⟨us', vs, -, e⟩) | ⟨xs, ys, e1, e2, -⟩
          · exact hl ⟨us, us, rfl, e.symm⟩
          · cases e
          · exact hl ⟨us, vs, rfl, e⟩
          · exact hl ⟨us, ys, rfl, e2⟩
        have hy : ∀ vs, y ≠ .list vs := by
          intro vs e
          subst e
          rcases h with (e | ⟨D, D', -, e, -⟩ | ⟨us', vs', e, -⟩) | ⟨xs, ys, e1, e2, -⟩
          · exact hl ⟨vs, vs, e, rfl⟩
          · cases e
          · exact hl ⟨us', vs, e, rfl⟩
          · exact hl ⟨xs, vs, e1, rfl⟩
        refine .inr ⟨.invalid, .invalid, blocking 2, ?_, ?_, .inl (.inl rfl), fun _ us vs e => (by cases e), .inl rfl⟩
        · cases x <;> first | rfl | exact absurd rfl (hx _)
        · cases y <;> first | rfl | exact absurd rfl (hy _)
    · rw [if_neg hmul, if_neg hmul]
      have hi : Item subs x y := by
        rcases h with h | ⟨xs, ys, rfl, rfl, -⟩
        · exact h
        · exact .inr (.inr ⟨xs, ys, rfl, rfl⟩)
      rcases processOne_item (a := a) m hi [] {} with ⟨e, h1, h2⟩ | ⟨p, q, is, h1, h2, hpq, hq⟩
      · rw [h1, h2]; exact .inl ⟨e, rfl, rfl⟩
      · rw [h1, h2]
        dsimp only
        rw [fin, fin]
        refine .inr ⟨_, _, _, rfl, rfl, .inl hpq, fun h => absurd h hmul, ?_⟩
        rcases hq with hq | rfl
        · exact .inl hq
        · exact .inr rfl

theorem Item.toCont {subs : List Attr} {x y : Val} (h : Item subs x y) :
    x.toCont = y.toCont ∨ ∃ D D', x.toCont = Val.toCont (.dict D) ∧ y.toCont = Val.toCont (.dict D') ∧ AlikeIn subs D D' := by
  rcases h with rfl | ⟨D, D', rfl, rfl, h⟩ | ⟨us, vs, rfl, rfl⟩
  · exact .inl rfl
  · exact .inr ⟨D, D', rfl, rfl, h⟩
  · exact .inl rfl

theorem complexItems_item {subs : List Attr} (f : Loc → Val → Issues → PyM (Val × Issues))
    (hf : ∀ D D' loc is, AlikeIn subs D D' → f loc (Val.toCont (.dict D)) is = f loc (Val.toCont (.dict D')) is) :
    ∀ (xs ys : List Val) (k : Nat) (is : Issues), Items (Item subs) xs ys →
      complexItems f k xs is = complexItems f k ys is
  | [], [], _, _, _ => rfl
  | [], _ :: _, _, _, h => by cases h.1
  | _ :: _, [], _, _, h => by cases h.1
  | x :: xs, y :: ys, k, is, h => by
    unfold complexItems
    have e : f [.idx k] x.toCont is = f [.idx k] y.toCont is := by
      rcases h.tail.1.toCont with e | ⟨D, D', e1, e2, ha⟩
      · rw [e]
      · rw [e1, e2]; exact hf D D' _ _ ha
    rw [e]
    cases f [.idx k] y.toCont is with
    | error e => rfl
    | ok p =>
      obtain ⟨v, is'⟩ := p
      dsimp only
      rw [complexItems_item f hf xs ys (k + 1) is' h.tail.2]

theorem AlikeAt.whole {i : AttrInfo} {subs : List Attr} {ps ds : List Proc} {V W : Val}
    (h : AlikeAt (.complex i subs ps ds) V W) : Whole subs (convVal V) (convVal W) ∧
      ∀ us vs, convVal V = .list us → convVal W = .list vs → Items (Item subs) us vs := by
  have refl : ∀ us : List Val, Items (Item subs) us us := fun us =>
    ⟨rfl, fun i x y hx hy => .inl (Option.some.inj (hx.symm.trans hy))⟩
  unfold AlikeAt at h
  rcases h with rfl | ⟨D, D', rfl, rfl, h⟩ | ⟨xs, ys, rfl, rfl, hl, h⟩
  · exact ⟨.inl (.inl rfl), fun us vs e1 e2 => by rw [e1] at e2; cases e2; exact refl us⟩
  · exact ⟨.inl (.inr (.inl ⟨D, D', rfl, rfl, h⟩)), fun us vs e => by cases e⟩
  · have : Items (Item subs) (convItems xs) (convItems ys) := by
      refine ⟨by rw [convItems_length, convItems_length, hl], fun i x y hx hy => ?_⟩
      rw [convItems_get] at hx hy
      cases hx' : xs[i]? with
      | none => rw [hx'] at hx; cases hx
      | some u =>
        cases hy' : ys[i]? with
        | none => rw [hy'] at hy; cases hy
        | some v =>
          rw [hx'] at hx; rw [hy'] at hy
          simp only [Option.map_some, Option.some.injEq] at hx hy
          rw [← hx, ← hy]
          rcases h i u v hx' hy' with rfl | ⟨D, D', rfl, rfl, ha⟩ | ⟨us, vs, rfl, rfl⟩
          · exact .inl rfl
          · exact .inr (.inl ⟨D, D', rfl, rfl, ha⟩)
          · exact .inr (.inr ⟨us, vs, rfl, rfl⟩)
    refine ⟨.inr ⟨_, _, by unfold convVal; rfl, by unfold convVal; rfl, this⟩, fun us vs e1 e2 => ?_⟩
    unfold convVal at e1 e2
    cases e1; cases e2; exact this

theorem Direct.sub {m : Mode} {a : Attr} (h : Direct m a) : a.rep.sub = [] := by
  cases a <;> unfold Direct at h <;> exact h.1

theorem Blunt.missing {V W : Val} (h : Blunt V W) : convVal V = .missing ↔ convVal W = .missing := by
  cases h <;> simp [convVal]

theorem AlikeAt.missing {a : Attr} {V W : Val} (h : AlikeAt a V W) : convVal V = .missing ↔ convVal W = .missing := by
  cases a with
  | simple i => unfold AlikeAt at h; exact h.missing
  | complex i subs ps ds =>
    unfold AlikeAt at h
    rcases h with rfl | ⟨D, D', rfl, rfl, h⟩ | ⟨xs, ys, rfl, rfl, hl, h⟩ <;> simp [convVal]

/-- Process a value, store it and carry on. -/
def after (m : Mode) (a : Attr) (parsed : Val) (k : Val → Issues → PyM (Val × Issues)) (z : Val) : PyM (Val × Issues) :=
  match a.process m z with
  | .error e => .error e
  | .ok (p, is1) => match parsed.setItem a.rep p with
    | .error e => .error e
    | .ok parsed' => k parsed' is1

mutual
/-- Values that hold the same for an attribute are processed alike. -/
theorem AlikeAt.process (m : Mode) : ∀ (a : Attr) (V W : Val), Direct m a → AlikeAt a V W →
    a.process m (convVal V) = a.process m (convVal W)
  | .simple i, V, W, hd, h => by
    unfold Direct at hd
    unfold AlikeAt at h
    unfold Attr.process
    exact h.process hd.2.1 hd.2.2 m
  | .complex i subs ps ds, V, W, hd, h => by
    obtain ⟨hw, hi⟩ := h.whole
    unfold Direct at hd
    have ih : ∀ D D' loc is, AlikeIn subs D D' →
        processSubs m subs loc (Val.toCont (.dict D)) .emptyCont is =
          processSubs m subs loc (Val.toCont (.dict D')) .emptyCont is :=
      fun D D' loc is ha => AlikeIn.subs m subs D D' loc .emptyCont is hd.2.2.1 ha
    unfold Attr.process
    rcases process_whole m hd.2.1 hw (fun _ => hi) with ⟨e, h1, h2⟩ | ⟨v, w, is, h1, h2, hvw, hit, hp⟩
    · rw [h1, h2]
    · rw [h1, h2]
      dsimp only
      rcases hp with rfl | hp
      · rfl
      · rw [hp, hvw.isNone]
        by_cases hn : w.isNone = true
        · have : v = w := by
            have hx := hvw.isNone.trans hn
            cases v <;> simp [Val.isNone] at hx
            cases w <;> simp [Val.isNone] at hn
            rename_i p q
            cases p <;> simp at hx
            cases q <;> simp at hn
            rfl
          rw [this]
        · simp only [Bool.not_true, Bool.false_or, if_neg hn]
          by_cases hmul : i.multi = true
          · simp only [if_pos hmul]
            by_cases hl : ∃ us vs, v = .list us ∧ w = .list vs
            · obtain ⟨us, vs, rfl, rfl⟩ := hl
              dsimp only
              rw [complexItems_item (fun loc item is => processSubs m subs loc item .emptyCont is)
                (fun D D' loc is ha => ih D D' loc is ha) us vs 0 is (hit hmul us vs rfl rfl)]
            · rcases hvw with (rfl | ⟨D, D', rfl, rfl, -⟩ | ⟨us', vs, e1, e2⟩) | ⟨xs, ys, e1, e2, -⟩
              · rfl
              · rfl
              · exact absurd ⟨_, _, e1, e2⟩ hl
              · exact absurd ⟨_, _, e1, e2⟩ hl
          · simp only [if_neg hmul]
            have hi : Item subs v w := by
              rcases hvw with h | ⟨xs, ys, rfl, rfl, -⟩
              · exact h
              · exact .inr (.inr ⟨xs, ys, rfl, rfl⟩)
            rcases hi.toCont with e | ⟨D, D', e1, e2, ha⟩
            · rw [e]
            · rw [e1, e2, ih D D' [] is ha]
/-- Objects that hold the same for the sub-attributes are processed alike. -/
theorem AlikeIn.subs (m : Mode) : ∀ (as : List Attr) (D D' : List (Str × Val)) (loc : Loc) (parsed : Val) (is : Issues),
    DirectAll m as → AlikeIn as D D' →
    processSubs m as loc (Val.toCont (.dict D)) parsed is = processSubs m as loc (Val.toCont (.dict D')) parsed is
  | [], _, _, _, _, _, _, _ => by unfold processSubs; rfl
  | a :: as, D, D', loc, parsed, is, hd, h => by
    unfold DirectAll at hd
    unfold AlikeIn at h
    obtain ⟨c1, c2, hl, hr⟩ := h
    unfold processSubs
    rw [getItem_look c1 hd.1.sub, getItem_look c2 hd.1.sub]
    cases l1 : look a.rep D with
    | none =>
      cases l2 : look a.rep D' with
      | none => exact AlikeIn.subs m as D D' loc parsed is hd.2 hr
      | some y => rw [l1, l2] at hl; exact hl.elim
    | some x =>
      cases l2 : look a.rep D' with
      | none => rw [l1, l2] at hl; exact hl.elim
      | some y =>
        rw [l1, l2] at hl
        dsimp only at hl ⊢
        have e := AlikeAt.process m a x y hd.1 hl
        have hm := hl.missing
        by_cases hx : convVal x = .missing
        · rw [hx, hm.mp hx]
          exact AlikeIn.subs m as D D' loc parsed is hd.2 hr
        · have hy : convVal y ≠ .missing := fun h => hx (hm.mpr h)
          refine Eq.trans (b := after m a parsed (fun parsed' is1 => processSubs m as loc (Val.toCont (.dict D)) parsed' (is.merge is1 (loc ++ [.name a.rep.attr]))) (convVal x)) ?_
            (Eq.trans (b := after m a parsed (fun parsed' is1 => processSubs m as loc (Val.toCont (.dict D')) parsed' (is.merge is1 (loc ++ [.name a.rep.attr]))) (convVal y)) ?_ (Eq.symm ?_))
          · generalize convVal x = z at hx
            cases z <;> first | rfl | exact absurd rfl hx
          · unfold after
            rw [e]
            cases a.process m (convVal y) with
            | error e => rfl
            | ok p =>
              obtain ⟨v, is1⟩ := p
              dsimp only
              cases parsed.setItem a.rep v with
              | error e => rfl
              | ok parsed' => exact AlikeIn.subs m as D D' loc parsed' _ hd.2 hr
          · generalize convVal y = z at hy
            cases z <;> first | rfl | exact absurd rfl hy
end

theorem AlikeIn.top (m : Mode) : ∀ (as : List Attr) (D D' : List (Str × Val)) (parsed : Val) (is : Issues),
    DirectAll m as → AlikeIn as D D' →
    processTop m as (Val.toCont (.dict D)) parsed is = processTop m as (Val.toCont (.dict D')) parsed is
  | [], _, _, _, _, _, _ => rfl
  | a :: as, D, D', parsed, is, hd, h => by
    unfold DirectAll at hd
    unfold AlikeIn at h
    obtain ⟨c1, c2, hl, hr⟩ := h
    unfold processTop
    rw [getItem_look c1 hd.1.sub, getItem_look c2 hd.1.sub]
    cases l1 : look a.rep D with
    | none =>
      cases l2 : look a.rep D' with
      | none => exact AlikeIn.top m as D D' parsed is hd.2 hr
      | some y => rw [l1, l2] at hl; exact hl.elim
    | some x =>
      cases l2 : look a.rep D' with
      | none => rw [l1, l2] at hl; exact hl.elim
      | some y =>
        rw [l1, l2] at hl
        dsimp only at hl ⊢
        have e := AlikeAt.process m a x y hd.1 hl
        have hm := hl.missing
        by_cases hx : convVal x = .missing
        · rw [hx, hm.mp hx]
          exact AlikeIn.top m as D D' parsed is hd.2 hr
        · have hy : convVal y ≠ .missing := fun h => hx (hm.mpr h)
          refine Eq.trans (b := after m a parsed (fun parsed' is1 => processTop m as (Val.toCont (.dict D)) parsed' (is.merge is1 a.topLoc)) (convVal x)) ?_
            (Eq.trans (b := after m a parsed (fun parsed' is1 => processTop m as (Val.toCont (.dict D')) parsed' (is.merge is1 a.topLoc)) (convVal y)) ?_ (Eq.symm ?_))
          · generalize convVal x = z at hx
            cases z <;> first | rfl | exact absurd rfl hx
          · unfold after
            rw [e]
            cases a.process m (convVal y) with
            | error e => rfl
            | ok p =>
              obtain ⟨v, is1⟩ := p
              dsimp only
              cases parsed.setItem a.rep v with
              | error e => rfl
              | ok parsed' => exact AlikeIn.top m as D D' parsed' _ hd.2 hr
          · generalize convVal y = z at hy
            cases z <;> first | rfl | exact absurd rfl hy

/-- Bodies that hold the same for the declared attributes are processed alike. -/
theorem AlikeIn.process {m : Mode} {s : Schema} {D D' : List (Str × Val)} (hd : DirectAll m s.attrs.top)
    (h : AlikeIn s.attrs.top D D') : s.process m (.dict D) = s.process m (.dict D') := by
  unfold Schema.process
  rw [AlikeIn.top m s.attrs.top D D' .emptyCont {} hd h]
  rfl

/-! ### Spelling and order -/

theorem Respelt.blunt {V W : Val} (h : Respelt V W) : Blunt V W := by
  induction h with
  | same v => exact .same v
  | list xs ys len items ih => exact .lists xs ys len ih
  | obj D D' => exact .objects D D'

theorem Respelt.dict {D : List (Str × Val)} {W : Val} (h : Respelt (.dict D) W) :
    ∃ D', W = .dict D' ∧ (found [] D = none → found [] D' = none) ∧ (∀ n, found n D = none ↔ found n D' = none) ∧
      ∀ n x y, found n D = some x → found n D' = some y → Respelt x y := by
  cases h with
  | same => exact ⟨D, rfl, id, fun _ => Iff.rfl, fun n x y h1 h2 => by rw [h1] at h2; cases h2; exact .same x⟩
  | obj _ D' named names entries => exact ⟨D', rfl, (names []).mp, names, entries⟩

mutual
theorem Respelt.alikeAt (m : Mode) : ∀ (a : Attr) (V W : Val), Direct m a → Respelt V W → AlikeAt a V W
  | .simple i, V, W, _, h => by unfold AlikeAt; exact h.blunt
  | .complex i subs ps ds, V, W, hd, h => by
    unfold Direct at hd
    have ih : ∀ (D D' : List (Str × Val)), found [] D = none → (∀ n, found n D = none ↔ found n D' = none) →
        (∀ n x y, found n D = some x → found n D' = some y → Respelt x y) → AlikeIn subs D D' :=
      fun D D' h1 h2 h3 => Respelt.alikeIn m subs D D' hd.2.2.1 hd.2.2.2 h1 h2 h3
    unfold AlikeAt
    cases h with
    | same => exact .inl rfl
    | list xs ys len items =>
      refine .inr (.inr ⟨xs, ys, rfl, rfl, len, fun i x y hx hy => ?_⟩)
      cases items i x y hx hy with
      | same => exact .inl rfl
      | list us vs => exact .inr (.inr ⟨us, vs, rfl, rfl⟩)
      | obj D D' h1 h2 h3 => exact .inr (.inl ⟨D, D', rfl, rfl, ih D D' h1 h2 h3⟩)
    | obj D D' h1 h2 h3 => exact .inr (.inl ⟨D, D', rfl, rfl, ih D D' h1 h2 h3⟩)
theorem Respelt.alikeIn (m : Mode) : ∀ (as : List Attr) (D D' : List (Str × Val)), DirectAll m as →
    (∀ a ∈ as, a.rep.schema = []) → found [] D = none → (∀ n, found n D = none ↔ found n D' = none) →
    (∀ n x y, found n D = some x → found n D' = some y → Respelt x y) → AlikeIn as D D'
  | [], _, _, _, _, _, _, _ => by unfold AlikeIn; trivial
  | a :: as, D, D', hd, hs, h1, h2, h3 => by
    unfold DirectAll at hd
    have hsa := hs a List.mem_cons_self
    have l1 : look a.rep D = found a.rep.attr D := by unfold look; rw [hsa, h1]
    have l2 : look a.rep D' = found a.rep.attr D' := by unfold look; rw [hsa, (h2 []).mp h1]
    unfold AlikeIn
    refine ⟨.inl (by rw [hsa]; exact h1), .inl (by rw [hsa]; exact (h2 []).mp h1), ?_,
      Respelt.alikeIn m as D D' hd.2 (fun b hb => hs b (List.mem_cons_of_mem _ hb)) h1 h2 h3⟩
    rw [l1, l2]
    cases e1 : found a.rep.attr D with
    | none => rw [(h2 _).mp e1]; trivial
    | some x =>
      cases e2 : found a.rep.attr D' with
      | none => rw [(h2 _).mpr e2] at e1; cases e1
      | some y => exact Respelt.alikeAt m a x y hd.1 (h3 _ x y e1 e2)
end

theorem Respelt.top {m : Mode} {D D' : List (Str × Val)} (h : Respelt (.dict D) (.dict D')) : ∀ (as : List Attr),
    DirectAll m as → (∀ a ∈ as, Clear a.rep D) → AlikeIn as D D' := by
  obtain ⟨D'', e, -, names, entries⟩ := h.dict
  cases e
  intro as
  induction as with
  | nil => intro _ _; unfold AlikeIn; trivial
  | cons a as ih =>
    intro hd hc
    unfold DirectAll at hd
    have c1 := hc a List.mem_cons_self
    have both : ∀ E E' : List (Str × Val), (∀ n, found n E = none ↔ found n E' = none) →
        (∀ n x y, found n E = some x → found n E' = some y → Respelt x y) →
        match found a.rep.attr E, found a.rep.attr E' with
        | none, none => True
        | some x, some y => AlikeAt a x y
        | _, _ => False := by
      intro E E' h2 h3
      cases e1 : found a.rep.attr E with
      | none => rw [(h2 _).mp e1]; trivial
      | some x =>
        cases e2 : found a.rep.attr E' with
        | none => rw [(h2 _).mpr e2] at e1; cases e1
        | some y => exact Respelt.alikeAt m a x y hd.1 (h3 _ x y e1 e2)
    unfold AlikeIn
    refine ⟨c1, ?_, ?_, ih hd.2 fun b hb => hc b (List.mem_cons_of_mem _ hb)⟩
    · rcases c1 with c | ⟨E, c, hE⟩
      · exact .inl ((names _).mp c)
      · cases e2 : found a.rep.schema D' with
        | none => exact .inl e2
        | some y =>
          obtain ⟨E', rfl, hn, -⟩ := (entries _ _ y c e2).dict
          exact .inr ⟨E', e2, hn hE⟩
    · rcases c1 with c | ⟨E, c, hE⟩
      · have l1 : look a.rep D = found a.rep.attr D := by unfold look; rw [c]
        have l2 : look a.rep D' = found a.rep.attr D' := by unfold look; rw [(names _).mp c]
        rw [l1, l2]
        exact both D D' names entries
      · cases e2 : found a.rep.schema D' with
        | none => rw [(names _).mpr e2] at c; cases c
        | some y =>
          obtain ⟨E', rfl, -, h2, h3⟩ := (entries _ _ y c e2).dict
          have l1 : look a.rep D = found a.rep.attr E := by unfold look; rw [c]
          have l2 : look a.rep D' = found a.rep.attr E' := by unfold look; rw [e2]
          rw [l1, l2]
          exact both E E' h2 h3

/-! ### Entries -/

theorem found_some {n : Str} {D : List (Str × Val)} {v : Val} (h : found n D = some v) :
    ∃ k, (k, v) ∈ D ∧ lower k = lower n := by
  unfold found at h
  cases hk : ((D.map (·.1)).filter (fun k => lower k = lower n)).getLast? with
  | none => rw [hk] at h; cases h
  | some k =>
    rw [hk] at h
    have := List.mem_filter.mp (List.mem_of_getLast? hk)
    exact ⟨k, mem_of_aget h, of_decide_eq_true this.2⟩

theorem found_none {n : Str} {D : List (Str × Val)} : found n D = none ↔ ∀ k ∈ D.map (·.1), lower k ≠ lower n := by
  constructor
  · intro h k hk e
    have hm : k ∈ (D.map (·.1)).filter (fun k => lower k = lower n) := List.mem_filter.mpr ⟨hk, decide_eq_true e⟩
    unfold found at h
    cases hl : ((D.map (·.1)).filter (fun k => lower k = lower n)).getLast? with
    | none => rw [List.getLast?_eq_none_iff] at hl; rw [hl] at hm; cases hm
    | some k' =>
      rw [hl] at h
      have : k' ∈ D.map (·.1) := (List.mem_filter.mp (List.mem_of_getLast? hl)).1
      have := aget_isSome_iff.mpr this
      rw [show aget k' D = none from h] at this
      cases this
  · intro h
    cases e : found n D with
    | none => rfl
    | some v =>
      obtain ⟨k, hk, hl⟩ := found_some e
      exact absurd hl (h k (List.mem_map.mpr ⟨_, hk, rfl⟩))

theorem found_mem {n k : Str} {D : List (Str × Val)} {v : Val} (hn : (D.map (fun p => lower p.1)).Nodup) (h : (k, v) ∈ D)
    (e : lower k = lower n) : found n D = some v := by
  cases hf : found n D with
  | none => exact absurd e (found_none.mp hf k (List.mem_map.mpr ⟨_, h, rfl⟩))
  | some w =>
    obtain ⟨k', hk', e'⟩ := found_some hf
    have := eq_of_map_nodup (f := fun p : Str × Val => lower p.1) hn hk' h (e'.trans e.symm)
    rw [(Prod.mk.inj this).2]

/-- Objects whose entries correspond. -/
theorem respelt_of_entries {D D' : List (Str × Val)}
    (hn' : (D'.map (fun p => lower p.1)).Nodup) (hne : ∀ k ∈ D.map (·.1), lower k ≠ lower [])
    (h : ∀ k v, (k, v) ∈ D → ∃ k' v', (k', v') ∈ D' ∧ lower k' = lower k ∧ Respelt v v')
    (h' : ∀ k v, (k, v) ∈ D' → ∃ k' ∈ D.map (·.1), lower k' = lower k) : Respelt (.dict D) (.dict D') := by
  refine .obj D D' (found_none.mpr hne) (fun n => ?_) (fun n x y hx hy => ?_)
  · rw [found_none, found_none]
    constructor
    · intro g k hk e
      obtain ⟨⟨k1, v1⟩, h1, rfl⟩ := List.mem_map.mp hk
      obtain ⟨k2, h2, e2⟩ := h' k1 v1 h1
      exact g k2 h2 (e2.trans e)
    · intro g k hk e
      obtain ⟨⟨k1, v1⟩, h1, rfl⟩ := List.mem_map.mp hk
      obtain ⟨k2, v2, h2, e2, -⟩ := h k1 v1 h1
      exact g k2 (List.mem_map.mpr ⟨_, h2, rfl⟩) (e2.trans e)
  · obtain ⟨k, hk, e⟩ := found_some hx
    obtain ⟨k2, v2, h2, e2, r⟩ := h k x hk
    rw [found_mem hn' h2 (e2.trans e)] at hy
    cases hy
    exact r

/-! ### Undeclared attributes -/

theorem aget_insert {k n : Str} (v : Val) (h : k ≠ n) : ∀ (A B : List (Str × Val)),
    aget n (A ++ (k, v) :: B) = aget n (A ++ B)
  | [], B => by rw [List.nil_append, aget_cons, if_neg h]; rfl
  | p :: A, B => by
    obtain ⟨k', v'⟩ := p
    have := aget_insert v h A B
    simp only [List.cons_append, aget_cons, this]

theorem found_insert {k n : Str} (v : Val) (h : lower k ≠ lower n) (A B : List (Str × Val)) :
    found n (A ++ (k, v) :: B) = found n (A ++ B) := by
  have e : ((A ++ (k, v) :: B).map (·.1)).filter (fun k => lower k = lower n) =
      ((A ++ B).map (·.1)).filter (fun k => lower k = lower n) := by
    simp [h]
  unfold found
  rw [e]
  cases hl : (((A ++ B).map (·.1)).filter (fun k => lower k = lower n)).getLast? with
  | none => rfl
  | some k' =>
    have := of_decide_eq_true (List.mem_filter.mp (List.mem_of_getLast? hl)).2
    exact aget_insert v (fun e => h (by rw [e]; exact this)) A B

theorem AlikeAt.refl (a : Attr) (V : Val) : AlikeAt a V V := by
  cases a <;> unfold AlikeAt
  · exact .same V
  · exact .inl rfl

theorem alikeIn_of_look {D D' : List (Str × Val)} : ∀ (as : List Attr),
    (∀ a ∈ as, Clear a.rep D ∧ Clear a.rep D' ∧ look a.rep D = look a.rep D') → AlikeIn as D D'
  | [], _ => by unfold AlikeIn; trivial
  | a :: as, h => by
    obtain ⟨h1, h2, h3⟩ := h a List.mem_cons_self
    unfold AlikeIn
    refine ⟨h1, h2, ?_, alikeIn_of_look as fun b hb => h b (List.mem_cons_of_mem _ hb)⟩
    rw [h3]
    cases look a.rep D' with
    | none => trivial
    | some x => exact AlikeAt.refl a x

end Scim.Declared
