import Verif.Lemmas.ContainerHeapFrame

/-!
# Objects in memory and the values they stand for
-/

namespace Scim.Shared
variable [PyEnv]

/-- Goals about lists of cells without repetition. -/
macro "foot" : tactic => `(tactic|
  (simp only [List.nodup_append, List.mem_append, List.nodup_cons, List.mem_cons, List.cons_append,
    List.nil_append] at *; grind))

/-! ## Frame -/

mutual
theorem Rep.frame {m m' : Mem} : ∀ {V : Val} {v : HVal} {f : List Nat}, Rep m v V f →
    (∀ x ∈ f, m'[x]? = m[x]?) → Rep m' v V f
  | .list Vs, v, f, h, hf => by
    obtain ⟨r, vs, g, e, hr, ha, ef⟩ := h
    subst ef
    exact ⟨r, vs, g, e, (hf r List.mem_cons_self).trans hr,
      RepAll.frame ha fun x hx => hf x (List.mem_cons_of_mem _ hx), rfl⟩
  | .dict kvs, v, f, h, hf => by
    obtain ⟨r, d, g, e, hr, ha, ef⟩ := h
    subst ef
    exact ⟨r, d, g, e, (hf r List.mem_cons_self).trans hr,
      RepPairs.frame ha fun x hx => hf x (List.mem_cons_of_mem _ hx), rfl⟩
  | .cont data lc, v, f, h, hf => by
    obtain ⟨r, d, g, e, hr, ha, ef⟩ := h
    subst ef
    exact ⟨r, d, g, e, (hf r List.mem_cons_self).trans hr,
      RepPairs.frame ha fun x hx => hf x (List.mem_cons_of_mem _ hx), rfl⟩
  | .prim p, v, f, h, _ => h
  | .missing, v, f, h, _ => h
  | .invalid, v, f, h, _ => h
  | .dt d, v, f, h, _ => h
  | .obj o, v, f, h, _ => h
theorem RepAll.frame {m m' : Mem} : ∀ {Vs : List Val} {vs : List HVal} {f : List Nat}, RepAll m vs Vs f →
    (∀ x ∈ f, m'[x]? = m[x]?) → RepAll m' vs Vs f
  | [], vs, f, h, _ => h
  | V :: Vs, vs, f, h, hf => by
    obtain ⟨w, ws, f1, f2, e, hw, hws, ef⟩ := h
    subst ef
    exact ⟨w, ws, f1, f2, e, hw.frame fun x hx => hf x (List.mem_append_left _ hx),
      hws.frame fun x hx => hf x (List.mem_append_right _ hx), rfl⟩
theorem RepPairs.frame {m m' : Mem} : ∀ {D : List (Str × Val)} {d : List (Str × HVal)} {f : List Nat},
    RepPairs m d D f → (∀ x ∈ f, m'[x]? = m[x]?) → RepPairs m' d D f
  | [], vs, f, h, _ => h
  | (k, V) :: D, vs, f, h, hf => by
    obtain ⟨w, ws, f1, f2, e, hw, hws, ef⟩ := h
    subst ef
    exact ⟨w, ws, f1, f2, e, hw.frame fun x hx => hf x (List.mem_append_left _ hx),
      hws.frame fun x hx => hf x (List.mem_append_right _ hx), rfl⟩
end

theorem lt_of_cell {m : Mem} {r : Nat} {c : Cell} (h : m[r]? = some c) : r < m.length := by
  rcases Nat.lt_or_ge r m.length with h' | h'
  · exact h'
  · rw [List.getElem?_eq_none h'] at h; cases h

mutual
theorem Rep.bound {m : Mem} : ∀ {V : Val} {v : HVal} {f : List Nat}, Rep m v V f → ∀ x ∈ f, x < m.length
  | .list Vs, v, f, h, x, hx => by
    obtain ⟨r, vs, g, e, hr, ha, ef⟩ := h
    subst ef
    rcases List.mem_cons.mp hx with e | hx
    · rw [e]; exact lt_of_cell hr
    · exact RepAll.bound ha x hx
  | .dict kvs, v, f, h, x, hx => by
    obtain ⟨r, d, g, e, hr, ha, ef⟩ := h
    subst ef
    rcases List.mem_cons.mp hx with e | hx
    · rw [e]; exact lt_of_cell hr
    · exact RepPairs.bound ha x hx
  | .cont data lc, v, f, h, x, hx => by
    obtain ⟨r, d, g, e, hr, ha, ef⟩ := h
    subst ef
    rcases List.mem_cons.mp hx with e | hx
    · rw [e]; exact lt_of_cell hr
    · exact RepPairs.bound ha x hx
  | .prim p, v, f, h, x, hx => by rw [h.2] at hx; exact absurd hx List.not_mem_nil
  | .missing, v, f, h, x, hx => by rw [h.2] at hx; exact absurd hx List.not_mem_nil
  | .invalid, v, f, h, x, hx => by rw [h.2] at hx; exact absurd hx List.not_mem_nil
  | .dt d, v, f, h, x, hx => by rw [h.2] at hx; exact absurd hx List.not_mem_nil
  | .obj o, v, f, h, x, hx => by rw [h.2] at hx; exact absurd hx List.not_mem_nil
theorem RepAll.bound {m : Mem} : ∀ {Vs : List Val} {vs : List HVal} {f : List Nat}, RepAll m vs Vs f →
    ∀ x ∈ f, x < m.length
  | [], vs, f, h, x, hx => by rw [h.2] at hx; exact absurd hx List.not_mem_nil
  | V :: Vs, vs, f, h, x, hx => by
    obtain ⟨w, ws, f1, f2, e, hw, hws, ef⟩ := h
    subst ef
    rcases List.mem_append.mp hx with hx | hx
    · exact hw.bound x hx
    · exact hws.bound x hx
theorem RepPairs.bound {m : Mem} : ∀ {D : List (Str × Val)} {d : List (Str × HVal)} {f : List Nat},
    RepPairs m d D f → ∀ x ∈ f, x < m.length
  | [], vs, f, h, x, hx => by rw [h.2] at hx; exact absurd hx List.not_mem_nil
  | (k, V) :: D, vs, f, h, x, hx => by
    obtain ⟨w, ws, f1, f2, e, hw, hws, ef⟩ := h
    subst ef
    rcases List.mem_append.mp hx with hx | hx
    · exact hw.bound x hx
    · exact hws.bound x hx
end

theorem prefix_cell {m m' : Mem} (h : m <+: m') {x : Nat} (hx : x < m.length) : m'[x]? = m[x]? := by
  obtain ⟨t, ht⟩ := h
  rw [← ht, List.getElem?_append_left hx]

theorem Rep.later {m m' : Mem} {V : Val} {v : HVal} {f : List Nat} (h : Rep m v V f) (hp : m <+: m') :
    Rep m' v V f := h.frame fun x hx => prefix_cell hp (h.bound x hx)

theorem RepAll.later {m m' : Mem} {V : List Val} {v : List HVal} {f : List Nat} (h : RepAll m v V f)
    (hp : m <+: m') : RepAll m' v V f := h.frame fun x hx => prefix_cell hp (h.bound x hx)

theorem RepPairs.later {m m' : Mem} {V : List (Str × Val)} {v : List (Str × HVal)} {f : List Nat}
    (h : RepPairs m v V f) (hp : m <+: m') : RepPairs m' v V f :=
  h.frame fun x hx => prefix_cell hp (h.bound x hx)

/-! ## Dictionaries -/

theorem RepPairs.keys {m : Mem} : ∀ {D : List (Str × Val)} {d : List (Str × HVal)} {f : List Nat},
    RepPairs m d D f → d.map (·.1) = D.map (·.1)
  | [], d, f, h => by rw [h.1]; rfl
  | (k, V) :: D, d, f, h => by
    obtain ⟨w, ws, f1, f2, e, hw, hws, ef⟩ := h
    rw [e, List.map_cons, List.map_cons, hws.keys]

theorem RepPairs.none {m : Mem} {k : Str} : ∀ {D : List (Str × Val)} {d : List (Str × HVal)} {f : List Nat},
    RepPairs m d D f → aget k D = none → aget k d = none
  | [], d, f, h, _ => by rw [h.1]; rfl
  | (k', V) :: D, d, f, h, hn => by
    obtain ⟨w, ws, f1, f2, e, hw, hws, ef⟩ := h
    rw [e]
    unfold aget at hn ⊢
    split
    · rename_i hk; rw [if_pos hk] at hn; cases hn
    · rename_i hk; rw [if_neg hk] at hn; exact hws.none hn

/-- The value under a key, and what happens when that value changes in place. -/
theorem RepPairs.look {m : Mem} {k : Str} {V : Val} : ∀ {D : List (Str × Val)} {d : List (Str × HVal)}
    {f : List Nat}, RepPairs m d D f → aget k D = some V →
    ∃ v pre f0 post, aget k d = some v ∧ Rep m v V f0 ∧ f = pre ++ f0 ++ post ∧
      ∀ m' V' f', (∀ x ∈ pre ++ post, m'[x]? = m[x]?) → Rep m' v V' f' →
        RepPairs m' d (aset k V' D) (pre ++ f' ++ post)
  | [], d, f, h, hs => by cases hs
  | (k', W) :: D, d, f, h, hs => by
    obtain ⟨w, ws, f1, f2, e, hw, hws, ef⟩ := h
    unfold aget at hs
    by_cases hk : k' = k
    · rw [if_pos hk] at hs
      cases hs
      refine ⟨w, [], f1, f2, by rw [e]; exact if_pos hk, hw, ef, fun m' V' f' hm hr => ?_⟩
      unfold aset
      rw [if_pos hk]
      exact ⟨w, ws, f', f2, e, hr, hws.frame fun x hx => hm x hx, rfl⟩
    · rw [if_neg hk] at hs
      obtain ⟨v, pre, f0, post, hv, hr, e2, up⟩ := hws.look hs
      refine ⟨v, f1 ++ pre, f0, post, by rw [e]; exact (if_neg hk).trans hv, hr, by rw [ef, e2]; simp, ?_⟩
      intro m' V' f' hm hr'
      unfold aset
      rw [if_neg hk]
      refine ⟨w, ws, f1, pre ++ f' ++ post, e, hw.frame fun x hx => hm x ?_,
        up m' V' f' (fun x hx => hm x ?_) hr', by simp⟩
      · simp [hx]
      · simp only [List.mem_append] at hx ⊢
        rcases hx with h | h
        · exact .inl (.inr h)
        · exact .inr h

theorem RepPairs.set {m : Mem} {k : Str} {v : HVal} {V : Val} {g : List Nat} (hv : Rep m v V g) :
    ∀ {D : List (Str × Val)} {d : List (Str × HVal)} {f : List Nat}, RepPairs m d D f →
    ∃ h, RepPairs m (aset k v d) (aset k V D) h ∧ ((f ++ g).Nodup → h.Nodup) ∧ ∀ x ∈ h, x ∈ f ∨ x ∈ g
  | [], d, f, h => by
    rw [h.1, h.2]
    exact ⟨g, ⟨v, [], g, [], rfl, hv, ⟨rfl, rfl⟩, (List.append_nil _).symm⟩, fun h => h, fun x hx => .inr hx⟩
  | (k', W) :: D, d, f, h => by
    obtain ⟨w, ws, f1, f2, e, hw, hws, ef⟩ := h
    subst ef e
    unfold aset
    by_cases hk : k' = k
    · rw [if_pos hk, if_pos hk]
      refine ⟨g ++ f2, ⟨v, ws, g, f2, rfl, hv, hws, rfl⟩, ?_, ?_⟩
      · intro hn; clear hw hws hv; foot
      · intro x hx; clear hw hws hv; foot
    · rw [if_neg hk, if_neg hk]
      obtain ⟨h, hr, hn, hs⟩ := RepPairs.set (k := k) hv hws
      refine ⟨f1 ++ h, ⟨w, _, f1, h, rfl, hw, hr, rfl⟩, ?_, ?_⟩
      · intro hn'; clear hw hws hv hr; foot
      · intro x hx; clear hw hws hv hr; foot

theorem RepPairs.del {m : Mem} {k : Str} : ∀ {D : List (Str × Val)} {d : List (Str × HVal)} {f : List Nat},
    RepPairs m d D f → ∃ h, RepPairs m (adel k d) (adel k D) h ∧ h.Sublist f
  | [], d, f, h => by
    rw [h.1, h.2]
    exact ⟨[], ⟨rfl, rfl⟩, List.Sublist.refl _⟩
  | (k', W) :: D, d, f, h => by
    obtain ⟨w, ws, f1, f2, e, hw, hws, ef⟩ := h
    subst ef e
    unfold adel
    by_cases hk : k' = k
    · rw [if_pos hk, if_pos hk]
      exact ⟨f2, hws, List.sublist_append_right _ _⟩
    · rw [if_neg hk, if_neg hk]
      obtain ⟨h, hr, hs⟩ := hws.del (k := k)
      exact ⟨f1 ++ h, ⟨w, _, f1, h, rfl, hw, hr, rfl⟩, List.Sublist.append (List.Sublist.refl _) hs⟩

/-! ## Loops over items and entries -/

/-- The result stands for the expected value; its cells are old ones (unless `C`) or new. -/
def Agrees (m : Mem) (f : List Nat) (C : Prop) (out : Mem × PyM HVal) (res : PyM Val) : Prop :=
  match res with
  | .ok V => ∃ v h, out.2 = .ok v ∧ Rep out.1 v V h ∧ h.Nodup ∧ ∀ x ∈ h, (x ∈ f ∧ ¬ C) ∨ m.length ≤ x
  | .error e => out.2 = .error e

/-- The same for a list of results. -/
def AgreesAll (m : Mem) (f : List Nat) (C : Prop) (out : Mem × PyM (List HVal)) (res : PyM (List Val)) : Prop :=
  match res with
  | .ok V => ∃ v h, out.2 = .ok v ∧ RepAll out.1 v V h ∧ h.Nodup ∧ ∀ x ∈ h, (x ∈ f ∧ ¬ C) ∨ m.length ≤ x
  | .error e => out.2 = .error e

/-- The same for a list of entries. -/
def AgreesPairs (m : Mem) (f : List Nat) (C : Prop) (out : Mem × PyM (List (Str × HVal)))
    (D : List (Str × Val)) : Prop :=
  ∃ d h, out.2 = .ok d ∧ RepPairs out.1 d D h ∧ h.Nodup ∧ ∀ x ∈ h, (x ∈ f ∧ ¬ C) ∨ m.length ≤ x

/-- Apply to each, stopping at the first exception. -/
def mapE (G : Val → PyM Val) : List Val → PyM (List Val)
  | [] => .ok []
  | V :: Vs => match G V with
    | .error e => .error e
    | .ok W => match mapE G Vs with
      | .error e => .error e
      | .ok Ws => .ok (W :: Ws)

theorem mapE_ok (G : Val → Val) : ∀ Vs : List Val, mapE (fun V => .ok (G V)) Vs = .ok (Vs.map G)
  | [] => rfl
  | V :: Vs => by unfold mapE; rw [mapE_ok G Vs]; rfl

theorem andThen_ok {α β : Type} {out : Mem × PyM α} {x : α} (h : out.2 = .ok x)
    (k : Mem → α → Mem × PyM β) : andThen out k = k out.1 x := by
  unfold andThen; rw [h]

theorem andThen_error {α β : Type} {out : Mem × PyM α} {e : PyErr} (h : out.2 = .error e)
    (k : Mem → α → Mem × PyM β) : andThen out k = (out.1, .error e) := by
  unfold andThen; rw [h]

theorem mapM_repAll {g : Mem → HVal → Mem × PyM HVal} {G : Val → PyM Val} {P C : Val → Prop}
    (hp : ∀ m x, m <+: (g m x).1)
    (hg : ∀ m v V f, Rep m v V f → f.Nodup → P V → Agrees m f (C V) (g m v) (G V)) :
    ∀ (Vs : List Val) (m : Mem) (vs : List HVal) (f : List Nat), RepAll m vs Vs f → f.Nodup →
      (∀ V ∈ Vs, P V) → AgreesAll m f (∀ V ∈ Vs, C V) (mapM g m vs) (mapE G Vs)
  | [], m, vs, f, h, _, _ => by
    rw [h.1]
    exact ⟨[], [], rfl, ⟨rfl, rfl⟩, List.nodup_nil, fun x hx => absurd hx List.not_mem_nil⟩
  | V :: Vs, m, vs, f, h, hn, hP => by
    obtain ⟨w, ws, f1, f2, e, hw, hws, ef⟩ := h
    subst ef e
    have n1 : f1.Nodup := (List.nodup_append.mp hn).1
    have n2 : f2.Nodup := (List.nodup_append.mp hn).2.1
    have a1 := hg m w V f1 hw n1 (hP V List.mem_cons_self)
    unfold mapE mapM
    cases hG : G V with
    | error e => rw [hG] at a1; rw [andThen_error a1]; rfl
    | ok W =>
      rw [hG] at a1
      obtain ⟨y, h1, e1, r1, nd1, s1⟩ := a1
      rw [andThen_ok e1]
      have p1 := hp m w
      generalize hm1 : (g m w).1 = m1 at r1 p1 ⊢
      have a2 := mapM_repAll hp hg Vs m1 ws f2 (hws.later p1) n2 fun V h => hP V (List.mem_cons_of_mem _ h)
      dsimp only
      cases hE : mapE G Vs with
      | error e => rw [hE] at a2; rw [andThen_error a2]; rfl
      | ok Ws =>
        rw [hE] at a2
        obtain ⟨ys, h2, e2, r2, nd2, s2⟩ := a2
        rw [andThen_ok e2]
        have p2 := mapM_prefix hp ws m1
        have b1 := r1.bound
        have c1 := hw.bound
        have c2 := hws.bound
        have l1 := p1.length_le
        refine ⟨y :: ys, h1 ++ h2, rfl, ⟨y, ys, h1, h2, rfl, r1.later p2, r2, rfl⟩, ?_, ?_⟩
        · clear r1 r2 hw hws p1 p2 hm1 e1 e2 hE hG hg hP hp; foot
        · intro x hx
          rcases List.mem_append.mp hx with hx | hx
          · rcases s1 x hx with ⟨i, j⟩ | i
            · exact .inl ⟨List.mem_append_left _ i, fun k => j (k V List.mem_cons_self)⟩
            · exact .inr i
          · rcases s2 x hx with ⟨i, j⟩ | i
            · exact .inl ⟨List.mem_append_right _ i, fun k => j fun V h => k V (List.mem_cons_of_mem _ h)⟩
            · exact .inr (Nat.le_trans l1 i)

theorem mapM_repPairs {g : Mem → HVal → Mem × PyM HVal} {G : Val → Val} {P C : Val → Prop}
    (hp : ∀ m x, m <+: (g m x).1)
    (hg : ∀ m v V f, Rep m v V f → f.Nodup → P V → Agrees m f (C V) (g m v) (.ok (G V))) :
    ∀ (D : List (Str × Val)) (m : Mem) (d : List (Str × HVal)) (f : List Nat), RepPairs m d D f → f.Nodup →
      (∀ p ∈ D, P p.2) → AgreesPairs m f (∀ p ∈ D, C p.2) (mapM (onEntry g) m d)
        (D.map fun p => (p.1, G p.2))
  | [], m, vs, f, h, _, _ => by
    rw [h.1]
    exact ⟨[], [], rfl, ⟨rfl, rfl⟩, List.nodup_nil, fun x hx => absurd hx List.not_mem_nil⟩
  | (k, V) :: D, m, vs, f, h, hn, hP => by
    obtain ⟨w, ws, f1, f2, e, hw, hws, ef⟩ := h
    subst ef e
    have n1 : f1.Nodup := (List.nodup_append.mp hn).1
    have n2 : f2.Nodup := (List.nodup_append.mp hn).2.1
    obtain ⟨y, h1, e1, r1, nd1, s1⟩ := hg m w V f1 hw n1 (hP (k, V) List.mem_cons_self)
    unfold mapM
    have e1' : onEntry g m (k, w) = ((g m w).1, .ok (k, y)) := by
      unfold onEntry; rw [andThen_ok e1]
    rw [e1', andThen_ok (x := (k, y)) rfl]
    have p1 := hp m w
    dsimp only
    generalize hm1 : (g m w).1 = m1 at r1 p1 ⊢
    obtain ⟨ys, h2, e2, r2, nd2, s2⟩ := mapM_repPairs hp hg D m1 ws f2 (hws.later p1) n2
      fun p h => hP p (List.mem_cons_of_mem _ h)
    rw [andThen_ok e2]
    have p2 := mapM_prefix (onEntry_prefix hp) ws m1
    have b1 := r1.bound
    have c1 := hw.bound
    have c2 := hws.bound
    have l1 := p1.length_le
    refine ⟨(k, y) :: ys, h1 ++ h2, rfl, ⟨y, ys, h1, h2, rfl, r1.later p2, r2, rfl⟩, ?_, ?_⟩
    · clear r1 r2 hw hws p1 p2 hm1 e1 e2 hg hP hp e1'; foot
    · intro x hx
      rcases List.mem_append.mp hx with hx | hx
      · rcases s1 x hx with ⟨i, j⟩ | i
        · exact .inl ⟨List.mem_append_left _ i, fun q => j (q (k, V) List.mem_cons_self)⟩
        · exact .inr i
      · rcases s2 x hx with ⟨i, j⟩ | i
        · exact .inl ⟨List.mem_append_right _ i, fun q => j fun p h => q p (List.mem_cons_of_mem _ h)⟩
        · exact .inr (Nat.le_trans l1 i)

/-! ## Construction -/

theorem convPairs_map : ∀ D : List (Str × Val), convPairs D = D.map fun p => (p.1, Scim.convVal p.2)
  | [] => by unfold convPairs; rfl
  | (k, V) :: D => by unfold convPairs; rw [convPairs_map D]; rfl

/-- Conversion of one item. -/
def convOne : Val → Val
  | .dict kvs => Val.toCont (.dict kvs)
  | v => v

theorem convItems_map : ∀ Vs : List Val, convItems Vs = Vs.map convOne
  | [] => by unfold convItems; rfl
  | V :: Vs => by
    rw [List.map_cons, ← convItems_map Vs]
    cases V <;> simp [convItems, convOne, Val.toCont]

theorem nest_le_all {V : Val} : ∀ {Vs : List Val}, V ∈ Vs → nest V ≤ nestAll Vs
  | [], h => absurd h List.not_mem_nil
  | W :: Vs, h => by
    unfold nestAll
    rcases List.mem_cons.mp h with e | e
    · rw [e]; exact Nat.le_max_left _ _
    · exact Nat.le_trans (nest_le_all e) (Nat.le_max_right _ _)

theorem nest_le_pairs {p : Str × Val} : ∀ {D : List (Str × Val)}, p ∈ D → nest p.2 ≤ nestPairs D
  | [], h => absurd h List.not_mem_nil
  | (k, W) :: D, h => by
    unfold nestPairs
    rcases List.mem_cons.mp h with e | e
    · rw [e]; exact Nat.le_max_left _ _
    · exact Nat.le_trans (nest_le_pairs e) (Nat.le_max_right _ _)

theorem tidyItems_iff {b : Bool} : ∀ {Vs : List Val}, tidyItems b Vs = true ↔
    ∀ V ∈ Vs, V.isList = false ∧ tidy b V = true
  | [] => by unfold tidyItems; exact ⟨fun _ _ h => absurd h List.not_mem_nil, fun _ => rfl⟩
  | V :: Vs => by
    unfold tidyItems
    rw [Bool.and_eq_true, Bool.and_eq_true, tidyItems_iff, List.forall_mem_cons]
    cases V.isList <;> simp

theorem tidyPairs_iff {b : Bool} : ∀ {D : List (Str × Val)}, tidyPairs b D = true ↔
    ∀ p ∈ D, tidy b p.2 = true
  | [] => by unfold tidyPairs; exact ⟨fun _ _ h => absurd h List.not_mem_nil, fun _ => rfl⟩
  | (k, V) :: D => by
    unfold tidyPairs
    rw [Bool.and_eq_true, tidyPairs_iff, List.forall_mem_cons]

theorem repPairs_lc {m : Mem} {D : List (Str × Val)} {d : List (Str × HVal)} {f : List Nat}
    (h : RepPairs m d D f) : lcOf (d.map (·.1)) = lcOf (D.map (·.1)) := by rw [h.keys]

/-- A value is handed on. -/
theorem Agrees.same {m : Mem} {v : HVal} {V : Val} {f : List Nat} {C : Prop} (h : Rep m v V f)
    (hn : f.Nodup) (hC : C → f = []) : Agrees m f C (m, .ok v) (.ok V) :=
  ⟨v, f, rfl, h, hn, fun x hx => .inl ⟨hx, fun c => by rw [hC c] at hx; exact absurd hx List.not_mem_nil⟩⟩

theorem push_last (m : Mem) (c : Cell) : (m ++ [c])[m.length]? = some c := by
  rw [List.getElem?_append_right (Nat.le_refl _), Nat.sub_self]; rfl

/-- A list of results as one result. -/
def asList : PyM (List Val) → PyM Val
  | .ok Vs => .ok (.list Vs)
  | .error e => .error e

/-- A new list of results. -/
theorem Agrees.newList {m : Mem} {f : List Nat} {C : Prop} {out : Mem × PyM (List HVal)}
    {res : PyM (List Val)} (h : AgreesAll m f C out res) (hp : m <+: out.1) {f' : List Nat}
    (hs : ∀ x ∈ f, x ∈ f') :
    Agrees m f' C (andThen out fun m1 xs => (m1 ++ [.list xs], .ok (.list m1.length)))
      (asList res) := by
  cases res with
  | error e => rw [andThen_error h]; rfl
  | ok Vs =>
    obtain ⟨vs, g, e, hr, hn, hf⟩ := h
    rw [andThen_ok e]
    have b := hr.bound
    refine ⟨_, out.1.length :: g, rfl, ⟨_, vs, g, rfl, push_last _ _, hr.later (List.prefix_append _ _), rfl⟩, ?_, ?_⟩
    · refine List.nodup_cons.mpr ⟨fun h => ?_, hn⟩
      exact absurd (b _ h) (Nat.lt_irrefl _)
    · intro x hx
      rcases List.mem_cons.mp hx with e | hx
      · rw [e]; exact .inr hp.length_le
      · rcases hf x hx with ⟨i, j⟩ | i
        · exact .inl ⟨hs x i, j⟩
        · exact .inr i

theorem Rep.items {m : Mem} {r : Nat} {Vs : List Val} {f : List Nat} (h : Rep m (.list r) (.list Vs) f) :
    ∃ g, m[r]? = some (.list (m.items r)) ∧ RepAll m (m.items r) Vs g ∧ f = r :: g := by
  obtain ⟨r', vs, g, e, hr, ha, ef⟩ := h
  cases e
  have : m.items r = vs := by unfold Mem.items; rw [hr]
  rw [this]
  exact ⟨g, hr, ha, ef⟩

theorem Rep.entries {m : Mem} {r : Nat} {D : List (Str × Val)} {f : List Nat}
    (h : Rep m (.dict r) (.dict D) f) :
    ∃ g, m[r]? = some (.dict (m.entries r)) ∧ RepPairs m (m.entries r) D g ∧ f = r :: g := by
  obtain ⟨r', vs, g, e, hr, ha, ef⟩ := h
  cases e
  have : m.entries r = vs := by unfold Mem.entries; rw [hr]
  rw [this]
  exact ⟨g, hr, ha, ef⟩

theorem Rep.body {m : Mem} {r : Nat} {D : List (Str × Val)} {lc : List (Str × Str)} {f : List Nat}
    (h : Rep m (.cont r) (.cont D lc) f) :
    ∃ g, m[r]? = some (.body (m.data r) lc) ∧ m.lc r = lc ∧ RepPairs m (m.data r) D g ∧ f = r :: g := by
  obtain ⟨r', vs, g, e, hr, ha, ef⟩ := h
  cases e
  have : m.data r = vs := by unfold Mem.data; rw [hr]
  rw [this]
  exact ⟨g, hr, by unfold Mem.lc; rw [hr], ha, ef⟩

/-- A scalar has no cells. -/
theorem Rep.atom {m : Mem} {a : Scalar} {V : Val} {f : List Nat} (h : Rep m (.atom a) V f) :
    V = a.toVal ∧ f = [] := by
  cases V with
  | prim p => cases h.1; exact ⟨rfl, h.2⟩
  | missing => cases h.1; exact ⟨rfl, h.2⟩
  | invalid => cases h.1; exact ⟨rfl, h.2⟩
  | dt d => cases h.1; exact ⟨rfl, h.2⟩
  | obj o => cases h.1; exact ⟨rfl, h.2⟩
  | list Vs => obtain ⟨_, _, _, e, _⟩ := h; cases e
  | dict Vs => obtain ⟨_, _, _, e, _⟩ := h; cases e
  | cont Vs lc => obtain ⟨_, _, _, e, _⟩ := h; cases e

theorem Rep.isListVal {m : Mem} {r : Nat} {V : Val} {f : List Nat} (h : Rep m (.list r) V f) :
    ∃ Vs, V = .list Vs := by
  cases V with
  | prim p => cases h.1
  | missing => cases h.1
  | invalid => cases h.1
  | dt d => cases h.1
  | obj o => cases h.1
  | list Vs => exact ⟨Vs, rfl⟩
  | dict Vs => obtain ⟨_, _, _, e, _⟩ := h; cases e
  | cont Vs lc => obtain ⟨_, _, _, e, _⟩ := h; cases e

theorem Rep.isDictVal {m : Mem} {r : Nat} {V : Val} {f : List Nat} (h : Rep m (.dict r) V f) :
    ∃ D, V = .dict D := by
  cases V with
  | prim p => cases h.1
  | missing => cases h.1
  | invalid => cases h.1
  | dt d => cases h.1
  | obj o => cases h.1
  | list Vs => obtain ⟨_, _, _, e, _⟩ := h; cases e
  | dict Vs => exact ⟨Vs, rfl⟩
  | cont Vs lc => obtain ⟨_, _, _, e, _⟩ := h; cases e

theorem Rep.isContVal {m : Mem} {r : Nat} {V : Val} {f : List Nat} (h : Rep m (.cont r) V f) :
    ∃ D lc, V = .cont D lc := by
  cases V with
  | prim p => cases h.1
  | missing => cases h.1
  | invalid => cases h.1
  | dt d => cases h.1
  | obj o => cases h.1
  | list Vs => obtain ⟨_, _, _, e, _⟩ := h; cases e
  | dict Vs => obtain ⟨_, _, _, e, _⟩ := h; cases e
  | cont Vs lc => exact ⟨Vs, lc, rfl⟩

theorem newCont_rep : ∀ (n : Nat) (m : Mem) (r : Nat) (D : List (Str × Val)) (f : List Nat),
    Rep m (.dict r) (.dict D) f → f.Nodup → nest (.dict D) ≤ n →
    Agrees m f (tidy false (.dict D) = true) (newCont n m (.dict r)) (.ok (Val.toCont (.dict D)))
  | 0, m, r, D, f, h, hn, hl => by unfold nest at hl; omega
  | n + 1, m, r, D, f, h, hn, hl => by
    obtain ⟨g, hr, hd, ef⟩ := h.entries
    have hl' : nestPairs D ≤ n := by unfold nest at hl; omega
    -- one item of a list
    have item : ∀ m v V f, Rep m v V f → f.Nodup → nest V ≤ n →
        Agrees m f (V.isList = false ∧ tidy false V = true) (convItem (newCont n) m v) (.ok (convOne V)) := by
      intro m v V f h hn hl
      cases v with
      | dict r =>
        obtain ⟨D, e⟩ := h.isDictVal
        subst e
        obtain ⟨v, g, e1, r1, n1, s1⟩ := newCont_rep n m r D f h hn hl
        refine ⟨v, g, e1, r1, n1, fun x hx => ?_⟩
        rcases s1 x hx with ⟨i, j⟩ | i
        · exact .inl ⟨i, fun k => j k.2⟩
        · exact .inr i
      | atom a =>
        obtain ⟨e, ef⟩ := h.atom
        have : convOne V = V := by subst e; cases a <;> rfl
        rw [this]
        exact Agrees.same h hn fun _ => ef
      | list r =>
        obtain ⟨Vs, e⟩ := h.isListVal
        subst e
        exact Agrees.same h hn fun k => by cases k.1
      | cont r =>
        obtain ⟨D, lc, e⟩ := h.isContVal
        subst e
        exact Agrees.same h hn fun k => by have := k.2; unfold tidy at this; cases this
    -- one value
    have val : ∀ m v V f, Rep m v V f → f.Nodup → nest V ≤ n →
        Agrees m f (tidy false V = true) (convVal (newCont n) m v) (.ok (Scim.convVal V)) := by
      intro m v V f h hn hl
      cases v with
      | dict r =>
        obtain ⟨D, e⟩ := h.isDictVal
        subst e
        have := newCont_rep n m r D f h hn hl
        unfold Scim.convVal
        unfold Val.toCont at this
        exact this
      | atom a =>
        obtain ⟨e, ef⟩ := h.atom
        have : Scim.convVal V = V := by subst e; cases a <;> (unfold Scim.convVal; rfl)
        rw [this]
        exact Agrees.same h hn fun _ => ef
      | cont r =>
        obtain ⟨D, lc, e⟩ := h.isContVal
        subst e
        have : Scim.convVal (.cont D lc) = .cont D lc := by unfold Scim.convVal; rfl
        rw [this]
        exact Agrees.same h hn fun k => by unfold tidy at k; cases k
      | list r =>
        obtain ⟨Vs, e⟩ := h.isListVal
        subst e
        obtain ⟨g, hr, ha, ef⟩ := h.items
        have hg : g.Nodup := by rw [ef] at hn; exact (List.nodup_cons.mp hn).2
        have all := mapM_repAll (G := fun V => .ok (convOne V)) (P := fun V => nest V ≤ n)
          (C := fun V => V.isList = false ∧ tidy false V = true)
          (fun m x => by
            unfold convItem
            split
            · exact newCont_prefix _ _ _
            · exact List.prefix_refl _) item Vs m (m.items r) g ha hg (by
            intro V hV
            unfold nest at hl
            exact Nat.le_trans (nest_le_all hV) (by omega))
        rw [mapE_ok] at all
        have := Agrees.newList (f' := f) all (mapM_prefix (fun m x => by
            unfold convItem
            split
            · exact newCont_prefix _ _ _
            · exact List.prefix_refl _) _ _) (fun x hx => by rw [ef]; exact List.mem_cons_of_mem _ hx)
        unfold Scim.convVal
        rw [convItems_map]
        obtain ⟨v, g', e1, r1, n1, s1⟩ := this
        refine ⟨v, g', e1, r1, n1, fun x hx => ?_⟩
        rcases s1 x hx with ⟨i, j⟩ | i
        · refine .inl ⟨i, fun k => j ?_⟩
          unfold tidy at k
          exact tidyItems_iff.mp k
        · exact .inr i
    have hg : g.Nodup := by rw [ef] at hn; exact (List.nodup_cons.mp hn).2
    obtain ⟨d, h1, e1, r1, n1, s1⟩ := mapM_repPairs (P := fun V => nest V ≤ n)
      (C := fun V => tidy false V = true) (convVal_prefix (newCont_prefix n)) val D m (m.entries r) g hd hg
      (fun p hp => Nat.le_trans (nest_le_pairs hp) hl')
    have p1 := mapM_prefix (onEntry_prefix (convVal_prefix (newCont_prefix n))) (m.entries r) m
    unfold newCont
    rw [andThen_ok e1]
    generalize (mapM (onEntry (convVal (newCont n))) m (m.entries r)).1 = m1 at r1 p1 ⊢
    have b := r1.bound
    unfold Val.toCont
    dsimp only
    rw [convPairs_map]
    have k1 := r1.keys
    refine ⟨_, m1.length :: h1, rfl, ⟨m1.length, d, h1, rfl, ?_, r1.later (List.prefix_append _ _), rfl⟩, ?_, ?_⟩
    · rw [push_last, k1, List.map_map]
      rfl
    · exact List.nodup_cons.mpr ⟨fun h => absurd (b _ h) (Nat.lt_irrefl _), n1⟩
    · intro x hx
      rcases List.mem_cons.mp hx with e | hx
      · rw [e]; exact .inr p1.length_le
      · rcases s1 x hx with ⟨i, j⟩ | i
        · refine .inl ⟨by rw [ef]; exact List.mem_cons_of_mem _ i, fun k => j ?_⟩
          unfold tidy at k
          exact tidyPairs_iff.mp k
        · exact .inr i

end Scim.Shared
