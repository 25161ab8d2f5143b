import Verif.Lemmas.ContainerHeapRep
import Verif.Lemmas.Container

/-!
# Operations in memory and operations on values
-/

namespace Scim.Shared
variable [PyEnv]

/-! ## Reading -/

theorem Agrees.weaken {m : Mem} {f f' : List Nat} {C : Prop} {out : Mem × PyM HVal} {res : PyM Val}
    (h : Agrees m f C out res) (hs : ∀ x ∈ f, x ∈ f') : Agrees m f' C out res := by
  cases res with
  | error e => exact h
  | ok V =>
    obtain ⟨v, g, e, hr, hn, hf⟩ := h
    refine ⟨v, g, e, hr, hn, fun x hx => ?_⟩
    rcases hf x hx with ⟨i, j⟩ | i
    · exact .inl ⟨hs x i, j⟩
    · exact .inr i

theorem getMap_mapE (r : AttrRep) : ∀ Vs : List Val, getMap Vs r = mapE (fun V => Val.getX false V r) Vs
  | [] => by unfold getMap mapE; rfl
  | V :: Vs => by 
    unfold getMap mapE
    rw [getMap_mapE r Vs]
    cases Val.getX false V r with
    | error e => rfl
    | ok y => cases mapE (fun V => Val.getX false V r) Vs <;> rfl

theorem RepAll.isEmpty {m : Mem} {vs : List HVal} {Vs : List Val} {f : List Nat} (h : RepAll m vs Vs f) :
    vs.isEmpty = Vs.isEmpty := by
  cases Vs with
  | nil => rw [h.1]; rfl
  | cons V Vs => obtain ⟨w, ws, _, _, e, _⟩ := h; rw [e]; rfl

theorem RepAll.length {m : Mem} : ∀ {Vs : List Val} {vs : List HVal} {f : List Nat}, RepAll m vs Vs f →
    vs.length = Vs.length
  | [], vs, f, h => by rw [h.1]; rfl
  | V :: Vs, vs, f, h => by
    obtain ⟨w, ws, _, _, e, _, h2, _⟩ := h
    rw [e, List.length_cons, List.length_cons, h2.length]

theorem nest_of_aget {k : Str} {V : Val} {D : List (Str × Val)} (h : aget k D = some V) :
    nest V ≤ nestPairs D := nest_le_pairs (mem_of_aget h)

theorem getX_rep : ∀ (n : Nat) (b : Bool) (m : Mem) (v : HVal) (V : Val) (f : List Nat) (r : AttrRep),
    Rep m v V f → f.Nodup → nest V < n → Agrees m f False (getX n b m v r) (Val.getX b V r)
  | 0, b, m, v, V, f, r, h, hn, hl => by omega
  | n + 1, b, m, v, V, f, r, h, hn, hl => by
    cases v with
    | cont c =>
      obtain ⟨D, lc, e⟩ := h.isContVal
      subst e
      obtain ⟨g, hc, hlc, hd, ef⟩ := h.body
      subst ef
      have hl' : nestPairs D < n := by unfold nest at hl; omega
      have ng : g.Nodup := (List.nodup_cons.mp hn).2
      have look : ∀ b' k r', Agrees m (c :: g) False (match aget k (m.data c) with
          | some x => getX n b' m x r'
          | none => (m, .error .keyError)) (getAt b' k D r') := by
        intro b' k r'
        rw [getAt_eq]
        cases hk : aget k D with
        | none => rw [hd.none hk]; rfl
        | some V =>
          obtain ⟨x, pre, f0, post, hx, rx, e, _⟩ := hd.look hk
          rw [hx]
          have : f0.Nodup := by rw [e] at ng; exact (List.nodup_append.mp (List.nodup_append.mp ng).1).2.1
          refine (getX_rep n b' m x V f0 r' rx this (Nat.lt_of_le_of_lt (nest_of_aget hk) hl')).weaken ?_
          intro y hy
          rw [e]
          exact List.mem_cons_of_mem _ (List.mem_append_left _ (List.mem_append_right _ hy))
      unfold getX Val.getX
      dsimp only
      rw [hlc]
      split
      · rfl
      · cases aget (lower r.schema) lc with
        | some k => exact look _ _ _
        | none =>
          dsimp only
          cases aget (lower r.attr) lc with
          | none => exact ⟨_, [], rfl, ⟨rfl, rfl⟩, List.nodup_nil, fun x hx => absurd hx List.not_mem_nil⟩
          | some k =>
            dsimp only
            by_cases hs : r.sub.isEmpty
            · rw [if_pos hs]
              cases hk : aget k D with
              | none => rw [hd.none hk]; rfl
              | some V =>
                obtain ⟨x, pre, f0, post, hx, rx, e, _⟩ := hd.look hk
                rw [hx]
                dsimp only
                rw [if_pos hs]
                have nf : f0.Nodup := by
                  rw [e] at ng; exact (List.nodup_append.mp (List.nodup_append.mp ng).1).2.1
                refine ⟨x, f0, rfl, rx, nf, fun y hy => .inl ⟨?_, fun h => h⟩⟩
                rw [e]
                exact List.mem_cons_of_mem _ (List.mem_append_left _ (List.mem_append_right _ hy))
            · rw [if_neg hs]
              have := look true k { attr := r.sub }
              cases hk : aget k (m.data c) with
              | none => rw [hk] at this; exact this
              | some x => rw [hk] at this; dsimp only; rw [if_neg hs]; exact this
    | list q =>
      obtain ⟨Vs, e⟩ := h.isListVal
      subst e
      obtain ⟨g, hc, ha, ef⟩ := h.items
      subst ef
      unfold getX Val.getX
      dsimp only
      cases b with
      | false => rfl
      | true =>
        rw [if_pos rfl]
        dsimp only
        rw [ha.isEmpty]
        split
        · rfl
        · rw [getMap_mapE]
          have all := mapM_repAll (g := fun m x => getX n false m x r) (P := fun V => nest V < n)
            (C := fun _ => False) (fun m x => getX_prefix n false m x r)
            (fun m v V f h hn hP => getX_rep n false m v V f r h hn hP) Vs m (m.items q) g ha
            (List.nodup_cons.mp hn).2 (by
              intro V hV
              have := nest_le_all hV
              unfold nest at hl
              omega)
          have := Agrees.newList (f' := q :: g) all
            (mapM_prefix (fun m x => getX_prefix n false m x r) _ _) (fun x hx => List.mem_cons_of_mem _ hx)
          cases hE : mapE (fun V => Val.getX false V r) Vs with
          | error e => rw [hE] at this; exact this
          | ok Ws =>
            rw [hE] at this
            obtain ⟨v, g', e1, r1, n1, s1⟩ := this
            refine ⟨v, g', e1, r1, n1, fun x hx => ?_⟩
            rcases s1 x hx with ⟨i, j⟩ | i
            · exact .inl ⟨i, fun h => h⟩
            · exact .inr i
    | atom a =>
      obtain ⟨e, ef⟩ := h.atom
      subst e
      have miss : Agrees m f False (m, .ok (.atom .missing)) (.ok .missing) :=
        ⟨_, [], rfl, ⟨rfl, rfl⟩, List.nodup_nil, fun x hx => absurd hx List.not_mem_nil⟩
      unfold getX
      dsimp only
      cases b <;> cases a <;> (unfold Val.getX Scalar.toVal; first | exact miss | rfl)
    | dict q =>
      obtain ⟨Vs, e⟩ := h.isDictVal
      subst e
      have miss : Agrees m f False (m, .ok (.atom .missing)) (.ok .missing) :=
        ⟨_, [], rfl, ⟨rfl, rfl⟩, List.nodup_nil, fun x hx => absurd hx List.not_mem_nil⟩
      unfold getX
      dsimp only
      cases b <;> (unfold Val.getX; first | exact miss | rfl)

/-! ## Writing -/

/-- The receiver `v` stands for the expected value, made of its old cells `f`, cells `g` of the value that is
written, and new cells; no cell outside `f` changes. -/
def AgreesW (m : Mem) (f g : List Nat) (v : HVal) (out : Mem × PyM Unit) (res : PyM Val) : Prop :=
  (m.length ≤ out.1.length ∧ ∀ x, x < m.length → x ∉ f → out.1[x]? = m[x]?) ∧
  match res with
  | .ok V => out.2 = .ok () ∧ ∃ h, Rep out.1 v V h ∧ h.Nodup ∧ ∀ x ∈ h, x ∈ f ∨ x ∈ g ∨ m.length ≤ x
  | .error e => out.2 = .error e

/-- The same for the items of a list. -/
def AgreesWAll (m : Mem) (f g : List Nat) (vs : List HVal) (out : Mem × PyM Unit) (res : PyM (List Val)) :
    Prop :=
  (m.length ≤ out.1.length ∧ ∀ x, x < m.length → x ∉ f → out.1[x]? = m[x]?) ∧
  match res with
  | .ok Vs => out.2 = .ok () ∧ ∃ h, RepAll out.1 vs Vs h ∧ h.Nodup ∧ ∀ x ∈ h, x ∈ f ∨ x ∈ g ∨ m.length ≤ x
  | .error e => out.2 = .error e

theorem AgreesW.fail {m : Mem} {f g : List Nat} {v : HVal} {e : PyErr} :
    AgreesW m f g v (m, .error e) (.error e) := ⟨⟨Nat.le_refl _, fun _ _ _ => rfl⟩, rfl⟩

theorem setBody_eq {m : Mem} {c : Nat} {d d' : List (Str × HVal)} {l l' : List (Str × Str)}
    (h : m[c]? = some (.body d l)) : m.setBody c d' l' = m.set c (.body d' l') := by
  unfold Mem.setBody; rw [h]

theorem setItems_eq {m : Mem} {c : Nat} {d d' : List HVal} (h : m[c]? = some (.list d)) :
    m.setItems c d' = m.set c (.list d') := by
  unfold Mem.setItems; rw [h]

theorem set_other {m : Mem} {c x : Nat} {k : Cell} (h : x ≠ c) : (m.set c k)[x]? = m[x]? := by
  rw [List.getElem?_set, if_neg fun e => h e.symm]

theorem set_self {m : Mem} {c : Nat} {k k' : Cell} (h : m[c]? = some k') : (m.set c k)[c]? = some k := by
  rw [List.getElem?_set, if_pos rfl, if_pos (lt_of_cell h)]

theorem setPlain_rep {m : Mem} {v x : HVal} {V X : Val} {f g : List Nat} (a : Str) (hv : Rep m v V f)
    (hx : Rep m x X g) (hn : (f ++ g).Nodup) :
    AgreesW m f g v (setPlain m v a x) (Val.setPlain V a X) := by
  cases v with
  | cont c =>
    obtain ⟨D, lc, e⟩ := hv.isContVal
    subst e
    obtain ⟨f', hc, hlc, hd, ef⟩ := hv.body
    subst ef
    obtain ⟨h, hr, hnd, hs⟩ := hd.set (k := a) hx
    unfold setPlain Val.setPlain
    dsimp only
    rw [setBody_eq hc, hlc]
    have cn : c ∉ h := by
      intro hm
      have := hs c hm
      clear hr hd hx hv
      foot
    refine ⟨⟨by rw [List.length_set]; exact Nat.le_refl _, fun y _ hy => set_other fun e => hy ?_⟩, rfl, c :: h,
      ⟨c, _, h, rfl, set_self hc, hr.frame fun y hy => set_other fun e => cn (e ▸ hy), rfl⟩, ?_, ?_⟩
    · rw [e]; exact List.mem_cons_self
    · refine List.nodup_cons.mpr ⟨cn, hnd ?_⟩
      clear hr hd hx hv hs; foot
    · intro y hy
      rcases List.mem_cons.mp hy with e | hy
      · rw [e]; exact .inl List.mem_cons_self
      · rcases hs y hy with h | h
        · exact .inl (List.mem_cons_of_mem _ h)
        · exact .inr (.inl h)
  | atom b =>
    obtain ⟨e, _⟩ := hv.atom
    subst e
    cases b <;> exact AgreesW.fail
  | list q => obtain ⟨Vs, e⟩ := hv.isListVal; subst e; exact AgreesW.fail
  | dict q => obtain ⟨Vs, e⟩ := hv.isDictVal; subst e; exact AgreesW.fail

theorem zipSet_rep (sub : Str) : ∀ (Vs Cs : List Val) (m : Mem) (vs cs : List HVal) (f g : List Nat),
    RepAll m cs Cs f → RepAll m vs Vs g → (f ++ g).Nodup →
    AgreesWAll m f g cs (zipSet sub m vs cs) (Scim.zipSet sub Vs Cs)
  | [], Cs, m, vs, cs, f, g, hc, hv, hn => by
    rw [hv.1]
    unfold zipSet Scim.zipSet
    exact ⟨⟨Nat.le_refl _, fun _ _ _ => rfl⟩, rfl, f, hc, (List.nodup_append.mp hn).1, fun x hx => .inl hx⟩
  | V :: Vs, [], m, vs, cs, f, g, hc, hv, hn => by
    obtain ⟨v, vs', g1, g2, e, hv1, hv2, eg⟩ := hv
    have hc' := hc
    rw [e, hc.1]
    unfold zipSet Scim.zipSet
    exact ⟨⟨Nat.le_refl _, fun _ _ _ => rfl⟩, rfl, [], ⟨rfl, rfl⟩, List.nodup_nil,
      fun x hx => absurd hx List.not_mem_nil⟩
  | V :: Vs, C :: Cs, m, vs, cs, f, g, hc, hv, hn => by
    obtain ⟨v, vs', g1, g2, e, hv1, hv2, eg⟩ := hv
    obtain ⟨c, cs', f1, f2, e', hc1, hc2, ef⟩ := hc
    subst e e' eg ef
    have bc1 := hc1.bound
    have bc2 := hc2.bound
    have bv1 := hv1.bound
    have bv2 := hv2.bound
    by_cases hm : v = .atom .missing
    · have hV : V = .missing := by rw [hm] at hv1; exact hv1.atom.1
      have hg : g1 = [] := by rw [hm] at hv1; exact hv1.atom.2
      subst hV
      have ih := zipSet_rep sub Vs Cs m vs' cs' f2 g2 hc2 hv2 (by clear hc1 hc2 hv1 hv2; foot)
      unfold zipSet Scim.zipSet
      rw [if_pos hm]
      dsimp only
      obtain ⟨⟨ll, fr⟩, ih⟩ := ih
      refine ⟨⟨ll, fun x hx hx' => fr x hx fun h => hx' (List.mem_append_right _ h)⟩, ?_⟩
      cases hz : Scim.zipSet sub Vs Cs with
      | error e => rw [hz] at ih; exact ih
      | ok Cs' =>
        rw [hz] at ih
        obtain ⟨e1, h, hr, hnd, hs⟩ := ih
        refine ⟨e1, f1 ++ h, ⟨c, cs', f1, h, rfl, ?_, hr, rfl⟩, ?_, ?_⟩
        · refine hc1.frame fun x hx => fr x (hc1.bound x hx) ?_
          clear hc1 hc2 hv1 hv2 hr fr; foot
        · clear hc1 hc2 hv1 hv2 hr fr; foot
        · intro x hx; have := hs x; clear hc1 hc2 hv1 hv2 hr fr; foot
    · have hV : V ≠ .missing := by
        intro e
        subst e
        exact hm hv1.1
      have pz : ∀ k, Scim.zipSet sub (V :: Vs) (C :: Cs) = k ↔ (if !isAttrName sub then .error .valueError
          else match C.setPlain sub V with
            | .error e => .error e
            | .ok c' => match Scim.zipSet sub Vs Cs with
              | .ok cs' => .ok (c' :: cs')
              | .error e => .error e) = k := by
        intro k
        cases V <;> first | exact absurd rfl hV | exact Iff.rfl
      rw [(pz _).mp rfl |>.symm]
      unfold zipSet
      rw [if_neg hm]
      by_cases hs : (!isAttrName sub) = true
      · rw [if_pos hs, if_pos hs]
        exact ⟨⟨Nat.le_refl _, fun _ _ _ => rfl⟩, rfl⟩
      · rw [if_neg hs, if_neg hs]
        obtain ⟨⟨l1, fr1⟩, s1⟩ := setPlain_rep sub hc1 hv1 (by clear hc1 hc2 hv1 hv2; foot)
        cases hS : C.setPlain sub V with
        | error e =>
          rw [hS] at s1
          rw [andThen_error s1]
          exact ⟨⟨l1, fun x hx hx' => fr1 x hx fun h => hx' (List.mem_append_left _ h)⟩, rfl⟩
        | ok C' =>
          rw [hS] at s1
          obtain ⟨e1, h1, r1, n1, m1s⟩ := s1
          rw [andThen_ok e1]
          generalize (setPlain m c sub v).1 = m1 at l1 fr1 r1
          have b1 := r1.bound
          have hc2' : RepAll m1 cs' Cs f2 := hc2.frame fun x hx => fr1 x (bc2 x hx) (by
            clear hc1 hc2 hv1 hv2 r1 fr1; foot)
          have hv2' : RepAll m1 vs' Vs g2 := hv2.frame fun x hx => fr1 x (bv2 x hx) (by
            clear hc1 hc2 hv1 hv2 r1 fr1; foot)
          obtain ⟨⟨l2, fr2⟩, ih⟩ := zipSet_rep sub Vs Cs m1 vs' cs' f2 g2 hc2' hv2' (by
            clear hc1 hc2 hv1 hv2 r1 fr1 hc2' hv2'; foot)
          refine ⟨⟨Nat.le_trans l1 l2, fun x hx hx' => ?_⟩, ?_⟩
          · rw [fr2 x (Nat.lt_of_lt_of_le hx l1) fun h => hx' (List.mem_append_right _ h)]
            exact fr1 x hx fun h => hx' (List.mem_append_left _ h)
          · dsimp only
            cases hz : Scim.zipSet sub Vs Cs with
            | error e => rw [hz] at ih; exact ih
            | ok Cs' =>
              rw [hz] at ih
              obtain ⟨e2, h2, r2, n2, m2s⟩ := ih
              refine ⟨e2, h1 ++ h2, ⟨c, cs', h1, h2, rfl, r1.frame fun x hx => fr2 x (b1 x hx) ?_, r2, rfl⟩, ?_, ?_⟩
              · have := m1s x hx
                clear hc1 hc2 hv1 hv2 r1 fr1 hc2' hv2' r2 fr2; foot
              · clear hc1 hc2 hv1 hv2 r1 fr1 hc2' hv2' r2 fr2; foot
              · intro x hx
                have a := m1s x
                have b := m2s x
                clear hc1 hc2 hv1 hv2 r1 fr1 hc2' hv2' r2 fr2 m1s m2s
                foot

theorem RepAll.append {m : Mem} : ∀ {Xs : List Val} {xs : List HVal} {f : List Nat} {Ys : List Val}
    {ys : List HVal} {g : List Nat}, RepAll m xs Xs f → RepAll m ys Ys g →
    RepAll m (xs ++ ys) (Xs ++ Ys) (f ++ g)
  | [], xs, f, Ys, ys, g, h, h' => by rw [h.1, h.2]; exact h'
  | X :: Xs, xs, f, Ys, ys, g, h, h' => by
    obtain ⟨w, ws, f1, f2, e, hw, hws, ef⟩ := h
    subst e ef
    exact ⟨w, ws ++ ys, f1, f2 ++ g, rfl, hw, hws.append h', List.append_assoc _ _ _⟩

theorem repAll_fresh {M : Mem} {a : Nat} : ∀ (k : Nat), (∀ i, i < k → M[a + i]? = some (.body [] [])) →
    RepAll M ((List.range k).map fun i => .cont (a + i)) (List.replicate k Val.emptyCont)
      ((List.range k).map (a + ·))
  | 0, _ => ⟨rfl, rfl⟩
  | k + 1, h => by
    rw [List.range_succ, List.map_append, List.map_append, List.replicate_succ']
    refine (repAll_fresh k fun i hi => h i (Nat.lt_succ_of_lt hi)).append ?_
    exact ⟨.cont (a + k), [], [a + k], [], rfl,
      ⟨a + k, [], [], rfl, h k (Nat.lt_succ_self k), ⟨rfl, rfl⟩, rfl⟩, ⟨rfl, rfl⟩, rfl⟩

theorem extend_rep {m : Mem} {p : Nat} {xs : List HVal} {Xs : List Val} {f : List Nat} (k : Nat)
    (hp : m[p]? = some (.list xs)) (ha : RepAll m xs Xs f) (hn : p ∉ f) :
    ∃ xs' f', (extend m p k)[p]? = some (.list xs') ∧
      RepAll (extend m p k) xs' (Xs ++ List.replicate k Val.emptyCont) (f ++ f') ∧ f'.Nodup ∧
      (∀ x ∈ f', m.length ≤ x) ∧ m.length ≤ (extend m p k).length ∧
      ∀ x, x < m.length → x ≠ p → (extend m p k)[x]? = m[x]? := by
  by_cases hk : k = 0
  · subst hk
    unfold extend
    rw [if_pos rfl, List.replicate_zero, List.append_nil]
    exact ⟨xs, [], hp, by rw [List.append_nil]; exact ha, List.nodup_nil,
      fun x hx => absurd hx List.not_mem_nil, Nat.le_refl _, fun _ _ _ => rfl⟩
  · unfold extend
    rw [if_neg hk]
    have hl := lt_of_cell hp
    have hp' : (m ++ List.replicate k (Cell.body [] []))[p]? = some (.list xs) := by
      rw [List.getElem?_append_left hl]; exact hp
    have hi : m.items p = xs := by unfold Mem.items; rw [hp]
    rw [setItems_eq hp', hi]
    have old : ∀ x, x < m.length → x ≠ p →
        ((m ++ List.replicate k (Cell.body [] [])).set p
          (.list (xs ++ (List.range k).map fun i => .cont (m.length + i))))[x]? = m[x]? := by
      intro x hx hne
      rw [set_other hne, List.getElem?_append_left hx]
    refine ⟨_, (List.range k).map (m.length + ·), set_self hp', ?_, ?_, ?_, ?_, old⟩
    · refine RepAll.append (ha.frame fun x hx => old x (ha.bound x hx) fun e => hn (e ▸ hx)) (repAll_fresh k ?_)
      intro i hi
      rw [set_other (by omega), List.getElem?_append_right (by omega), List.getElem?_replicate]
      rw [if_pos (by omega)]
    · rw [← List.range'_eq_map_range]; exact List.nodup_range'
    · intro x hx
      obtain ⟨i, _, e⟩ := List.mem_map.mp hx
      omega
    · rw [List.length_set, List.length_append]; omega

theorem assignSub_rep {m : Mem} {cur v : HVal} {Cur V : Val} {f g : List Nat} (s : Str)
    (hc : Rep m cur Cur f) (hv : Rep m v V g) (hn : (f ++ g).Nodup) :
    AgreesW m f g cur (assignSub m cur s v) (Scim.assignSub Cur s V) := by
  have single : (∀ q, v ≠ .list q) → AgreesW m f g cur
      (if !isAttrName s then (m, .error .valueError) else setPlain m cur s v)
      (if !isAttrName s then .error .valueError else Cur.setPlain s V) := by
    intro _
    split
    · exact AgreesW.fail
    · exact setPlain_rep s hc hv hn
  cases v with
  | atom a =>
    obtain ⟨e, _⟩ := hv.atom
    subst e
    cases a <;> exact single nofun
  | dict q => obtain ⟨D, e⟩ := hv.isDictVal; subst e; exact single nofun
  | cont q => obtain ⟨D, lc, e⟩ := hv.isContVal; subst e; exact single nofun
  | list q =>
    obtain ⟨Vs, e⟩ := hv.isListVal
    subst e
    obtain ⟨g', hq, hvs, eg⟩ := hv.items
    subst eg
    cases cur with
    | atom a =>
      obtain ⟨e, _⟩ := hc.atom
      subst e
      cases a <;> exact AgreesW.fail
    | dict q => obtain ⟨D, e⟩ := hc.isDictVal; subst e; exact AgreesW.fail
    | cont q => obtain ⟨D, lc, e⟩ := hc.isContVal; subst e; exact AgreesW.fail
    | list p =>
      obtain ⟨Xs, e⟩ := hc.isListVal
      subst e
      obtain ⟨f', hp, hxs, ef⟩ := hc.items
      subst ef
      have bx := hxs.bound
      have bp := lt_of_cell hp
      have bq := lt_of_cell hq
      have bv := hvs.bound
      unfold assignSub Scim.assignSub
      dsimp only
      rw [hvs.length, hxs.length]
      obtain ⟨xs', f'', hp', hr, hnd, hfresh, hl, hold⟩ :=
        extend_rep (Vs.length - Xs.length) hp hxs (by clear hc hv hvs hxs hp hq; foot)
      generalize extend m p (Vs.length - Xs.length) = m1 at hp' hr hl hold
      have qp : q ≠ p := by clear hc hv hvs hxs hp hq hr hp' hold; foot
      have hq' : m1[q]? = some (.list (m.items q)) := (hold q bq qp).trans hq
      have iq : m1.items q = m.items q := by
        show (match m1[q]? with | some (.list xs) => xs | _ => []) = _
        rw [hq']
      have ip : m1.items p = xs' := by
        show (match m1[p]? with | some (.list xs) => xs | _ => []) = _
        rw [hp']
      have hvs' : RepAll m1 (m.items q) Vs g' := hvs.frame fun x hx => hold x (bv x hx) (by
        clear hc hv hvs hxs hp hq hr hp' hold hq' iq ip; foot)
      have nd : (f' ++ f'' ++ g').Nodup := by
        clear hc hv hvs hxs hp hq hr hp' hold hq' iq ip hvs'; foot
      obtain ⟨⟨l2, fr2⟩, ih⟩ := zipSet_rep s Vs (Xs ++ List.replicate (Vs.length - Xs.length) Val.emptyCont)
        m1 (m.items q) xs' (f' ++ f'') g' hr hvs' nd
      rw [iq, ip]
      have pn : p ∉ f' ++ f'' := by
        clear hc hv hvs hxs hp hq hr hp' hold hq' iq ip hvs' fr2 ih; foot
      refine ⟨⟨Nat.le_trans hl l2, fun x hx hx' => ?_⟩, ?_⟩
      · rw [fr2 x (Nat.lt_of_lt_of_le hx hl) ?_]
        · exact hold x hx fun e => hx' (by rw [e]; exact List.mem_cons_self)
        · intro h
          rcases List.mem_append.mp h with h | h
          · exact hx' (List.mem_cons_of_mem _ h)
          · exact absurd (hfresh x h) (by omega)
      · cases hz : Scim.zipSet s Vs (Xs ++ List.replicate (Vs.length - Xs.length) Val.emptyCont) with
        | error e => rw [hz] at ih; exact ih
        | ok Ys =>
          rw [hz] at ih
          obtain ⟨e1, h, rh, nh, sh⟩ := ih
          have ph : p ∉ h := by
            intro hm
            have := sh p hm
            clear hc hv hvs hxs hp hq hr hp' hold hq' iq ip hvs' fr2 rh; foot
          refine ⟨e1, p :: h, ⟨p, xs', h, rfl, ?_, rh, rfl⟩, List.nodup_cons.mpr ⟨ph, nh⟩, ?_⟩
          · rw [fr2 p (Nat.lt_of_lt_of_le bp hl) pn]; exact hp'
          · intro x hx
            have := sh x
            clear hc hv hvs hxs hp hq hr hp' hold hq' iq ip hvs' fr2 rh sh
            foot

/-- A changed member as a changed container. -/
def asMember (k : Str) (D : List (Str × Val)) (lc : List (Str × Str)) : PyM Val → PyM Val
  | .ok V => .ok (.cont (aset k V D) lc)
  | .error e => .error e

/-- Putting a changed member back: the cell of the container, the other members and the member. -/
theorem AgreesW.member {m m1 : Mem} {c : Nat} {d : List (Str × HVal)} {lc : List (Str × Str)}
    {D : List (Str × Val)} {k : Str} {x : HVal} {f f0 g pre post : List Nat} {out : Mem × PyM Unit}
    {res : PyM Val} (hc : m1[c]? = some (.body d lc)) (hl : m.length ≤ m1.length)
    (ho : ∀ x, x < m.length → x ∉ f → m1[x]? = m[x]?)
    (hcf : c ∈ f) (hcn : c ∉ pre ++ f0 ++ post)
    (hcg : c ∉ g) (hg : ∀ x ∈ g, x ∉ pre ++ post)
    (hs : ∀ x ∈ pre ++ f0 ++ post, x ∈ f ∨ x ∈ g ∨ m.length ≤ x) (hn : (pre ++ f0 ++ post).Nodup)
    (hb : ∀ x ∈ pre ++ f0 ++ post, x < m1.length)
    (hf0 : ∀ x ∈ f0, x ∈ f ∨ m.length ≤ x)
    (up : ∀ m' V' f', (∀ x ∈ pre ++ post, m'[x]? = m1[x]?) → Rep m' x V' f' →
        RepPairs m' d (aset k V' D) (pre ++ f' ++ post))
    (ih : AgreesW m1 f0 g x out res) :
    AgreesW m f g (.cont c) out (asMember k D lc res) := by
  have bc := lt_of_cell hc
  obtain ⟨⟨l1, fr⟩, ih⟩ := ih
  refine ⟨⟨Nat.le_trans hl l1, fun x hx hx' => ?_⟩, ?_⟩
  · rw [fr x (Nat.lt_of_lt_of_le hx hl) ?_]
    · exact ho x hx hx'
    · intro h
      rcases hf0 x h with h | h
      · exact hx' h
      · omega
  · cases res with
    | error e => exact ih
    | ok V =>
      obtain ⟨e1, h, hr, hnd, hsub⟩ := ih
      have others : ∀ x ∈ pre ++ post, out.1[x]? = m1[x]? := by
        intro x hx
        refine fr x (hb x ?_) ?_
        · clear up hr; foot
        · clear up hr; foot
      have ch : c ∉ pre ++ h ++ post := by
        intro hm
        have := hsub c
        clear up hr others fr ho; foot
      refine ⟨e1, c :: (pre ++ h ++ post), ⟨c, d, _, rfl, ?_, up out.1 V h others hr, rfl⟩, ?_, ?_⟩
      · rw [fr c bc ?_]
        · exact hc
        · clear up hr others fr ho; foot
      · refine List.nodup_cons.mpr ⟨ch, ?_⟩
        clear up hr others fr ho ch hcn hcf hcg; foot
      · intro x hx
        have a := hsub x
        have b := hs x
        have c := hf0 x
        clear up hr others fr ho ch hn hnd hb
        foot

/-- A member that changes in place. -/
theorem AgreesW.inPlace {m : Mem} {c : Nat} {D : List (Str × Val)} {lc : List (Str × Str)} {f g : List Nat}
    (hv : Rep m (.cont c) (.cont D lc) f) (hn : (f ++ g).Nodup) (hg : ∀ x ∈ g, x < m.length) {k : Str} {V : Val}
    (hk : aget k D = some V) : ∃ x f0, aget k (m.data c) = some x ∧ Rep m x V f0 ∧ (f0 ++ g).Nodup ∧
      ∀ out res, AgreesW m f0 g x out res → AgreesW m f g (.cont c) out (asMember k D lc res) := by
  obtain ⟨f', hc, hlc, hd, ef⟩ := hv.body
  subst ef
  obtain ⟨x, pre, f0, post, hx, rx, e, up⟩ := hd.look hk
  have bd := hd.bound
  subst e
  refine ⟨x, f0, hx, rx, by clear up rx hd hv; foot, fun out res ih => ?_⟩
  refine AgreesW.member (pre := pre) (post := post) hc (Nat.le_refl _) (fun _ _ _ => rfl) List.mem_cons_self ?_ ?_ ?_
    ?_ ?_ bd ?_ up ih
  · clear up rx hd hv ih; foot
  · clear up rx hd hv ih; foot
  · clear up rx hd hv ih; foot
  · intro x hx; exact .inl (List.mem_cons_of_mem _ hx)
  · clear up rx hd hv ih; foot
  · intro x hx
    exact .inl (List.mem_cons_of_mem _ (List.mem_append_left _ (List.mem_append_right _ hx)))

/-- A member that is created first. -/
theorem AgreesW.created {m : Mem} {c : Nat} {D : List (Str × Val)} {lc lc' : List (Str × Str)} {f g : List Nat}
    (hv : Rep m (.cont c) (.cont D lc) f) (hn : (f ++ g).Nodup) {w : HVal} {W : Val} (hw : Rep m w W g)
    {a : Str} {cl : Cell} {start : HVal} {S : Val} (hs : Rep (m ++ [cl]) start S [m.length])
    (huniq : ∀ M h, Rep M start S h → h = [m.length]) {out : Mem × PyM Unit} {res : PyM Val}
    (ih : ∀ M, M = Mem.setBody (m ++ [cl]) c (aset a start (m.data c)) lc' → Rep M start S [m.length] →
      Rep M w W g → ([m.length] ++ g).Nodup → AgreesW M [m.length] g start out res) :
    AgreesW m f g (.cont c) out (asMember a (aset a S D) lc' res) := by
  obtain ⟨f', hc, hlc, hd, ef⟩ := hv.body
  subst ef
  have bd := hd.bound
  have bc := lt_of_cell hc
  have bw := hw.bound
  have pm : m <+: m ++ [cl] := List.prefix_append _ _
  obtain ⟨h0, r0, n0, s0⟩ := RepPairs.set (k := a) hs (hd.later pm)
  have hc1 : (m ++ [cl])[c]? = some (.body (m.data c) lc) := by
    rw [List.getElem?_append_left bc]; exact hc
  have cn : c ∉ h0 := by
    intro hm
    have := s0 c hm
    clear hv hw hs huniq ih hd r0; foot
  have eM : Mem.setBody (m ++ [cl]) c (aset a start (m.data c)) lc' =
      (m ++ [cl]).set c (.body (aset a start (m.data c)) lc') := setBody_eq hc1
  generalize hM : Mem.setBody (m ++ [cl]) c (aset a start (m.data c)) lc' = M at eM ih
  have lM : M.length = m.length + 1 := by rw [eM, List.length_set, List.length_append]; rfl
  have cM : M[c]? = some (.body (aset a start (m.data c)) lc') := by rw [eM]; exact set_self hc1
  have oM : ∀ x, x ≠ c → M[x]? = (m ++ [cl])[x]? := fun x hx => by rw [eM]; exact set_other hx
  have r1 : RepPairs M (aset a start (m.data c)) (aset a S D) h0 :=
    r0.frame fun x hx => oM x fun e => cn (e ▸ hx)
  obtain ⟨x, pre, f0, post, hx, rx, e, up⟩ := r1.look (k := a) (V := S) (aget_aset_self _ _ _)
  rw [aget_aset_self] at hx
  cases hx
  have ef0 := huniq M f0 rx
  subst ef0
  have hw' : Rep M w W g := hw.frame fun x hx => by
    rw [oM x ?_, List.getElem?_append_left (bw x hx)]
    clear hv hw hs huniq ih hd r0 r1 up rx oM; foot
  have ih' := ih M rfl rx hw' (by clear hv hw hs huniq ih hd r0 r1 up rx oM; foot)
  have b1 := r1.bound
  refine AgreesW.member (pre := pre) (post := post) (m1 := M) cM (by omega) ?_ List.mem_cons_self ?_ ?_ ?_ ?_ ?_ ?_ ?_
    up ih'
  · intro x hx hx'
    rw [oM x fun e => hx' (by rw [e]; exact List.mem_cons_self), List.getElem?_append_left hx]
  · rw [← e]; exact cn
  · clear hv hw hs huniq ih hd r0 r1 up rx oM ih'; foot
  · intro x hx hm
    have := s0 x
    rw [e] at this
    clear hv hw hs huniq ih hd r0 r1 up rx oM ih'; foot
  · rw [← e]
    intro x hx
    rcases s0 x hx with h | h
    · exact .inl (List.mem_cons_of_mem _ h)
    · rw [List.mem_singleton.mp h]; exact .inr (.inr (Nat.le_refl _))
  · rw [← e]
    refine n0 ?_
    clear hv hw hs huniq ih hd r0 r1 up rx oM ih'; foot
  · rw [← e]; exact b1
  · intro x hx
    rw [List.mem_singleton.mp hx]; exact .inr (Nat.le_refl _)

theorem Rep.isList {m : Mem} {v : HVal} {V : Val} {f : List Nat} (h : Rep m v V f) : v.isList = V.isList := by
  cases v with
  | atom a => obtain ⟨e, _⟩ := h.atom; subst e; cases a <;> rfl
  | dict q => obtain ⟨D, e⟩ := h.isDictVal; subst e; rfl
  | cont q => obtain ⟨D, lc, e⟩ := h.isContVal; subst e; rfl
  | list q => obtain ⟨D, e⟩ := h.isListVal; subst e; rfl

theorem Rep.isCont {m : Mem} {v : HVal} {V : Val} {f : List Nat} (h : Rep m v V f) : v.isCont = V.isCont := by
  cases v with
  | atom a => obtain ⟨e, _⟩ := h.atom; subst e; cases a <;> rfl
  | dict q => obtain ⟨D, e⟩ := h.isDictVal; subst e; rfl
  | cont q => obtain ⟨D, lc, e⟩ := h.isContVal; subst e; rfl
  | list q => obtain ⟨D, e⟩ := h.isListVal; subst e; rfl

theorem RepAll.allCont {m : Mem} : ∀ {Vs : List Val} {vs : List HVal} {f : List Nat}, RepAll m vs Vs f →
    vs.all HVal.isCont = Vs.all Val.isCont
  | [], vs, f, h => by rw [h.1]; rfl
  | V :: Vs, vs, f, h => by
    obtain ⟨w, ws, _, _, e, h1, h2, _⟩ := h
    rw [e, List.all_cons, List.all_cons, h2.allCont, h1.isCont]

theorem canAssign_rep {m : Mem} {cur v : HVal} {Cur V : Val} {f g : List Nat} (hc : Rep m cur Cur f)
    (hv : Rep m v V g) : canAssign m cur v = canAssignToComplex Cur V := by
  cases cur with
  | atom a => obtain ⟨e, _⟩ := hc.atom; subst e; cases a <;> rfl
  | dict q => obtain ⟨D, e⟩ := hc.isDictVal; subst e; rfl
  | cont q => obtain ⟨D, lc, e⟩ := hc.isContVal; subst e; rfl
  | list q =>
    obtain ⟨Vs, e⟩ := hc.isListVal
    subst e
    obtain ⟨f', hp, hxs, ef⟩ := hc.items
    unfold canAssign canAssignToComplex
    dsimp only
    rw [hv.isList, hxs.isEmpty, hxs.allCont]

theorem setSub_rep {m : Mem} {v x : HVal} {V X : Val} {f g : List Nat} (a s : Str) (hv : Rep m v V f)
    (hx : Rep m x X g) (hn : (f ++ g).Nodup) :
    AgreesW m f g v (setSub m v a s x) (Val.setSub V a s X) := by
  cases v with
  | atom b =>
    obtain ⟨e, _⟩ := hv.atom
    subst e
    cases b <;> exact AgreesW.fail
  | list q => obtain ⟨Vs, e⟩ := hv.isListVal; subst e; exact AgreesW.fail
  | dict q => obtain ⟨Vs, e⟩ := hv.isDictVal; subst e; exact AgreesW.fail
  | cont c =>
    obtain ⟨D, lc, e⟩ := hv.isContVal
    subst e
    obtain ⟨f', hc, hlc, hd, ef⟩ := hv.body
    unfold setSub Val.setSub
    dsimp only
    rw [hlc]
    cases hl : aget (lower a) lc with
    | none =>
      dsimp only
      rw [hx.isList]
      cases hX : X.isList with
      | true =>
        have := AgreesW.created (lc' := aset (lower a) a lc) (a := a) hv hn hx (cl := .list [])
          (start := .list m.length) (S := .list [])
          ⟨m.length, [], [], rfl, push_last _ _, ⟨rfl, rfl⟩, rfl⟩
          (by
            rintro M h ⟨r, vs, g, e, _, hg, eh⟩
            cases e
            rw [eh, hg.2])
          (out := assignSub (Mem.setBody (m ++ [.list []]) c (aset a (.list m.length) (m.data c))
            (aset (lower a) a lc)) (.list m.length) s x) (res := Scim.assignSub (.list []) s X)
          (by rintro M rfl hs hw hn'; exact assignSub_rep s hs hw hn')
        rw [if_pos rfl, if_pos rfl, if_pos rfl]
        cases hA : Scim.assignSub (.list []) s X with
        | error e => rw [hA] at this; exact this
        | ok W => rw [hA] at this; exact this
      | false =>
        have := AgreesW.created (lc' := aset (lower a) a lc) (a := a) hv hn hx (cl := .body [] [])
          (start := .cont m.length) (S := .emptyCont)
          ⟨m.length, [], [], rfl, push_last _ _, ⟨rfl, rfl⟩, rfl⟩
          (by
            rintro M h ⟨r, vs, g, e, _, hg, eh⟩
            cases e
            rw [eh, hg.2])
          (out := assignSub (Mem.setBody (m ++ [.body [] []]) c (aset a (.cont m.length) (m.data c))
            (aset (lower a) a lc)) (.cont m.length) s x) (res := Scim.assignSub .emptyCont s X)
          (by rintro M rfl hs hw hn'; exact assignSub_rep s hs hw hn')
        rw [if_neg nofun, if_neg nofun, if_neg nofun]
        cases hA : Scim.assignSub .emptyCont s X with
        | error e => rw [hA] at this; exact this
        | ok W => rw [hA] at this; exact this
    | some k =>
      dsimp only
      cases hk : aget k D with
      | none => rw [hd.none hk]; exact AgreesW.fail
      | some Cur =>
        obtain ⟨cur, f0, hcur, rcur, n0, up⟩ := AgreesW.inPlace hv hn hx.bound hk
        rw [hcur]
        dsimp only
        rw [canAssign_rep rcur hx]
        split
        · exact AgreesW.fail
        · have := up _ _ (assignSub_rep s rcur hx n0)
          cases hA : Scim.assignSub Cur s X with
          | error e => rw [hA] at this; exact this
          | ok W => rw [hA] at this; exact this

theorem setLocal_rep {m : Mem} {v x : HVal} {V X : Val} {f g : List Nat} (a s : Str) (hv : Rep m v V f)
    (hx : Rep m x X g) (hn : (f ++ g).Nodup) :
    AgreesW m f g v (setLocal m v a s x) (Val.setLocal V a s X) := by
  unfold setLocal Val.setLocal
  split
  · exact setPlain_rep a hv hx hn
  · exact setSub_rep a s hv hx hn

theorem setItem_rep {m : Mem} {v x : HVal} {V X : Val} {f g : List Nat} (r : AttrRep) (hv : Rep m v V f)
    (hx : Rep m x X g) (hn : (f ++ g).Nodup) :
    AgreesW m f g v (setItem m v r x) (Val.setItem V r X) := by
  cases v with
  | atom b =>
    obtain ⟨e, _⟩ := hv.atom
    subst e
    cases b <;> exact AgreesW.fail
  | list q => obtain ⟨Vs, e⟩ := hv.isListVal; subst e; exact AgreesW.fail
  | dict q => obtain ⟨Vs, e⟩ := hv.isDictVal; subst e; exact AgreesW.fail
  | cont c =>
    obtain ⟨D, lc, e⟩ := hv.isContVal
    subst e
    obtain ⟨f', hc, hlc, hd, ef⟩ := hv.body
    unfold setItem Val.setItem
    dsimp only
    split
    · rw [hlc]
      cases hl : aget (lower r.schema) lc with
      | none =>
        dsimp only
        have hdata : (Mem.setBody (m ++ [.body [] []]) c (aset r.schema (.cont m.length) (m.data c))
            (aset (lower r.schema) r.schema lc)).data c = aset r.schema (.cont m.length) (m.data c) := by
          have hc1 : (m ++ [Cell.body [] []])[c]? = some (.body (m.data c) lc) := by
            rw [List.getElem?_append_left (lt_of_cell hc)]; exact hc
          rw [setBody_eq hc1]
          show (match ((m ++ [Cell.body [] []]).set c _)[c]? with | some (.body d _) => d | _ => []) = _
          rw [set_self hc1]
        rw [hdata, aget_aset_self, aget_aset_self]
        dsimp only
        have := AgreesW.created (lc' := aset (lower r.schema) r.schema lc) (a := r.schema) hv hn hx
          (cl := .body [] []) (start := .cont m.length) (S := .emptyCont)
          ⟨m.length, [], [], rfl, push_last _ _, ⟨rfl, rfl⟩, rfl⟩
          (by
            rintro M h ⟨r, vs, g, e, _, hg, eh⟩
            cases e
            rw [eh, hg.2])
          (out := setLocal (Mem.setBody (m ++ [.body [] []]) c (aset r.schema (.cont m.length) (m.data c))
            (aset (lower r.schema) r.schema lc)) (.cont m.length) r.attr r.sub x)
          (res := Val.setLocal .emptyCont r.attr r.sub X)
          (by rintro M rfl hs hw hn'; exact setLocal_rep _ _ hs hw hn')
        cases hA : Val.setLocal .emptyCont r.attr r.sub X with
        | error e => rw [hA] at this; exact this
        | ok W => rw [hA] at this; exact this
      | some k =>
        dsimp only
        cases hk : aget r.schema D with
        | none => rw [hd.none hk]; exact AgreesW.fail
        | some Cur =>
          obtain ⟨cur, f0, hcur, rcur, n0, up⟩ := AgreesW.inPlace hv hn hx.bound hk
          rw [hcur]
          dsimp only
          have := up _ _ (setLocal_rep r.attr r.sub rcur hx n0)
          cases hA : Val.setLocal Cur r.attr r.sub X with
          | error e => rw [hA] at this; exact this
          | ok W => rw [hA] at this; exact this
    · exact setLocal_rep _ _ hv hx hn

/-! ## Deleting -/

theorem forM_repAll {g : Mem → HVal → Mem × PyM Unit} {G : Val → PyM Val} {P : Val → Prop}
    (hg : ∀ m v V f, Rep m v V f → f.Nodup → P V → AgreesW m f [] v (g m v) (G V)) :
    ∀ (Vs : List Val) (m : Mem) (vs : List HVal) (f : List Nat), RepAll m vs Vs f → f.Nodup →
      (∀ V ∈ Vs, P V) → AgreesWAll m f [] vs (forM g m vs) (mapE G Vs)
  | [], m, vs, f, h, hn, _ => by
    rw [h.1]
    exact ⟨⟨Nat.le_refl _, fun _ _ _ => rfl⟩, rfl, [], ⟨rfl, rfl⟩, List.nodup_nil,
      fun x hx => absurd hx List.not_mem_nil⟩
  | V :: Vs, m, vs, f, h, hn, hP => by
    obtain ⟨w, ws, f1, f2, e, hw, hws, ef⟩ := h
    subst ef e
    have n1 : f1.Nodup := (List.nodup_append.mp hn).1
    have n2 : f2.Nodup := (List.nodup_append.mp hn).2.1
    have bw := hw.bound
    have bws := hws.bound
    obtain ⟨⟨l1, fr1⟩, a1⟩ := hg m w V f1 hw n1 (hP V List.mem_cons_self)
    unfold mapE forM
    cases hG : G V with
    | error e =>
      rw [hG] at a1
      rw [andThen_error a1]
      exact ⟨⟨l1, fun x hx hx' => fr1 x hx fun h => hx' (List.mem_append_left _ h)⟩, rfl⟩
    | ok W =>
      rw [hG] at a1
      obtain ⟨e1, h1, r1, nd1, s1⟩ := a1
      rw [andThen_ok e1]
      generalize (g m w).1 = m1 at l1 fr1 r1
      have b1 := r1.bound
      have hws' : RepAll m1 ws Vs f2 := hws.frame fun x hx => fr1 x (bws x hx) (by
        clear r1 fr1 hw hws hg hP; foot)
      obtain ⟨⟨l2, fr2⟩, a2⟩ := forM_repAll hg Vs m1 ws f2 hws' n2 fun V h => hP V (List.mem_cons_of_mem _ h)
      refine ⟨⟨Nat.le_trans l1 l2, fun x hx hx' => ?_⟩, ?_⟩
      · rw [fr2 x (Nat.lt_of_lt_of_le hx l1) fun h => hx' (List.mem_append_right _ h)]
        exact fr1 x hx fun h => hx' (List.mem_append_left _ h)
      · dsimp only
        cases hE : mapE G Vs with
        | error e => rw [hE] at a2; exact a2
        | ok Ws =>
          rw [hE] at a2
          obtain ⟨e2, h2, r2, nd2, s2⟩ := a2
          refine ⟨e2, h1 ++ h2, ⟨w, ws, h1, h2, rfl, r1.frame fun x hx => fr2 x (b1 x hx) ?_, r2, rfl⟩, ?_, ?_⟩
          · have := s1 x hx
            clear hw hws hws' r1 r2 fr1 fr2 hg hP; foot
          · clear hw hws hws' r1 r2 fr1 fr2 hg hP hG hE; foot
          · intro x hx
            have a := s1 x
            have b := s2 x
            clear hw hws hws' r1 r2 fr1 fr2 hg hP s1 s2 hG hE
            foot

theorem delMap_mapE (r : AttrRep) : ∀ Vs : List Val, delMap Vs r = mapE (fun V => Val.delX false V r) Vs
  | [] => by unfold delMap mapE; rfl
  | V :: Vs => by
    unfold delMap mapE
    rw [delMap_mapE r Vs]
    cases Val.delX false V r with
    | error e => rfl
    | ok y => cases mapE (fun V => Val.delX false V r) Vs <;> rfl

theorem AgreesW.done {m : Mem} {f g : List Nat} {v : HVal} {V : Val} (h : Rep m v V f) (hn : f.Nodup) :
    AgreesW m f g v (m, .ok ()) (.ok V) :=
  ⟨⟨Nat.le_refl _, fun _ _ _ => rfl⟩, rfl, f, h, hn, fun _ hx => .inl hx⟩

theorem delX_rep : ∀ (n : Nat) (b : Bool) (m : Mem) (v : HVal) (V : Val) (f : List Nat) (r : AttrRep),
    Rep m v V f → f.Nodup → nest V < n → AgreesW m f [] v (delX n b m v r) (Val.delX b V r)
  | 0, b, m, v, V, f, r, h, hn, hl => by omega
  | n + 1, b, m, v, V, f, r, h, hn, hl => by
    cases v with
    | cont c =>
      obtain ⟨D, lc, e⟩ := h.isContVal
      subst e
      obtain ⟨g, hc, hlc, hd, ef⟩ := h.body
      have hl' : nestPairs D < n := by unfold nest at hl; omega
      have hn' : (f ++ []).Nodup := by rw [List.append_nil]; exact hn
      have look : ∀ b' k r', AgreesW m f [] (.cont c) (match aget k (m.data c) with
          | some x => delX n b' m x r'
          | none => (m, .error .keyError)) (match delAt b' k D r' with
            | .ok data' => .ok (.cont data' lc)
            | .error e => .error e) := by
        intro b' k r'
        rw [delAt_eq]
        cases hk : aget k D with
        | none => rw [hd.none hk]; exact AgreesW.fail
        | some V =>
          obtain ⟨x, f0, hx, rx, n0, up⟩ := AgreesW.inPlace h hn' (fun x hx => absurd hx List.not_mem_nil) hk
          rw [hx]
          rw [List.append_nil] at n0
          have := up _ _ (delX_rep n b' m x V f0 r' rx n0 (Nat.lt_of_le_of_lt (nest_of_aget hk) hl'))
          dsimp only
          cases hA : Val.delX b' V r' with
          | error e => rw [hA] at this; exact this
          | ok W => rw [hA] at this; exact this
      unfold delX Val.delX
      dsimp only
      rw [hlc]
      split
      · exact AgreesW.fail
      · cases aget (lower r.schema) lc with
        | some k => exact look _ _ _
        | none =>
          dsimp only
          cases aget (lower r.attr) lc with
          | none => exact AgreesW.done h hn
          | some k =>
            dsimp only
            by_cases hs : r.sub.isEmpty
            · rw [if_pos hs]
              cases hk : aget k D with
              | none => rw [hd.none hk]; exact AgreesW.fail
              | some V =>
                obtain ⟨x, _, _, _, hx, _⟩ := hd.look hk
                rw [hx]
                dsimp only
                rw [if_pos hs, setBody_eq hc]
                obtain ⟨g', r', s'⟩ := hd.del (k := k)
                subst ef
                have cn : c ∉ g' := fun hm => (List.nodup_cons.mp hn).1 (s'.subset hm)
                refine ⟨⟨by rw [List.length_set]; exact Nat.le_refl _, fun y _ hy => set_other fun e => hy ?_⟩,
                  rfl, c :: g', ⟨c, _, g', rfl, set_self hc, r'.frame fun y hy => set_other fun e => cn (e ▸ hy),
                  rfl⟩, ?_, ?_⟩
                · rw [e]; exact List.mem_cons_self
                · exact List.nodup_cons.mpr ⟨cn, (List.nodup_cons.mp hn).2.sublist s'⟩
                · intro y hy
                  rcases List.mem_cons.mp hy with e | hy
                  · rw [e]; exact .inl List.mem_cons_self
                  · exact .inl (List.mem_cons_of_mem _ (s'.subset hy))
            · rw [if_neg hs]
              have := look true k { attr := r.sub }
              cases hk : aget k (m.data c) with
              | none => rw [hk] at this; exact this
              | some x => rw [hk] at this; dsimp only; rw [if_neg hs]; exact this
    | list q =>
      obtain ⟨Vs, e⟩ := h.isListVal
      subst e
      obtain ⟨g, hc, ha, ef⟩ := h.items
      subst ef
      unfold delX Val.delX
      dsimp only
      cases b with
      | false => exact AgreesW.fail
      | true =>
        rw [if_pos rfl]
        dsimp only
        rw [ha.isEmpty]
        split
        · exact AgreesW.fail
        · rw [delMap_mapE]
          have qg := (List.nodup_cons.mp hn).1
          obtain ⟨⟨l1, fr⟩, all⟩ := forM_repAll (g := fun m x => delX n false m x r)
            (G := fun V => Val.delX false V r) (P := fun V => nest V < n)
            (fun m v V f h hn hP => delX_rep n false m v V f r h hn hP) Vs m (m.items q) g ha
            (List.nodup_cons.mp hn).2 (by
              intro V hV
              have := nest_le_all hV
              unfold nest at hl
              omega)
          refine ⟨⟨l1, fun x hx hx' => fr x hx fun h => hx' (List.mem_cons_of_mem _ h)⟩, ?_⟩
          cases hE : mapE (fun V => Val.delX false V r) Vs with
          | error e => rw [hE] at all; exact all
          | ok Ws =>
            rw [hE] at all
            obtain ⟨e1, h1, r1, n1, s1⟩ := all
            have bq := lt_of_cell hc
            refine ⟨e1, q :: h1, ⟨q, m.items q, h1, rfl, ?_, r1, rfl⟩, List.nodup_cons.mpr ⟨?_, n1⟩, ?_⟩
            · rw [fr q bq qg]; exact hc
            · intro hm
              rcases s1 q hm with h | h | h
              · exact qg h
              · exact absurd h List.not_mem_nil
              · omega
            · intro x hx
              rcases List.mem_cons.mp hx with e | hx
              · rw [e]; exact .inl List.mem_cons_self
              · rcases s1 x hx with h | h
                · exact .inl (List.mem_cons_of_mem _ h)
                · exact .inr h
    | atom a =>
      obtain ⟨e, ef⟩ := h.atom
      have hh := h
      subst e
      unfold delX
      dsimp only
      cases b with
      | false => cases a <;> (unfold Val.delX Scalar.toVal; exact AgreesW.fail)
      | true =>
        have := AgreesW.done (g := []) hh hn
        cases a <;> (unfold Val.delX Scalar.toVal; exact this)
    | dict q =>
      obtain ⟨Vs, e⟩ := h.isDictVal
      have hh := h
      subst e
      unfold delX
      dsimp only
      cases b with
      | false => unfold Val.delX; exact AgreesW.fail
      | true => unfold Val.delX; exact AgreesW.done hh hn

/-! ## Back to dictionaries -/

theorem dictPairs_map : ∀ D : List (Str × Val), dictPairs D = D.map fun p => (p.1, Scim.dictVal p.2)
  | [] => by unfold dictPairs; rfl
  | (k, V) :: D => by unfold dictPairs; rw [dictPairs_map D]; rfl

/-- One item of a list. -/
def dictOne : Val → Val
  | .cont data lc => Val.toDict (.cont data lc)
  | .dict kvs => .dict (dictShallow kvs)
  | v => v

theorem dictItems_map : ∀ Vs : List Val, dictItems Vs = Vs.map dictOne
  | [] => by unfold dictItems; rfl
  | V :: Vs => by
    rw [List.map_cons, ← dictItems_map Vs]
    cases V <;> simp [dictItems, dictOne, Val.toDict]

theorem dictShallow_map : ∀ D : List (Str × Val), dictShallow D = D.map fun p => (p.1, Val.toDict p.2)
  | [] => by unfold dictShallow; rfl
  | (k, V) :: D => by
    rw [List.map_cons, ← dictShallow_map D]
    cases V <;> simp [dictShallow, Val.toDict]

/-- A new dictionary of results. -/
theorem Agrees.newDict {m : Mem} {f : List Nat} {C : Prop} {out : Mem × PyM (List (Str × HVal))}
    {D : List (Str × Val)} (h : AgreesPairs m f C out D) (hp : m <+: out.1) {f' : List Nat}
    (hs : ∀ x ∈ f, x ∈ f') :
    Agrees m f' C (andThen out fun m1 d => (m1 ++ [.dict d], .ok (.dict m1.length))) (.ok (.dict D)) := by
  obtain ⟨vs, g, e, hr, hn, hf⟩ := h
  rw [andThen_ok e]
  have b := hr.bound
  refine ⟨_, out.1.length :: g, rfl, ⟨_, vs, g, rfl, push_last _ _, hr.later (List.prefix_append _ _), rfl⟩, ?_, ?_⟩
  · exact List.nodup_cons.mpr ⟨fun h => absurd (b _ h) (Nat.lt_irrefl _), hn⟩
  · intro x hx
    rcases List.mem_cons.mp hx with e | hx
    · rw [e]; exact .inr hp.length_le
    · rcases hf x hx with ⟨i, j⟩ | i
      · exact .inl ⟨hs x i, j⟩
      · exact .inr i

theorem Agrees.when {m : Mem} {f : List Nat} {C C' : Prop} {out : Mem × PyM HVal} {res : PyM Val}
    (h : Agrees m f C out res) (hC : C' → C) : Agrees m f C' out res := by
  cases res with
  | error e => exact h
  | ok V =>
    obtain ⟨v, g, e, hr, hn, hf⟩ := h
    refine ⟨v, g, e, hr, hn, fun x hx => ?_⟩
    rcases hf x hx with ⟨i, j⟩ | i
    · exact .inl ⟨i, fun k => j (hC k)⟩
    · exact .inr i

theorem toDict_rep : ∀ (n : Nat) (m : Mem) (c : Nat) (V : Val) (f : List Nat),
    Rep m (.cont c) V f → f.Nodup → nest V ≤ n →
    Agrees m f (tidy true V = true) (toDict n m (.cont c)) (.ok V.toDict)
  | 0, m, c, V, f, h, hn, hl => by
    obtain ⟨D, lc, e⟩ := h.isContVal
    subst e
    unfold nest at hl
    omega
  | n + 1, m, c, V, f, h, hn, hl => by
    obtain ⟨D, lc, e⟩ := h.isContVal
    subst e
    obtain ⟨g, hc, hlc, hd, ef⟩ := h.body
    have hl' : nestPairs D ≤ n := by unfold nest at hl; omega
    have ng : g.Nodup := by rw [ef] at hn; exact (List.nodup_cons.mp hn).2
    have member : ∀ m v V f, Rep m v V f → f.Nodup → nest V ≤ n →
        Agrees m f False (dictMember (toDict n) m v) (.ok V.toDict) := by
      intro m v V f h hn hl
      cases v with
      | cont c => exact (toDict_rep n m c V f h hn hl).when False.elim
      | atom a =>
        obtain ⟨e, ef⟩ := h.atom
        have : V.toDict = V := by subst e; cases a <;> (unfold Val.toDict; rfl)
        rw [this]
        exact Agrees.same h hn False.elim
      | list q =>
        obtain ⟨Vs, e⟩ := h.isListVal
        subst e
        have : (Val.list Vs).toDict = .list Vs := by unfold Val.toDict; rfl
        rw [this]
        exact Agrees.same h hn False.elim
      | dict q =>
        obtain ⟨Vs, e⟩ := h.isDictVal
        subst e
        have : (Val.dict Vs).toDict = .dict Vs := by unfold Val.toDict; rfl
        rw [this]
        exact Agrees.same h hn False.elim
    have item : ∀ m v V f, Rep m v V f → f.Nodup → nest V ≤ n →
        Agrees m f (V.isList = false ∧ tidy true V = true) (dictItem (toDict n) m v) (.ok (dictOne V)) := by
      intro m v V f h hn hl
      cases v with
      | cont c =>
        obtain ⟨D, lc, e⟩ := h.isContVal
        subst e
        exact (toDict_rep n m c _ f h hn hl).when And.right
      | atom a =>
        obtain ⟨e, ef⟩ := h.atom
        have : dictOne V = V := by subst e; cases a <;> rfl
        rw [this]
        exact Agrees.same h hn fun _ => ef
      | list q =>
        obtain ⟨Vs, e⟩ := h.isListVal
        subst e
        exact Agrees.same h hn fun k => by cases k.1
      | dict q =>
        obtain ⟨D, e⟩ := h.isDictVal
        subst e
        obtain ⟨g, hr, hd, ef⟩ := h.entries
        have hg : g.Nodup := by rw [ef] at hn; exact (List.nodup_cons.mp hn).2
        have all := mapM_repPairs (P := fun V => nest V ≤ n) (C := fun _ => False)
          (dictMember_prefix (toDict_prefix n)) member D m (m.entries q) g hd hg (by
            intro p hp
            have := nest_le_pairs hp
            unfold nest at hl
            omega)
        have := Agrees.newDict (f' := f) all
          (mapM_prefix (onEntry_prefix (dictMember_prefix (toDict_prefix n))) _ _)
          (fun x hx => by rw [ef]; exact List.mem_cons_of_mem _ hx)
        unfold dictOne
        dsimp only
        rw [dictShallow_map]
        exact this.when fun k => by have := k.2; unfold tidy at this; cases this
    have val : ∀ m v V f, Rep m v V f → f.Nodup → nest V ≤ n →
        Agrees m f (tidy true V = true) (dictVal (toDict n) m v) (.ok (Scim.dictVal V)) := by
      intro m v V f h hn hl
      cases v with
      | cont c =>
        obtain ⟨D, lc, e⟩ := h.isContVal
        subst e
        have := toDict_rep n m c _ f h hn hl
        unfold Scim.dictVal
        unfold Val.toDict at this
        exact this
      | atom a =>
        obtain ⟨e, ef⟩ := h.atom
        have : Scim.dictVal V = V := by subst e; cases a <;> (unfold Scim.dictVal; rfl)
        rw [this]
        exact Agrees.same h hn fun _ => ef
      | dict q =>
        obtain ⟨D, e⟩ := h.isDictVal
        subst e
        have : Scim.dictVal (.dict D) = .dict D := by unfold Scim.dictVal; rfl
        rw [this]
        exact Agrees.same h hn fun k => by unfold tidy at k; cases k
      | list q =>
        obtain ⟨Vs, e⟩ := h.isListVal
        subst e
        obtain ⟨g, hr, ha, ef⟩ := h.items
        have hg : g.Nodup := by rw [ef] at hn; exact (List.nodup_cons.mp hn).2
        have all := mapM_repAll (G := fun V => .ok (dictOne V)) (P := fun V => nest V ≤ n)
          (C := fun V => V.isList = false ∧ tidy true V = true)
          (dictItem_prefix (toDict_prefix n)) item Vs m (m.items q) g ha hg (by
            intro V hV
            have := nest_le_all hV
            unfold nest at hl
            omega)
        rw [mapE_ok] at all
        have := Agrees.newList (f' := f) all (mapM_prefix (dictItem_prefix (toDict_prefix n)) _ _)
          (fun x hx => by rw [ef]; exact List.mem_cons_of_mem _ hx)
        unfold Scim.dictVal
        rw [dictItems_map]
        exact this.when fun k => by unfold tidy at k; exact tidyItems_iff.mp k
    have all := mapM_repPairs (P := fun V => nest V ≤ n) (C := fun V => tidy true V = true)
      (dictVal_prefix (toDict_prefix n)) val D m (m.data c) g hd ng
      (fun p hp => Nat.le_trans (nest_le_pairs hp) hl')
    have := Agrees.newDict (f' := f) all
      (mapM_prefix (onEntry_prefix (dictVal_prefix (toDict_prefix n))) _ _)
      (fun x hx => by rw [ef]; exact List.mem_cons_of_mem _ hx)
    unfold toDict Val.toDict
    dsimp only
    rw [dictPairs_map]
    exact this.when fun k => by unfold tidy at k; exact tidyPairs_iff.mp k

end Scim.Shared
