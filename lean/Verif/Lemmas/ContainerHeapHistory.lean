import Verif.Lemmas.ContainerHeapOps

/-!
# Histories of changes in memory
-/

namespace Scim.Shared
variable [PyEnv]

mutual
theorem make_prefix : ∀ (V : Val) (m : Mem), m <+: (make m V).1
  | .list xs, m => by
    unfold make; exact (makeAll_prefix xs m).trans (List.prefix_append _ _)
  | .dict D, m => by
    unfold make; exact (makePairs_prefix D m).trans (List.prefix_append _ _)
  | .cont D lc, m => by
    unfold make; exact (makePairs_prefix D m).trans (List.prefix_append _ _)
  | .prim p, m => by unfold make; exact List.prefix_refl m
  | .missing, m => by unfold make; exact List.prefix_refl m
  | .invalid, m => by unfold make; exact List.prefix_refl m
  | .dt d, m => by unfold make; exact List.prefix_refl m
  | .obj o, m => by unfold make; exact List.prefix_refl m
theorem makeAll_prefix : ∀ (Vs : List Val) (m : Mem), m <+: (makeAll m Vs).1
  | [], m => by unfold makeAll; exact List.prefix_refl m
  | V :: Vs, m => by unfold makeAll; exact (make_prefix V m).trans (makeAll_prefix Vs _)
theorem makePairs_prefix : ∀ (D : List (Str × Val)) (m : Mem), m <+: (makePairs m D).1
  | [], m => by unfold makePairs; exact List.prefix_refl m
  | (k, V) :: D, m => by unfold makePairs; exact (make_prefix V m).trans (makePairs_prefix D _)
end

mutual
theorem make_rep : ∀ (V : Val) (m : Mem), ∃ f, Rep (make m V).1 (make m V).2 V f ∧ f.Nodup ∧
    ∀ x ∈ f, m.length ≤ x
  | .list xs, m => by
    obtain ⟨f, hr, hn, hf⟩ := makeAll_rep xs m
    have b := hr.bound
    have p := (makeAll_prefix xs m).length_le
    unfold make
    refine ⟨(makeAll m xs).1.length :: f, ⟨_, _, f, rfl, push_last _ _, hr.later (List.prefix_append _ _), rfl⟩,
      List.nodup_cons.mpr ⟨fun h => absurd (b _ h) (Nat.lt_irrefl _), hn⟩, fun x hx => ?_⟩
    rcases List.mem_cons.mp hx with e | hx
    · rw [e]; exact p
    · exact hf x hx
  | .dict xs, m => by
    obtain ⟨f, hr, hn, hf⟩ := makePairs_rep xs m
    have b := hr.bound
    have p := (makePairs_prefix xs m).length_le
    unfold make
    refine ⟨(makePairs m xs).1.length :: f, ⟨_, _, f, rfl, push_last _ _, hr.later (List.prefix_append _ _), rfl⟩,
      List.nodup_cons.mpr ⟨fun h => absurd (b _ h) (Nat.lt_irrefl _), hn⟩, fun x hx => ?_⟩
    rcases List.mem_cons.mp hx with e | hx
    · rw [e]; exact p
    · exact hf x hx
  | .cont xs lc, m => by
    obtain ⟨f, hr, hn, hf⟩ := makePairs_rep xs m
    have b := hr.bound
    have p := (makePairs_prefix xs m).length_le
    unfold make
    refine ⟨(makePairs m xs).1.length :: f, ⟨_, _, f, rfl, push_last _ _, hr.later (List.prefix_append _ _), rfl⟩,
      List.nodup_cons.mpr ⟨fun h => absurd (b _ h) (Nat.lt_irrefl _), hn⟩, fun x hx => ?_⟩
    rcases List.mem_cons.mp hx with e | hx
    · rw [e]; exact p
    · exact hf x hx
  | .prim p, m => by unfold make; exact ⟨[], ⟨rfl, rfl⟩, List.nodup_nil, fun x hx => absurd hx List.not_mem_nil⟩
  | .missing, m => by unfold make; exact ⟨[], ⟨rfl, rfl⟩, List.nodup_nil, fun x hx => absurd hx List.not_mem_nil⟩
  | .invalid, m => by unfold make; exact ⟨[], ⟨rfl, rfl⟩, List.nodup_nil, fun x hx => absurd hx List.not_mem_nil⟩
  | .dt d, m => by unfold make; exact ⟨[], ⟨rfl, rfl⟩, List.nodup_nil, fun x hx => absurd hx List.not_mem_nil⟩
  | .obj o, m => by unfold make; exact ⟨[], ⟨rfl, rfl⟩, List.nodup_nil, fun x hx => absurd hx List.not_mem_nil⟩
theorem makeAll_rep : ∀ (Vs : List Val) (m : Mem), ∃ f, RepAll (makeAll m Vs).1 (makeAll m Vs).2 Vs f ∧
    f.Nodup ∧ ∀ x ∈ f, m.length ≤ x
  | [], m => by
    unfold makeAll; exact ⟨[], ⟨rfl, rfl⟩, List.nodup_nil, fun x hx => absurd hx List.not_mem_nil⟩
  | V :: Vs, m => by
    obtain ⟨f, hr, hn, hf⟩ := make_rep V m
    obtain ⟨g, hr', hn', hg⟩ := makeAll_rep Vs (make m V).1
    have b := hr.bound
    have p := (make_prefix V m).length_le
    unfold makeAll
    refine ⟨f ++ g, ⟨_, _, f, g, rfl, hr.later (makeAll_prefix Vs _), hr', rfl⟩, ?_, ?_⟩
    · clear hr hr'; foot
    · clear hr hr'; foot
theorem makePairs_rep : ∀ (D : List (Str × Val)) (m : Mem), ∃ f,
    RepPairs (makePairs m D).1 (makePairs m D).2 D f ∧ f.Nodup ∧ ∀ x ∈ f, m.length ≤ x
  | [], m => by
    unfold makePairs; exact ⟨[], ⟨rfl, rfl⟩, List.nodup_nil, fun x hx => absurd hx List.not_mem_nil⟩
  | (k, V) :: D, m => by
    obtain ⟨f, hr, hn, hf⟩ := make_rep V m
    obtain ⟨g, hr', hn', hg⟩ := makePairs_rep D (make m V).1
    have b := hr.bound
    have p := (make_prefix V m).length_le
    unfold makePairs
    refine ⟨f ++ g, ⟨_, _, f, g, rfl, hr.later (makePairs_prefix D _), hr', rfl⟩, ?_, ?_⟩
    · clear hr hr'; foot
    · clear hr hr'; foot
end

mutual
theorem tidy_convVal : ∀ V : Val, tidy false V = true → tidy true (Scim.convVal V) = true
  | .dict D, h => by
    unfold tidy at h
    unfold Scim.convVal tidy
    exact tidy_convPairs D h
  | .list xs, h => by
    unfold tidy at h
    unfold Scim.convVal tidy
    exact tidy_convItems xs h
  | .cont D lc, h => by unfold tidy at h; cases h
  | .prim p, _ => by unfold Scim.convVal tidy; rfl
  | .missing, _ => by unfold Scim.convVal tidy; rfl
  | .invalid, _ => by unfold Scim.convVal tidy; rfl
  | .dt d, _ => by unfold Scim.convVal tidy; rfl
  | .obj o, _ => by unfold Scim.convVal tidy; rfl
theorem tidy_convPairs : ∀ D : List (Str × Val), tidyPairs false D = true →
    tidyPairs true (convPairs D) = true
  | [], _ => by unfold convPairs tidyPairs; rfl
  | (k, V) :: D, h => by
    unfold tidyPairs at h
    rw [Bool.and_eq_true] at h
    unfold convPairs tidyPairs
    rw [tidy_convVal V h.1, tidy_convPairs D h.2]
    rfl
theorem tidy_convItems : ∀ Vs : List Val, tidyItems false Vs = true →
    tidyItems true (convItems Vs) = true
  | [], _ => by unfold convItems tidyItems; rfl
  | V :: Vs, h => by
    unfold tidyItems at h
    rw [Bool.and_eq_true, Bool.and_eq_true] at h
    have ih := tidy_convItems Vs h.2
    cases V with
    | dict D =>
      have h1 := h.1.2
      unfold tidy at h1
      have := tidy_convPairs D h1
      simp [convItems, tidyItems, tidy, this, ih, Val.isList]
    | list xs => exact absurd h.1.1 (by simp [Val.isList])
    | cont D lc => have := h.1.2; unfold tidy at this; cases this
    | prim p => simp [convItems, tidyItems, tidy, ih, Val.isList]
    | missing => simp [convItems, tidyItems, tidy, ih, Val.isList]
    | invalid => simp [convItems, tidyItems, tidy, ih, Val.isList]
    | dt d => simp [convItems, tidyItems, tidy, ih, Val.isList]
    | obj o => simp [convItems, tidyItems, tidy, ih, Val.isList]
end

mutual
theorem nest_convVal : ∀ V : Val, nest (Scim.convVal V) = nest V
  | .dict D => by
    unfold Scim.convVal nest
    rw [nest_convPairs D]
  | .list xs => by
    unfold Scim.convVal nest
    rw [nest_convItems xs]
  | .cont D lc => by unfold Scim.convVal; rfl
  | .prim p => by unfold Scim.convVal; rfl
  | .missing => by unfold Scim.convVal; rfl
  | .invalid => by unfold Scim.convVal; rfl
  | .dt d => by unfold Scim.convVal; rfl
  | .obj o => by unfold Scim.convVal; rfl
theorem nest_convPairs : ∀ D : List (Str × Val), nestPairs (convPairs D) = nestPairs D
  | [] => by unfold convPairs; rfl
  | (k, V) :: D => by
    unfold convPairs nestPairs
    rw [nest_convVal V, nest_convPairs D]
theorem nest_convItems : ∀ Vs : List Val, nestAll (convItems Vs) = nestAll Vs
  | [] => by unfold convItems; rfl
  | V :: Vs => by
    have ih := nest_convItems Vs
    cases V with
    | dict D =>
      have := nest_convPairs D
      simp [convItems, nestAll, nest, this, ih]
    | list xs => simp [convItems, nestAll, nest, ih]
    | cont D lc => simp [convItems, nestAll, nest, ih]
    | prim p => simp [convItems, nestAll, nest, ih]
    | missing => simp [convItems, nestAll, nest, ih]
    | invalid => simp [convItems, nestAll, nest, ih]
    | dt d => simp [convItems, nestAll, nest, ih]
    | obj o => simp [convItems, nestAll, nest, ih]
end

theorem nest_toCont (D : List (Str × Val)) : nest (Val.toCont (.dict D)) = nest (.dict D) := by
  unfold Val.toCont nest
  rw [nest_convPairs D]

variable {S : Nat → Prop}

/-- A new value shares nothing with the objects in `S`. -/
theorem make_off (V : Val) {m : Mem} (hg : Guarded S m) : Off S (make m V).2 := by
  obtain ⟨f, hr, _, hf⟩ := make_rep V m
  intro r hr' e
  rw [e] at hr
  obtain ⟨Vs, eV⟩ := hr.isListVal
  subst eV
  obtain ⟨g, _, _, ef⟩ := hr.items
  have := hf r (by rw [ef]; exact List.mem_cons_self)
  have := (hg r hr').1
  omega

mutual
theorem make_kept : ∀ (V : Val) (m : Mem), Guarded S m → Kept S m (make m V).1
  | .list xs, m, hg => by
    have k := makeAll_kept xs m hg
    unfold make; exact k.trans (Kept.push k.1 _ nofun)
  | .dict D, m, hg => by
    have k := makePairs_kept D m hg
    unfold make; exact k.1.trans (Kept.push k.1.1 _ nofun)
  | .cont D lc, m, hg => by
    have k := makePairs_kept D m hg
    unfold make
    refine k.1.trans (Kept.push k.1.1 _ ?_)
    intro d l e key r hr hm
    cases e
    exact k.2 _ hm r hr rfl
  | .prim p, m, hg => by unfold make; exact Kept.refl hg
  | .missing, m, hg => by unfold make; exact Kept.refl hg
  | .invalid, m, hg => by unfold make; exact Kept.refl hg
  | .dt d, m, hg => by unfold make; exact Kept.refl hg
  | .obj o, m, hg => by unfold make; exact Kept.refl hg
theorem makeAll_kept : ∀ (Vs : List Val) (m : Mem), Guarded S m → Kept S m (makeAll m Vs).1
  | [], m, hg => by unfold makeAll; exact Kept.refl hg
  | V :: Vs, m, hg => by
    have k := make_kept V m hg
    unfold makeAll; exact k.trans (makeAll_kept Vs _ k.1)
theorem makePairs_kept : ∀ (D : List (Str × Val)) (m : Mem), Guarded S m →
    Kept S m (makePairs m D).1 ∧ ∀ p ∈ (makePairs m D).2, Off S p.2
  | [], m, hg => by unfold makePairs; exact ⟨Kept.refl hg, fun p hp => absurd hp List.not_mem_nil⟩
  | (key, V) :: D, m, hg => by
    have k := make_kept V m hg
    have k' := makePairs_kept D _ k.1
    unfold makePairs
    refine ⟨k.trans k'.1, fun p hp => ?_⟩
    rcases List.mem_cons.mp hp with e | hp
    · rw [e]; exact make_off V hg
    · exact k'.2 p hp
end

theorem RepAll.list_mem {m : Mem} {r : Nat} : ∀ {Vs : List Val} {vs : List HVal} {f : List Nat},
    RepAll m vs Vs f → HVal.list r ∈ vs → r ∈ f
  | [], vs, f, h, hm => by rw [h.1] at hm; exact absurd hm List.not_mem_nil
  | V :: Vs, vs, f, h, hm => by
    obtain ⟨w, ws, f1, f2, e, h1, h2, ef⟩ := h
    rw [e] at hm
    rw [ef]
    rcases List.mem_cons.mp hm with e | hm
    · rw [← e] at h1
      obtain ⟨Vs, eV⟩ := h1.isListVal
      subst eV
      obtain ⟨g, _, _, ef⟩ := h1.items
      rw [ef]
      exact List.mem_append_left _ List.mem_cons_self
    · exact List.mem_append_right _ (h2.list_mem hm)

theorem make_careful (V : Val) {m : Mem} (hg : Guarded S m) : ¬ HandsOver S (make m V).1 (make m V).2 := by
  rintro ⟨q, e, h⟩
  rcases h with h | ⟨r, hr, hm⟩
  · exact make_off V hg q h e
  · obtain ⟨f, hrep, _, hf⟩ := make_rep V m
    rw [e] at hrep
    obtain ⟨Vs, eV⟩ := hrep.isListVal
    subst eV
    obtain ⟨g, _, ha, ef⟩ := hrep.items
    have := hf r (by rw [ef]; exact List.mem_cons_of_mem _ (ha.list_mem hm))
    have := (hg r hr).1
    omega

theorem andThen_keptOnly {α β : Type} {m : Mem} {out : Mem × PyM α} {k : Mem → α → Mem × PyM β}
    (h1 : Kept S m out.1) (h2 : ∀ m1 x, Kept S m m1 → Kept S m1 (k m1 x).1) : Kept S m (andThen out k).1 := by
  unfold andThen
  split
  · exact h1.trans (h2 _ _ h1)
  · exact h1

theorem editMem_kept (n : Nat) (c : HVal) : ∀ (es : List Edit) (m : Mem), Guarded S m →
    Kept S m (editMem n m c es).1
  | [], m, hg => Kept.refl hg
  | .write r V :: es, m, hg => by
    have k := make_kept V m hg
    unfold editMem
    exact k.trans (andThen_keptOnly (setItem_kept k.1 c r (make_careful V hg))
      fun m1 _ k1 => editMem_kept n c es m1 k1.1)
  | .erase r :: es, m, hg => by
    unfold editMem
    exact andThen_keptOnly (delX_kept n _ _ _ _ hg) fun m1 _ k1 => editMem_kept n c es m1 k1.1

theorem editMem_rep : ∀ (es : List Edit) (V : Val), ∃ N, ∀ n, N ≤ n → ∀ (c : HVal) (m : Mem) (f : List Nat),
    Rep m c V f → f.Nodup →
    (∀ W, editVal V es = .ok W → (editMem n m c es).2 = .ok () ∧
      ∃ g, Rep (editMem n m c es).1 c W g ∧ g.Nodup) ∧
    (∀ e, editVal V es = .error e → (editMem n m c es).2 = .error e)
  | [], V => ⟨0, fun n _ c m f h hn => ⟨fun W e => by cases e; exact ⟨rfl, f, h, hn⟩, fun e h => by cases h⟩⟩
  | .write r X :: es, V => by
    have step : ∀ c m f, Rep m c V f → f.Nodup → AgreesW (make m X).1 f
        ((make_rep X m).choose) c (setItem (make m X).1 c r (make m X).2) (V.setItem r X) := by
      intro c m f h hn
      have sp := (make_rep X m).choose_spec
      have b := h.bound
      refine setItem_rep r (h.later (make_prefix X m)) sp.1 ?_
      generalize (make_rep X m).choose = g at sp
      obtain ⟨s1, s2, s3⟩ := sp
      clear s1 h
      foot
    cases hV : V.setItem r X with
    | error e =>
      refine ⟨0, fun n _ c m f h hn => ⟨fun W hW => ?_, fun e' he => ?_⟩⟩
      · unfold editVal at hW; rw [hV] at hW; cases hW
      · have := (step c m f h hn).2
        rw [hV] at this
        unfold editVal at he
        rw [hV] at he
        cases he
        unfold editMem
        rw [andThen_error this]
    | ok V' =>
      obtain ⟨N, ih⟩ := editMem_rep es V'
      refine ⟨N, fun n hN c m f h hn => ?_⟩
      have := (step c m f h hn).2
      rw [hV] at this
      obtain ⟨e1, g, r1, n1, _⟩ := this
      unfold editMem editVal
      rw [hV, andThen_ok e1]
      exact ih n hN c _ g r1 n1
  | .erase r :: es, V => by
    cases hV : V.delItem r with
    | error e =>
      refine ⟨nest V + 1, fun n hn c m f h hf => ⟨fun W hW => ?_, fun e' he => ?_⟩⟩
      · unfold editVal at hW; rw [hV] at hW; cases hW
      · have := (delX_rep n false m c V f r h hf (by omega)).2
        rw [show Val.delX false V r = V.delItem r from rfl, hV] at this
        unfold editVal at he
        rw [hV] at he
        cases he
        unfold editMem
        rw [andThen_error (out := delItem n m c r) this]
    | ok V' =>
      obtain ⟨N, ih⟩ := editMem_rep es V'
      refine ⟨max N (nest V + 1), fun n hN c m f h hn => ?_⟩
      have := (delX_rep n false m c V f r h hn (by omega)).2
      rw [show Val.delX false V r = V.delItem r from rfl, hV] at this
      obtain ⟨e1, g, r1, n1, _⟩ := this
      unfold editMem editVal
      rw [hV, andThen_ok (out := delItem n m c r) e1]
      exact ih n (by omega) c _ g r1 n1

end Scim.Shared
