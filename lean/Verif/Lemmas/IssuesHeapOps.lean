import Verif.Lemmas.IssuesHeap

/-! `merge`, `get` and `pop` on issue collections that share lists and sets. -/

namespace Scim
namespace Heap

theorem unionCodes_nil (a : List Nat) : Issues.unionCodes a [] = a := rfl

/-- One round of `merge` with an unrelated argument whose lookup succeeds. -/
theorem mergeOne_ok {h : Heap} {org} (hi : h.Inv org) {o a : Nat} (ho : o < h.size) (ha : a < h.size)
    (hne : org[o]? ≠ org[a]?) (hauto : h.isAuto o = true) (loc : Loc) {l : Loc} {r : Nat}
    (hr : aget l (h.issues.tab a) = some r)
    (hok : h.isAuto a = true ∨ (aget l (h.stop.val a)).isSome) :
    (h.mergeOne o a loc l r).2 = .ok ()
      ∧ (h.mergeOne o a loc l r).1.issues.val o = Issues.extendAt (loc ++ l) (h.issues.cell r) (h.issues.val o)
      ∧ (h.mergeOne o a loc l r).1.stop.val o
          = Issues.updateAt (loc ++ l) ((aget l (h.stop.val a)).getD []) (h.stop.val o)
      ∧ (h.mergeOne o a loc l r).1.stop.val a = Issues.updateAt l [] (h.stop.val a) := by
  have hoa : o ≠ a := fun e => hne (by rw [e])
  unfold mergeOne
  rcases extendIssues_cases hi ho (loc ++ l) (fun s => s.cell r) with ⟨s, q, hf, he, -⟩ | ⟨hna, -, -⟩
  rotate_left
  · rw [hauto] at hna; cases hna
  rw [he]
  dsimp only
  obtain ⟨-, hv1, -⟩ := extendIssues_spec hi hf (s.cell q ++ s.cell r)
  have hrb : r < h.issues.cells.length := hi.issues.bound a _ (mem_of_aget hr)
  have hv : (s.write q (s.cell q ++ s.cell r)).val o
      = Issues.extendAt (loc ++ l) (h.issues.cell r) (h.issues.val o) := by
    rw [hv1, hf.cell, hf.old r hrb]; rfl
  have ha1 : ∀ k, isAuto { h with issues := s.write q (s.cell q ++ s.cell r) } k = h.isAuto k := fun _ => rfl
  rw [ha1, ha1]
  rcases Store.fetch_cases hi.stop (h.isAuto o) (hi.lt_stop ho) (loc ++ l) with ⟨s2, r2, e2, hf2, -⟩ | ⟨hna, -, -⟩
  rotate_left
  · rw [hauto] at hna; cases hna
  rw [e2]
  dsimp only
  have hal : a < s2.tabs.length := by rw [hf2.size]; exact hi.lt_stop ha
  have hva : s2.val a = h.stop.val a := hf2.vals a (fun e => hoa e.symm)
  rcases Store.fetch_cases hf2.inv (h.isAuto a) hal l with ⟨s3, r3, e3, hf3, -⟩ | ⟨hna, hnn, -⟩
  rotate_left
  · rw [hva] at hnn
    rcases hok with hok | hok
    · rw [hna] at hok; cases hok
    · rw [hnn] at hok; cases hok
  rw [e3]
  dsimp only
  have hb2 : r2 < s2.cells.length := hf2.inv.bound o _ (mem_of_aget hf2.here)
  have hmine : s3.cell r2 = (aget (loc ++ l) (h.stop.val o)).getD [] := by rw [hf3.old r2 hb2, hf2.cell]
  have htheirs : s3.cell r3 = (aget l (h.stop.val a)).getD [] := by rw [hf3.cell, hva]
  have hhere : aget (loc ++ l) (s3.tab o) = some r2 := by rw [hf3.tabs o hoa]; exact hf2.here
  refine ⟨rfl, hv, ?_, ?_⟩
  · rw [Store.val_write hf3.inv hhere, hmine, htheirs, hf3.vals o hoa, hf2.val, Store.aset_aset']
    rfl
  · rw [Store.val_write_other, hf3.val, hva]
    · rfl
    · intro p hp
      exact hf3.inv.apart a o (fun e => hne e.symm) p hp _ (mem_of_aget hhere)

/-- One round of `merge` with an unrelated view as argument that has no blocking entry for the location. -/
theorem mergeOne_raise {h : Heap} {org} (hi : h.Inv org) {o a : Nat} (ho : o < h.size) (ha : a < h.size)
    (hne : org[o]? ≠ org[a]?) (loc : Loc) {l : Loc} {r : Nat}
    (hna : h.isAuto a = false) (hnn : aget l (h.stop.val a) = none) :
    (h.mergeOne o a loc l r).2 = .error .keyError := by
  have hoa : o ≠ a := fun e => hne (by rw [e])
  unfold mergeOne
  rcases extendIssues_cases hi ho (loc ++ l) (fun s => s.cell r) with ⟨s, q, hf, he, -⟩ | ⟨-, -, he⟩
  rotate_left
  · rw [he]
  rw [he]
  dsimp only
  have ha1 : ∀ k, isAuto { h with issues := s.write q (s.cell q ++ s.cell r) } k = h.isAuto k := fun _ => rfl
  rw [ha1, ha1]
  rcases Store.fetch_cases hi.stop (h.isAuto o) (hi.lt_stop ho) (loc ++ l) with ⟨s2, r2, e2, hf2, -⟩ | ⟨-, -, e2⟩
  rotate_left
  · rw [e2]
  rw [e2]
  dsimp only
  have hal : a < s2.tabs.length := by rw [hf2.size]; exact hi.lt_stop ha
  have hva : s2.val a = h.stop.val a := hf2.vals a (fun e => hoa e.symm)
  rcases Store.fetch_cases hf2.inv (h.isAuto a) hal l with ⟨s3, r3, e3, hf3, hc⟩ | ⟨-, -, e3⟩
  · rw [hva] at hc
    rcases hc with hc | hc
    · rw [hna] at hc; cases hc
    · rw [hnn] at hc; cases hc
  · rw [e3]

theorem updateAt_present {l : Loc} {m : List (Loc × List Nat)} (h : (aget l m).isSome) :
    Issues.updateAt l [] m = m := by
  unfold Issues.updateAt
  rw [unionCodes_nil]
  cases hc : aget l m with
  | none => rw [hc] at h; cases h
  | some v => rw [Option.getD_some]; exact Store.aset_same hc

theorem getD_updateAt (l l' : Loc) (m : List (Loc × List Nat)) :
    (aget l' (Issues.updateAt l [] m)).getD [] = (aget l' m).getD [] := by
  unfold Issues.updateAt
  rw [unionCodes_nil, aget_aset]
  split
  · rename_i e; rw [e]; rfl
  · rfl

/-- The loop of `merge` with an unrelated argument. -/
theorem mergeLoop_spec {org : List Nat} (n o a : Nat) (loc : Loc) (fuel i : Nat) (h : Heap) (hi : h.Inv org)
    (ho : o < h.size) (ha : a < h.size) (hne : org[o]? ≠ org[a]?) (hauto : h.isAuto o = true)
    (V : List (Loc × List VErr)) (hV : h.issues.val a = V) (hn : n = V.length) (hfuel : fuel + i = n + 1)
    (ST : List (Loc × List Nat)) (hst : ∀ l, (aget l (h.stop.val a)).getD [] = (aget l ST).getD []) :
    ((h.isAuto a = true ∨ ∀ p ∈ V.drop i, (aget p.1 (h.stop.val a)).isSome) →
      (mergeLoop n o a loc fuel i h).2 = .ok ()
        ∧ (mergeLoop n o a loc fuel i h).1.val o = Issues.mergeLoop ST loc (h.val o) (V.drop i)
        ∧ (mergeLoop n o a loc fuel i h).1.stop.val a
            = (V.drop i).foldl (fun m p => Issues.updateAt p.1 [] m) (h.stop.val a))
    ∧ ((h.isAuto a = false ∧ ∃ p ∈ V.drop i, aget p.1 (h.stop.val a) = none) →
      (mergeLoop n o a loc fuel i h).2 = .error .keyError) := by
  induction fuel generalizing i h with
  | zero =>
    have hd : V.drop i = [] := List.drop_eq_nil_of_le (by omega)
    rw [hd]
    refine ⟨fun _ => ⟨rfl, rfl, rfl⟩, ?_⟩
    rintro ⟨-, p, hp, -⟩
    exact absurd hp List.not_mem_nil
  | succ fuel ih =>
    have hlen : (h.issues.tab a).length = n := by
      rw [hn, ← hV]; simp [Store.val]
    unfold mergeLoop
    rw [if_neg (fun hc => hc hlen)]
    cases hg : (h.issues.tab a)[i]? with
    | none =>
      have hd : V.drop i = [] := by
        apply List.drop_eq_nil_of_le
        have := List.getElem?_eq_none_iff.1 hg
        omega
      rw [hd]
      refine ⟨fun _ => ⟨rfl, rfl, rfl⟩, ?_⟩
      rintro ⟨-, p, hp, -⟩
      exact absurd hp List.not_mem_nil
    | some lr =>
      obtain ⟨l, r⟩ := lr
      dsimp only
      have hmem : (l, r) ∈ h.issues.tab a := List.mem_of_getElem? hg
      have hr : aget l (h.issues.tab a) = some r := aget_of_mem (hi.issues.keys a) hmem
      have hVi : V[i]? = some (l, h.issues.cell r) := by
        rw [← hV]; unfold Store.val; rw [List.getElem?_map, hg]; rfl
      have hil : i < V.length := (List.getElem?_eq_some_iff.1 hVi).1
      have hdrop : V.drop i = (l, h.issues.cell r) :: V.drop (i + 1) := by
        rw [List.drop_eq_getElem_cons hil, (List.getElem?_eq_some_iff.1 hVi).2]
      obtain ⟨f1, f2, f3, -, -⟩ := mergeOne_frame hi ho ha loc l r
      by_cases hok : h.isAuto a = true ∨ (aget l (h.stop.val a)).isSome
      · obtain ⟨g1, g2, g3, g4⟩ := mergeOne_ok hi ho ha hne hauto loc hr hok
        cases hm : h.mergeOne o a loc l r with
        | mk h' res =>
          rw [hm] at f1 f2 f3 g1 g2 g3 g4
          dsimp only at f1 f2 f3 g1 g2 g3 g4
          subst g1
          dsimp only
          have hia : ∀ k, h'.isAuto k = h.isAuto k := by intro k; unfold isAuto; rw [f2]
          have hst' : ∀ l, (aget l (h'.stop.val a)).getD [] = (aget l ST).getD [] := by
            intro l'; rw [g4, getD_updateAt]; exact hst l'
          have hsize := size_of_auto f2
          obtain ⟨k1, k2⟩ := ih (i + 1) h' f1 (by rw [hsize]; exact ho) (by rw [hsize]; exact ha) (by rw [hia]; exact hauto)
            (by rw [f3 a (fun e => hne e.symm)]; exact hV) (by omega) hst'
          rw [hia] at k1 k2
          rw [hdrop]
          constructor
          · intro hall
            have hall' : h.isAuto a = true ∨ ∀ p ∈ V.drop (i + 1), (aget p.1 (h'.stop.val a)).isSome := by
              rcases hall with hall | hall
              · exact .inl hall
              · refine .inr fun p hp => ?_
                have h1 := hall (l, h.issues.cell r) (List.mem_cons_self ..)
                rw [g4, updateAt_present h1]
                exact hall p (List.mem_cons_of_mem _ hp)
            obtain ⟨m1, m2, m3⟩ := k1 hall'
            refine ⟨m1, ?_, ?_⟩
            · rw [m2]
              unfold Issues.mergeLoop
              rw [List.foldl_cons]
              congr 1
              unfold val
              rw [g2, g3, hst l]
            · rw [m3, g4, List.foldl_cons]
          · rintro ⟨hna, p, hp, hpn⟩
            apply k2
            refine ⟨hna, p, ?_, ?_⟩
            · rcases List.mem_cons.1 hp with rfl | hp
              · exfalso
                rcases hok with hok | hok
                · rw [hna] at hok; cases hok
                · rw [hpn] at hok; cases hok
              · exact hp
            · rw [g4, updateAt_present, hpn]
              rcases hok with hok | hok
              · rw [hna] at hok; cases hok
              · exact hok
      · have hna : h.isAuto a = false := by
          cases hc : h.isAuto a with
          | true => exact absurd (.inl hc) hok
          | false => rfl
        have hnn : aget l (h.stop.val a) = none := by
          cases hc : aget l (h.stop.val a) with
          | none => rfl
          | some v => exact absurd (.inr (by rw [hc]; rfl)) hok
        have hraise := mergeOne_raise (r := r) hi ho ha hne loc hna hnn
        cases hm : h.mergeOne o a loc l r with
        | mk h' res =>
          rw [hm] at hraise
          dsimp only at hraise
          subst hraise
          dsimp only
          refine ⟨?_, fun _ => rfl⟩
          rintro (hall | hall)
          · rw [hna] at hall; cases hall
          · have := hall (l, h.issues.cell r) (by rw [hdrop]; exact List.mem_cons_self ..)
            rw [hnn] at this; cases this

/-! ### `get` and the constructor -/

theorem Inv.new {h : Heap} {org} (hi : h.Inv org) : h.new.1.Inv (org ++ [h.size]) := by
  refine ⟨hi.issues.fresh _, hi.stop.fresh _, by simp [Heap.new, hi.auto], ?_, hi.sets⟩
  intro f hf
  simp only [List.length_append, List.length_singleton]
  rcases List.mem_append.1 hf with hf | hf
  · have := hi.orgs f hf; omega
  · rw [List.mem_singleton.1 hf]
    have := hi.auto
    unfold size
    omega

theorem new_val {h : Heap} {org} (hi : h.Inv org) : h.new.1.val h.size = {} := by
  have h1 : h.size = h.issues.tabs.length := by rw [← hi.issues.len, hi.auto]; rfl
  have h2 : h.size = h.stop.tabs.length := by rw [← hi.stop.len, hi.auto]; rfl
  unfold Heap.val
  have e1 : h.new.1.issues.val h.size = [] := by
    rw [h1]; show (Store.tab h.issues.fresh _).map _ = _
    unfold Store.fresh; rw [Store.tab_snoc, if_pos rfl]; rfl
  have e2 : h.new.1.stop.val h.size = [] := by
    rw [h2]; show (Store.tab h.stop.fresh _).map _ = _
    unfold Store.fresh; rw [Store.tab_snoc, if_pos rfl]; rfl
  rw [e1, e2]

theorem new_val_other {h : Heap} {org} (hi : h.Inv org) {j : Nat} (hj : j < h.size) : h.new.1.val j = h.val j := by
  have h1 := hi.lt_issues hj
  have h2 := hi.lt_stop hj
  unfold Heap.val
  have e1 : h.new.1.issues.val j = h.issues.val j := Store.val_snoc _ _ (by omega)
  have e2 : h.new.1.stop.val j = h.stop.val j := Store.val_snoc _ _ (by omega)
  rw [e1, e2]

theorem org_some {h : Heap} {org} (hi : h.Inv org) {o : Nat} (ho : o < h.size) : ∃ f, org[o]? = some f := by
  have : o < org.length := by rw [hi.auto]; exact ho
  exact ⟨org[o], List.getElem?_eq_getElem this⟩

theorem Inv.get {h : Heap} {org} (hi : h.Inv org) {o : Nat} (loc : Loc) {f : Nat} (hf : org[o]? = some f) :
    (h.get o loc).1.Inv (org ++ [f]) := by
  refine ⟨hi.issues.view _ hf, hi.stop.view _ hf, by simp [Heap.get, hi.auto], ?_, hi.sets⟩
  intro f' hf'
  simp only [List.length_append, List.length_singleton]
  rcases List.mem_append.1 hf' with hf' | hf'
  · have := hi.orgs f' hf'; omega
  · rw [List.mem_singleton.1 hf']
    have := hi.orgs f (List.mem_of_getElem? hf)
    omega

theorem get_val {h : Heap} {org} (hi : h.Inv org) (o : Nat) (loc : Loc) :
    (h.get o loc).1.val h.size = (h.val o).get loc := by
  have h1 : h.size = h.issues.tabs.length := by rw [← hi.issues.len, hi.auto]; rfl
  have h2 : h.size = h.stop.tabs.length := by rw [← hi.stop.len, hi.auto]; rfl
  have e1 : (h.get o loc).1.issues.val h.size = ((h.val o).get loc).issues := by
    rw [h1]; exact Store.view_val_new h.issues o loc
  have e2 : (h.get o loc).1.stop.val h.size = ((h.val o).get loc).stop := by
    rw [h2]; exact Store.view_val_new h.stop o loc
  unfold Heap.val at *
  rw [e1, e2]

theorem get_val_other {h : Heap} {org} (hi : h.Inv org) (o : Nat) (loc : Loc) {j : Nat} (hj : j < h.size) :
    (h.get o loc).1.val j = h.val j := by
  have h1 := hi.lt_issues hj
  have h2 := hi.lt_stop hj
  unfold Heap.val
  have e1 : (h.get o loc).1.issues.val j = h.issues.val j := Store.val_snoc _ _ (by omega)
  have e2 : (h.get o loc).1.stop.val j = h.stop.val j := Store.val_snoc _ _ (by omega)
  rw [e1, e2]

/-! ### `pop` -/

/-- The blocking codes after the loop of `pop`. -/
def unblocked (h : Heap) (set : Option Nat) (code : Nat) (hit : Bool) : Store Nat :=
  match set with
  | none => h.stop
  | some k => if hit then h.stop.write k ((h.stop.cell k).erase code) else h.stop

theorem erase_twice {l : List Nat} (h : l.Nodup) (c : Nat) : (l.erase c).erase c = l.erase c := by
  apply List.erase_of_not_mem
  exact fun hm => (h.mem_erase_iff.1 hm).1 rfl

/-- The loop of `pop` in closed form. -/
theorem popLoop_eq (r : Nat) (set : Option Nat) (code : Nat) (fuel i : Nat) (h : Heap)
    (hr : r < h.issues.cells.length) (hk : ∀ k, set = some k → k < h.stop.cells.length)
    (hs : ∀ q, (h.stop.cell q).Nodup)
    (hfuel : (h.issues.cell r).length ≤ i + fuel) :
    popLoop r set code fuel i h =
      { h with
        issues := h.issues.write r (Issues.popLoop code fuel i (h.issues.cell r))
        stop := unblocked h set code (((h.issues.cell r).drop i).any (·.code = code)) } := by
  induction fuel generalizing i h with
  | zero =>
    have hd : (h.issues.cell r).drop i = [] := List.drop_eq_nil_of_le (by omega)
    rw [hd]
    unfold popLoop Issues.popLoop unblocked
    rw [Store.write_cell]
    cases set <;> rfl
  | succ fuel ih =>
    unfold popLoop Issues.popLoop
    cases hg : (h.issues.cell r)[i]? with
    | none =>
      have hd : (h.issues.cell r).drop i = [] :=
        List.drop_eq_nil_of_le (List.getElem?_eq_none_iff.1 hg)
      rw [hd]
      dsimp only
      unfold unblocked
      rw [Store.write_cell]
      cases set <;> rfl
    | some e =>
      dsimp only
      have hil := (List.getElem?_eq_some_iff.1 hg).1
      have hdrop : (h.issues.cell r).drop i = e :: (h.issues.cell r).drop (i + 1) := by
        rw [List.drop_eq_getElem_cons hil, (List.getElem?_eq_some_iff.1 hg).2]
      by_cases hc : e.code = code
      · rw [if_pos hc, if_pos hc]
        have hany : ((h.issues.cell r).drop i).any (fun x => decide (x.code = code)) = true := by
          rw [hdrop]; simp [hc]
        rw [hany]
        have hcell : ∀ v, (h.issues.write r v).cell r = v := by
          intro v; rw [Store.cell_write, if_pos ⟨rfl, hr⟩]
        have hmem : e ∈ h.issues.cell r := List.mem_of_getElem? hg
        rw [ih]
        · dsimp only
          rw [hcell, Store.write_write]
          congr 1
          cases set with
          | none => rfl
          | some k =>
            unfold unblocked
            dsimp only
            rw [if_pos rfl, hc]
            have hstop : (if code ∈ h.stop.cell k then h.stop.write k ((h.stop.cell k).erase code) else h.stop)
                = h.stop.write k ((h.stop.cell k).erase code) := by
              split
              · rfl
              · rename_i hn
                rw [List.erase_of_not_mem hn, Store.write_cell]
            rw [hstop]
            split
            · rw [Store.cell_write, if_pos ⟨rfl, hk k rfl⟩, erase_twice (hs k), Store.write_write]
            · rfl
        · dsimp only
          simpa [Store.write] using hr
        · intro k e
          have := hk k e
          dsimp only
          cases set with
          | none => cases e
          | some k' =>
            dsimp only
            split
            · simpa [Store.write] using this
            · exact this
        · intro q
          dsimp only
          cases set with
          | none => exact hs q
          | some k' =>
            dsimp only
            split
            · rw [Store.cell_write]
              split
              · exact (hs k').erase _
              · exact hs q
            · exact hs q
        · dsimp only
          rw [hcell, List.length_erase_of_mem hmem]
          omega
      · rw [if_neg hc, if_neg hc]
        have hany : ((h.issues.cell r).drop i).any (fun x => decide (x.code = code))
            = ((h.issues.cell r).drop (i + 1)).any (fun x => decide (x.code = code)) := by
          rw [hdrop]; simp [hc]
        rw [hany]
        exact ih (i + 1) h hr hk hs (by omega)

theorem org_append {org : List Nat} {f j : Nat} (hj : j < org.length) : (org ++ [f])[j]? = org[j]? :=
  List.getElem?_append_left hj

/-- `pop` when there is nothing at the location. -/
theorem pop_none {h : Heap} {o : Nat} {loc : Loc} (code : Nat) (hn : aget loc (h.val o).issues = none) :
    h.pop o loc code = h.new := by
  have : aget loc (h.issues.tab o) = none := by
    have h1 : aget loc (h.issues.val o) = none := hn
    rw [Store.aget_val] at h1
    cases hc : aget loc (h.issues.tab o) with
    | none => rfl
    | some r => rw [hc] at h1; cases h1
  unfold pop; rw [this]

/-- `pop` when there is something at the location. -/
theorem pop_spec {h : Heap} {org} (hi : h.Inv org) {o : Nat} (ho : o < h.size) {loc : Loc} (code : Nat)
    (hsome : (aget loc (h.val o).issues).isSome) {f : Nat} (hf : org[o]? = some f) :
    (h.pop o loc code).2 = h.size
      ∧ (h.pop o loc code).1.Inv (org ++ [f])
      ∧ (h.pop o loc code).1.auto = h.auto ++ [false]
      ∧ (h.pop o loc code).1.val o = (h.val o).pop loc code
      ∧ (h.pop o loc code).1.val h.size = (h.val o).popResult loc code
      ∧ ∀ j, j < h.size → org[j]? ≠ org[o]? → (h.pop o loc code).1.val j = h.val j := by
  obtain ⟨r, hr⟩ : ∃ r, aget loc (h.issues.tab o) = some r := by
    have h1 : (aget loc (h.issues.val o)).isSome := hsome
    rw [Store.aget_val] at h1
    cases hc : aget loc (h.issues.tab o) with
    | some r => exact ⟨r, rfl⟩
    | none => rw [hc] at h1; cases h1
  have hls : o < h.issues.tabs.length := hi.lt_issues ho
  have hlt : o < h.stop.tabs.length := hi.lt_stop ho
  have hs1 : h.size = h.issues.tabs.length := by rw [← hi.issues.len, hi.auto]; rfl
  have hs2 : h.size = h.stop.tabs.length := by rw [← hi.stop.len, hi.auto]; rfl
  have hoc : o ≠ h.size := by omega
  have hi1 := hi.get loc hf
  have hcell1 : (h.get o loc).1.issues.cell r = h.issues.cell r := rfl
  have htabI : (h.get o loc).1.issues.tab o = h.issues.tab o := by
    show (h.issues.view o loc).tab o = _
    rw [Store.view_eq, Store.tab_snoc, if_neg (by omega)]
  have htabS : (h.get o loc).1.stop.tab o = h.stop.tab o := by
    show (h.stop.view o loc).tab o = _
    rw [Store.view_eq, Store.tab_snoc, if_neg (by omega)]
  have hviewI : ∀ l, aget l ((h.get o loc).1.issues.tab h.size) = aget (loc ++ l) (h.issues.tab o) := by
    intro l
    show aget l ((h.issues.view o loc).tab h.size) = _
    rw [hs1]; exact Store.view_aget _ _ _ _
  have hviewS : ∀ l, aget l ((h.get o loc).1.stop.tab h.size) = aget (loc ++ l) (h.stop.tab o) := by
    intro l
    show aget l ((h.stop.view o loc).tab h.size) = _
    rw [hs2]; exact Store.view_aget _ _ _ _
  have hvo := get_val_other hi o loc ho
  have hvc := get_val hi o loc
  have hvoI : (h.get o loc).1.issues.val o = (h.val o).issues := congrArg Issues.issues hvo
  have hvoS : (h.get o loc).1.stop.val o = (h.val o).stop := congrArg Issues.stop hvo
  have hvcI : (h.get o loc).1.issues.val h.size = ((h.val o).get loc).issues := congrArg Issues.issues hvc
  have hvcS : (h.get o loc).1.stop.val h.size = ((h.val o).get loc).stop := congrArg Issues.stop hvc
  have hvI : aget loc (h.val o).issues = some (h.issues.cell r) := by
    show aget loc (h.issues.val o) = _
    rw [Store.aget_val, hr]; rfl
  -- the state after the loop
  generalize hE : Issues.popLoop code (h.issues.cell r).length 0 (h.issues.cell r) = errs'
  generalize hS : aget loc (h.stop.tab o) = set
  have hpop : h.pop o loc code =
      (let h2 : Heap := { (h.get o loc).1 with
          issues := (h.get o loc).1.issues.write r errs'
          stop := unblocked (h.get o loc).1 set code (Issues.popHits code (h.issues.cell r)) }
       let h3 : Heap := if errs'.isEmpty then { h2 with issues := h2.issues.drop o loc } else h2
       let h4 : Heap := match aget loc (h3.stop.tab o) with
         | some k => if (h3.stop.cell k).isEmpty then { h3 with stop := h3.stop.drop o loc } else h3
         | none => h3
       (h4, h.size)) := by
    unfold pop
    rw [hr]
    dsimp only
    rw [htabS, hS, popLoop_eq]
    · rw [hcell1, hE]
      dsimp only
      have : ((h.get o loc).1.issues.write r errs').cell r = errs' := by
        rw [Store.cell_write, if_pos ⟨rfl, hi.issues.bound o _ (mem_of_aget hr)⟩]
      rw [this]
      rfl
    · exact hi.issues.bound o _ (mem_of_aget hr)
    · intro k hk
      rw [hk] at hS
      exact hi.stop.bound o _ (mem_of_aget hS)
    · exact hi1.sets
    · rw [hcell1]; omega
  -- the two stores
  have hIInv : ((h.get o loc).1.issues.write r errs').Inv (org ++ [f]) := hi1.issues.write _ _
  have hIo : ((h.get o loc).1.issues.write r errs').val o = aset loc errs' (h.val o).issues := by
    rw [Store.val_write hi1.issues (by rw [htabI]; exact hr), hvoI]
  have hIc : ((h.get o loc).1.issues.write r errs').val h.size = aset [] errs' ((h.val o).get loc).issues := by
    rw [Store.val_write (l := []) hi1.issues (by rw [hviewI, List.append_nil]; exact hr), hvcI]
  have horgo : (org ++ [f])[o]? = some f := by
    rw [org_append (by rw [hi.auto]; exact ho), hf]
  have hIj : ∀ j, j < h.size → org[j]? ≠ org[o]? →
      ((h.get o loc).1.issues.write r errs').val j = (h.val j).issues := by
    intro j hj hjo
    have hjl : j < org.length := by rw [hi.auto]; exact hj
    rw [Store.val_write_other]
    · exact congrArg Issues.issues (get_val_other hi o loc hj)
    · intro p hp
      refine hi1.issues.apart j o ?_ p hp _ (by rw [htabI]; exact mem_of_aget hr)
      rw [org_append hjl, horgo, ← hf]; exact hjo
  generalize hU : unblocked (h.get o loc).1 set code (Issues.popHits code (h.issues.cell r)) = U at hpop
  have hUfacts : U.Inv (org ++ [f]) ∧ (∀ q, (U.cell q).Nodup) ∧ U.tab o = h.stop.tab o
      ∧ U.val o = (if Issues.popHits code (h.issues.cell r) then
          match aget loc (h.val o).stop with
          | some codes => aset loc (codes.erase code) (h.val o).stop
          | none => (h.val o).stop
        else (h.val o).stop)
      ∧ U.val h.size = (match aget [] ((h.val o).get loc).stop with
          | some codes => if Issues.popHits code (h.issues.cell r) then aset [] (codes.erase code) ((h.val o).get loc).stop
            else ((h.val o).get loc).stop
          | none => ((h.val o).get loc).stop)
      ∧ ∀ j, j < h.size → org[j]? ≠ org[o]? → U.val j = (h.val j).stop := by
    have hvs : aget loc (h.val o).stop = set.map h.stop.cell := by
      show aget loc (h.stop.val o) = _
      rw [Store.aget_val, hS]
    have hvg : aget [] ((h.val o).get loc).stop = set.map h.stop.cell := by
      rw [Issues.stop_get, List.append_nil, hvs]
    rw [hvs, hvg]
    subst hU
    unfold unblocked
    cases set with
    | none =>
      refine ⟨hi1.stop, hi1.sets, htabS, ?_, hvcS, ?_⟩
      · dsimp only [Option.map_none]; rw [hvoS]; split <;> rfl
      · intro j hj _; exact congrArg Issues.stop (get_val_other hi o loc hj)
    | some k =>
      dsimp only [Option.map_some]
      have hck : (h.get o loc).1.stop.cell k = h.stop.cell k := rfl
      cases Issues.popHits code (h.issues.cell r) with
      | false =>
        refine ⟨hi1.stop, hi1.sets, htabS, hvoS, hvcS, ?_⟩
        intro j hj _; exact congrArg Issues.stop (get_val_other hi o loc hj)
      | true =>
        simp only [↓reduceIte]
        rw [hck]
        refine ⟨hi1.stop.write _ _, nodup_cell_write hi1.sets _ ((hi.sets k).erase _), ?_, ?_, ?_, ?_⟩
        · rw [Store.tab_write, htabS]
        · rw [Store.val_write hi1.stop (by rw [htabS]; exact hS), hvoS]
        · rw [Store.val_write (l := []) hi1.stop (by rw [hviewS, List.append_nil]; exact hS), hvcS]
        · intro j hj hjo
          have hjl : j < org.length := by rw [hi.auto]; exact hj
          rw [Store.val_write_other]
          · exact congrArg Issues.stop (get_val_other hi o loc hj)
          · intro p hp
            refine hi1.stop.apart j o ?_ p hp _ (by rw [htabS]; exact mem_of_aget hS)
            rw [org_append hjl, horgo, ← hf]; exact hjo
  obtain ⟨hUInv, hUnd, hUtab, hUo, hUc, hUj⟩ := hUfacts
  generalize hW : (h.get o loc).1.issues.write r errs' = W at hpop hIInv hIo hIc hIj
  have haI : (aget loc (h.val o).issues).isSome := hsome
  -- the store of issues after the key has been removed
  have hW2 : ∃ W2 : Store VErr, W2 = (if errs'.isEmpty then W.drop o loc else W) := ⟨_, rfl⟩
  obtain ⟨W2, hW2⟩ := hW2
  have hW2f : W2.Inv (org ++ [f])
      ∧ W2.val o = (if errs'.isEmpty then adel loc (h.val o).issues else aset loc errs' (h.val o).issues)
      ∧ ∀ j, j ≠ o → W2.val j = W.val j := by
    subst hW2
    cases errs'.isEmpty with
    | true =>
      simp only [↓reduceIte]
      refine ⟨hIInv.drop _ _, ?_, ?_⟩
      · rw [Store.val_drop, if_pos rfl, hIo, Store.adel_aset haI]
      · intro j hj; rw [Store.val_drop, if_neg hj]
    | false =>
      simp only [Bool.false_eq_true, ↓reduceIte]
      exact ⟨hIInv, hIo, fun _ _ => by first | rfl | trivial⟩
  have hU2 : ∃ U2 : Store Nat, U2 = (match aget loc (U.tab o) with
      | some k => if (U.cell k).isEmpty then U.drop o loc else U
      | none => U) := ⟨_, rfl⟩
  obtain ⟨U2, hU2⟩ := hU2
  have hU2f : U2.Inv (org ++ [f]) ∧ (∀ q, (U2.cell q).Nodup)
      ∧ U2.val o = (match aget loc (U.val o) with
        | some [] => adel loc (U.val o)
        | _ => U.val o)
      ∧ ∀ j, j ≠ o → U2.val j = U.val j := by
    subst hU2
    rw [Store.aget_val]
    cases hc : aget loc (U.tab o) with
    | none =>
      exact ⟨hUInv, hUnd, by first | rfl | trivial, fun _ _ => by first | rfl | trivial⟩
    | some k =>
      dsimp only [Option.map_some]
      cases hk : U.cell k with
      | nil =>
        simp only [List.isEmpty_nil, ↓reduceIte]
        refine ⟨hUInv.drop _ _, hUnd, ?_, ?_⟩
        · rw [Store.val_drop, if_pos rfl]
        · intro j hj; rw [Store.val_drop, if_neg hj]
      | cons c cs =>
        simp only [List.isEmpty_cons, Bool.false_eq_true, ↓reduceIte]
        exact ⟨hUInv, hUnd, by first | rfl | trivial, fun _ _ => by first | rfl | trivial⟩
  have hres : h.pop o loc code = ({ issues := W2, stop := U2, auto := h.auto ++ [false] }, h.size) := by
    rw [hpop]
    dsimp only
    subst hW2 hU2
    cases errs'.isEmpty <;>
    · simp only [Bool.false_eq_true, ↓reduceIte]
      cases hc : aget loc (U.tab o) with
      | none => rfl
      | some k =>
        dsimp only
        split <;> rfl
  rw [hres]
  refine ⟨rfl, ⟨hW2f.1, hU2f.1, by simp [hi.auto], hi1.orgs, hU2f.2.1⟩, rfl, ?_, ?_, ?_⟩
  · have e : (h.val o).pop loc code = { issues := W2.val o, stop := U2.val o } := by
      unfold Issues.pop
      rw [hvI]
      dsimp only
      rw [hE, hW2f.2.1, hU2f.2.2.1, hUo]
      rfl
    rw [e]; rfl
  · have e : (h.val o).popResult loc code = { issues := W2.val h.size, stop := U2.val h.size } := by
      unfold Issues.popResult
      rw [hvI]
      dsimp only
      rw [hE, hW2f.2.2 _ (fun e => hoc e.symm), hU2f.2.2.2 _ (fun e => hoc e.symm), hIc, hUc]
      rfl
    rw [e]; rfl
  · intro j hj hjo
    have hjne : j ≠ o := fun e => hjo (by rw [e])
    have e : h.val j = { issues := W2.val j, stop := U2.val j } := by
      rw [hW2f.2.2 j hjne, hU2f.2.2.2 j hjne, hIj j hj hjo, hUj j hj hjo]
    rw [e]; rfl

end Heap

/-! ### Adding through one of two collections that hold the same list -/

namespace Heap

/-- `add` when the entries exist. -/
theorem add_found {h : Heap} {o : Nat} {l : Loc} {r : Nat} (e : VErr) (p : Bool)
    (hr : aget l (h.issues.tab o) = some r) {k : Nat} (hk : p = true ∨ aget l (h.stop.tab o) = some k) :
    h.add o e p l = ({ h with
      issues := h.issues.write r (h.issues.cell r ++ [e])
      stop := if p then h.stop else h.stop.write k (Issues.unionCodes (h.stop.cell k) [e.code]) }, .ok ()) := by
  unfold add extendIssues
  rw [Store.fetch_found hr]
  dsimp only
  cases p with
  | true => rfl
  | false =>
    rcases hk with hk | hk
    · cases hk
    · rw [if_neg (by decide), Store.fetch_found hk]
      rfl

/-- What a collection that holds the same list and the same set sees. -/
theorem add_seen {h : Heap} {org} (hi : h.Inv org) {x : Nat} {m : Loc} {r : Nat} (e : VErr) (p : Bool)
    (hr : aget m (h.issues.tab x) = some r) {k : Nat} (hk : p = true ∨ aget m (h.stop.tab x) = some k) :
    val { h with
      issues := h.issues.write r (h.issues.cell r ++ [e])
      stop := if p then h.stop else h.stop.write k (Issues.unionCodes (h.stop.cell k) [e.code]) } x
      = (h.val x).add e p m := by
  unfold val Issues.add
  dsimp only
  have h1 : (h.issues.write r (h.issues.cell r ++ [e])).val x = Issues.extendAt m [e] (h.issues.val x) := by
    rw [Store.val_write hi.issues hr]
    unfold Issues.extendAt
    rw [Store.aget_val, hr]; rfl
  rw [h1]
  cases p with
  | true => rfl
  | false =>
    rcases hk with hk | hk
    · cases hk
    · rw [if_neg (by decide), if_neg (by decide), Store.val_write hi.stop hk]
      unfold Issues.updateAt
      rw [Store.aget_val, hk]; rfl

/-- A collection other than `o` does not see what is added at a location that `o` did not have. -/
theorem add_unseen {h : Heap} {org} (hi : h.Inv org) {o : Nat} (ho : o < h.size) (hauto : h.isAuto o = true) {l : Loc}
    (e : VErr) (p : Bool) (hr : aget l (h.issues.tab o) = none) (hk : p = true ∨ aget l (h.stop.tab o) = none)
    {j : Nat} (hj : j ≠ o) : (h.add o e p l).1.val j = h.val j := by
  have hsee : ∀ {α : Type} {s : Store α} (_ : s.Inv org) (_ : o < s.tabs.length) (_ : aget l (s.tab o) = none)
      (v : List α), (Store.write (α := α) { cells := s.cells ++ [[]], tabs := s.tabs.set o (s.tab o ++ [(l, s.cells.length)]) }
        s.cells.length v).val j = s.val j := by
    intro α s hs hlt hn v
    have hf := Store.fetched_new hs hlt hn
    rw [Store.val_write_other, hf.vals j hj]
    intro q hq
    rw [hf.tabs j hj] at hq
    have := hs.bound j q hq
    omega
  unfold add extendIssues
  rw [hauto, Store.fetch_new hr]
  dsimp only
  cases p with
  | true =>
    rw [if_pos rfl]
    exact ext_val (hsee hi.issues (hi.lt_issues ho) hr _) rfl
  | false =>
    rw [if_neg (by decide)]
    rcases hk with hk | hk
    · cases hk
    · have ha : ∀ s : Store VErr, isAuto { h with issues := s } o = true := fun _ => hauto
      rw [ha, Store.fetch_new hk]
      exact ext_val (hsee hi.issues (hi.lt_issues ho) hr _) (hsee hi.stop (hi.lt_stop ho) hk _)

end Heap

/-! ### Reachable states -/

theorem Tracked.Reach.inv {t : Tracked} (h : t.Reach) : t.heap.Inv t.origin := by
  induction h with
  | start =>
    refine ⟨⟨rfl, ?_, ?_, ?_, ?_⟩, ⟨rfl, ?_, ?_, ?_, ?_⟩, rfl, ?_, ?_⟩
    all_goals first
      | (intro i j _ p hp; exact absurd hp List.not_mem_nil)
      | (intro i p hp; exact absurd hp List.not_mem_nil)
      | (intro f hf; exact absurd hf List.not_mem_nil)
      | (intro i; exact List.nodup_nil)
  | step op _ hv ih =>
    rename_i t _
    cases op with
    | new => exact ih.new
    | add o e p loc => exact (Heap.add_spec ih hv e p loc).1.inv
    | merge o a loc => exact (Heap.mergeLoop_frame _ o a loc _ 0 t.heap ih hv.1 hv.2).1
    | get o loc =>
      obtain ⟨f, hf⟩ := Heap.org_some ih hv
      have := ih.get loc hf
      show (t.heap.get o loc).1.Inv (t.origin ++ [(t.origin[o]?).getD o])
      rw [hf]; exact this
    | pop o loc code =>
      obtain ⟨f, hf⟩ := Heap.org_some ih hv
      show (t.heap.pop o loc code).1.Inv (t.origin ++ [if aget loc (t.heap.val o).issues = none then t.heap.size
        else (t.origin[o]?).getD o])
      by_cases hn : aget loc (t.heap.val o).issues = none
      · rw [Heap.pop_none code hn, if_pos hn]; exact ih.new
      · rw [if_neg hn, hf]
        refine (Heap.pop_spec ih hv code ?_ hf).2.1
        cases hc : aget loc (t.heap.val o).issues with
        | none => exact absurd hc hn
        | some v => rfl

end Scim
