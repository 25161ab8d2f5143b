import Verif.Lemmas.IssuesHeapOps

/-! Collections of validation issues that share lists and sets: C106. -/

namespace Scim

/-- **C106** A step changes nothing for the collections it does not concern: those that are neither related to the one it
works on nor the argument of the merge. -/
theorem C106_unrelated (t : Tracked) (ht : t.Reach) (op : HeapOp) (hv : op.Valid t) (j : Nat) (hj : j < t.heap.size)
    (hs : op.SparesOf t j) : (t.step op).heap.val j = t.heap.val j := by
  have hi := ht.inv
  cases op with
  | new => exact Heap.new_val_other hi hj
  | add o e p loc => exact (Heap.add_spec hi hv e p loc).1.others j (fun e => hs e.symm)
  | merge o a loc =>
    obtain ⟨-, -, h3, h4⟩ := Heap.mergeLoop_frame (t.heap.issues.tab a).length o a loc
      ((t.heap.issues.tab a).length + 1) 0 t.heap hi hv.1 hv.2
    exact Heap.ext_val (h3 j (fun e => hs.1 e.symm)) (h4 j (fun e => hs.1 e.symm) (fun e => hs.2 e.symm))
  | get o loc => exact Heap.get_val_other hi o loc hj
  | pop o loc code =>
    show (t.heap.pop o loc code).1.val j = _
    cases hc : aget loc (t.heap.val o).issues with
    | none => rw [Heap.pop_none code hc]; exact Heap.new_val_other hi hj
    | some v =>
      obtain ⟨f, hf⟩ := Heap.org_some hi hv
      exact (Heap.pop_spec hi hv code (by rw [hc]; rfl) hf).2.2.2.2.2 j hj (fun e => hs e.symm)

/-- **C106** So a collection looks the same after any stretch of a program that does not concern it. -/
theorem C106_history (t t' : Tracked) (ht : t.Reach) (j : Nat) (hj : j < t.heap.size) (hs : Tracked.Spares j t t') :
    t'.heap.val j = t.heap.val j := by
  induction hs with
  | done => rfl
  | step op hv hs _ ih =>
    rename_i t t' _
    have hsize : t.heap.size ≤ (t.step op).heap.size := by
      have hi := ht.inv
      cases op with
      | new => simp [Tracked.step, Heap.new, Heap.size]
      | add o e p loc => exact Nat.le_of_eq (Heap.size_of_auto (Heap.add_spec hi hv e p loc).1.auto).symm
      | merge o a loc =>
        exact Nat.le_of_eq (Heap.size_of_auto (Heap.mergeLoop_frame _ o a loc _ 0 t.heap hi hv.1 hv.2).2.1).symm
      | get o loc => simp [Tracked.step, Heap.get, Heap.size]
      | pop o loc code =>
        show _ ≤ (t.heap.pop o loc code).1.size
        cases hc : aget loc (t.heap.val o).issues with
        | none => rw [Heap.pop_none code hc]; simp [Heap.new, Heap.size]
        | some v =>
          obtain ⟨f, hf⟩ := Heap.org_some hi hv
          have := (Heap.pop_spec hi hv code (by rw [hc]; rfl) hf).2.2.1
          unfold Heap.size
          rw [this]; simp
    rw [ih (.step op ht hv) (by omega)]
    exact C106_unrelated t ht op hv j hj hs

/-- **C106** A collection creates missing entries exactly when it stands for itself: those made by the constructor (and by
a `pop` that found nothing) do, views do not. -/
theorem C106_kinds (t : Tracked) (ht : t.Reach) (j : Nat) (hj : j < t.heap.size) :
    t.heap.isAuto j = true ↔ t.origin[j]? = some j := by
  induction ht with
  | start => exact absurd hj (Nat.not_lt_zero _)
  | step op hr hv ih =>
    rename_i t
    have hi := hr.inv
    have hlen : t.origin.length = t.heap.auto.length := hi.auto
    have hsz : t.heap.size = t.heap.auto.length := rfl
    -- a new collection at the end, automatic exactly when its origin is its own position
    have key : ∀ (h' : Heap) (b : Bool) (f : Nat), h'.auto = t.heap.auto ++ [b] → (b = true ↔ f = t.heap.size) →
        j < h'.size → (h'.isAuto j = true ↔ (t.origin ++ [f])[j]? = some j) := by
      intro h' b f ha hb hlt
      unfold Heap.size at hlt
      unfold Heap.isAuto
      rw [ha] at hlt ⊢
      simp only [List.length_append, List.length_singleton] at hlt
      by_cases hlt' : j < t.heap.auto.length
      · rw [List.getElem?_append_left hlt', List.getElem?_append_left (by omega)]
        exact ih hlt'
      · have e : j = t.heap.auto.length := by omega
        subst e
        rw [List.getElem?_append_right (Nat.le_refl _), ← hlen, List.getElem?_append_right (Nat.le_refl _)]
        simp only [Nat.sub_self, List.getElem?_cons_zero, Option.getD_some, Option.some.injEq]
        rw [hb, hsz, hlen]
    have old : ∀ o, o < t.heap.size → (false = true ↔ (t.origin[o]?).getD o = t.heap.size) := by
      intro o ho
      obtain ⟨f, hf⟩ := Heap.org_some hi ho
      rw [hf, Option.getD_some]
      have := hi.orgs f (List.mem_of_getElem? hf)
      constructor
      · intro h; cases h
      · intro h; omega
    cases op with
    | new => exact key _ true _ rfl (by simp) hj
    | add o e p loc =>
      have ha := (Heap.add_spec hi hv e p loc).1.auto
      have hj' : j < t.heap.size := by rw [← Heap.size_of_auto ha]; exact hj
      show Heap.isAuto (t.heap.add o e p loc).1 j = true ↔ t.origin[j]? = some j
      unfold Heap.isAuto; rw [ha]; exact ih hj'
    | merge o a loc =>
      have ha := (Heap.mergeLoop_frame (t.heap.issues.tab a).length o a loc ((t.heap.issues.tab a).length + 1) 0 t.heap
        hi hv.1 hv.2).2.1
      have hj' : j < t.heap.size := by rw [← Heap.size_of_auto ha]; exact hj
      show Heap.isAuto (t.heap.merge o a loc).1 j = true ↔ t.origin[j]? = some j
      unfold Heap.isAuto Heap.merge; rw [ha]; exact ih hj'
    | get o loc => exact key _ false _ rfl (old o hv) hj
    | pop o loc code =>
      unfold Tracked.step at hj ⊢
      dsimp only at hj ⊢
      cases hc : aget loc (t.heap.val o).issues with
      | none =>
        rw [Heap.pop_none code hc] at hj ⊢
        rw [if_pos rfl]
        exact key _ true _ rfl (by simp) hj
      | some v =>
        obtain ⟨f, hf⟩ := Heap.org_some hi hv
        rw [if_neg (by simp)]
        exact key _ false _ (Heap.pop_spec hi hv code (by rw [hc]; rfl) hf).2.2.1 (old o hv) hj

/-- **C106** A new collection is empty. -/
theorem C106_new (t : Tracked) (ht : t.Reach) : t.heap.new.1.val t.heap.new.2 = {} := Heap.new_val ht.inv

/-- **C106** Adding to a collection made by the constructor always succeeds and has the effect of the operation on
values; adding to a view raises `KeyError` unless the view has the entries. -/
theorem C106_add (t : Tracked) (ht : t.Reach) (o : Nat) (ho : o < t.heap.size) (e : VErr) (proceed : Bool) (loc : Loc) :
    (t.heap.isAuto o = true ∨ (t.heap.val o).Accepts proceed loc →
      (t.heap.add o e proceed loc).2 = .ok ()
        ∧ (t.heap.add o e proceed loc).1.val o = (t.heap.val o).add e proceed loc)
    ∧ (¬ (t.heap.isAuto o = true ∨ (t.heap.val o).Accepts proceed loc) →
      (t.heap.add o e proceed loc).2 = .error .keyError) :=
  (Heap.add_spec ht.inv ho e proceed loc).2

/-- **C106** Merging an unrelated collection into one made by the constructor has the effect of the operation on values.
It raises `KeyError` exactly when the argument is a view without blocking entry for one of its locations. -/
theorem C106_merge (t : Tracked) (ht : t.Reach) (o a : Nat) (ho : o < t.heap.size) (ha : a < t.heap.size)
    (hauto : t.heap.isAuto o = true) (hne : ¬ t.Related o a) (loc : Loc) :
    (t.heap.isAuto a = true ∨ (∀ p ∈ (t.heap.val a).issues, (aget p.1 (t.heap.val a).stop).isSome) →
      (t.heap.merge o a loc).2 = .ok ()
        ∧ (t.heap.merge o a loc).1.val o = (t.heap.val o).merge (t.heap.val a) loc)
    ∧ (¬ (t.heap.isAuto a = true ∨ ∀ p ∈ (t.heap.val a).issues, (aget p.1 (t.heap.val a).stop).isSome) →
      (t.heap.merge o a loc).2 = .error .keyError) := by
  have hlen : (t.heap.issues.tab a).length = (t.heap.issues.val a).length := by simp [Store.val]
  obtain ⟨h1, h2⟩ := Heap.mergeLoop_spec (t.heap.issues.tab a).length o a loc ((t.heap.issues.tab a).length + 1) 0 t.heap
    ht.inv ho ha hne hauto _ rfl hlen rfl _ (fun _ => rfl)
  rw [List.drop_zero] at h1 h2
  constructor
  · intro hok
    obtain ⟨k1, k2, -⟩ := h1 hok
    exact ⟨k1, k2⟩
  · intro hn
    apply h2
    constructor
    · cases hc : t.heap.isAuto a with
      | true => exact absurd (.inl hc) hn
      | false => rfl
    · apply Classical.byContradiction
      intro hcon
      apply hn
      refine .inr fun p hp => ?_
      cases hc : aget p.1 (t.heap.val a).stop with
      | some v => rfl
      | none => exact absurd ⟨p, hp, hc⟩ hcon

/-- **C106** The argument of a merge keeps its issues, whatever the outcome; after a merge that succeeds, it has a blocking
entry for each of its locations. -/
theorem C106_merge_argument (t : Tracked) (ht : t.Reach) (o a : Nat) (ho : o < t.heap.size) (ha : a < t.heap.size)
    (hne : ¬ t.Related o a) (loc : Loc) :
    ((t.heap.merge o a loc).1.val a).issues = (t.heap.val a).issues
    ∧ (t.heap.isAuto o = true → (t.heap.merge o a loc).2 = .ok () →
        (t.heap.merge o a loc).1.val a = (t.heap.val a).touched) := by
  have hlen : (t.heap.issues.tab a).length = (t.heap.issues.val a).length := by simp [Store.val]
  obtain ⟨-, -, h3, -⟩ := Heap.mergeLoop_frame (t.heap.issues.tab a).length o a loc
    ((t.heap.issues.tab a).length + 1) 0 t.heap ht.inv ho ha
  have hI : ((t.heap.merge o a loc).1.val a).issues = (t.heap.val a).issues := h3 a (fun e => hne e.symm)
  refine ⟨hI, fun hauto hok => ?_⟩
  obtain ⟨h1, h2⟩ := Heap.mergeLoop_spec (t.heap.issues.tab a).length o a loc ((t.heap.issues.tab a).length + 1) 0 t.heap
    ht.inv ho ha hne hauto _ rfl hlen rfl _ (fun _ => rfl)
  rw [List.drop_zero] at h1 h2
  by_cases hc : t.heap.isAuto a = true ∨ (∀ p ∈ (t.heap.val a).issues, (aget p.1 (t.heap.val a).stop).isSome)
  · obtain ⟨-, -, k3⟩ := h1 hc
    have hS : ((t.heap.merge o a loc).1.val a).stop = (t.heap.val a).touched.stop := k3
    have hext : ∀ x y : Issues, x.issues = y.issues → x.stop = y.stop → x = y := by
      rintro ⟨_, _⟩ ⟨_, _⟩ rfl rfl; rfl
    exact hext _ _ hI hS
  · exfalso
    have := (C106_merge t ht o a ho ha hauto hne loc).2 hc
    rw [this] at hok
    cases hok

/-- **C106** `get` gives the part of the collection at the location. -/
theorem C106_get (t : Tracked) (ht : t.Reach) (o : Nat) (loc : Loc) :
    (t.heap.get o loc).1.val (t.heap.get o loc).2 = (t.heap.val o).get loc := Heap.get_val ht.inv o loc

/-- **C106** `pop` leaves and returns what the operations on values leave and return. -/
theorem C106_pop (t : Tracked) (ht : t.Reach) (o : Nat) (ho : o < t.heap.size) (loc : Loc) (code : Nat) :
    (t.heap.pop o loc code).1.val o = (t.heap.val o).pop loc code
    ∧ (t.heap.pop o loc code).1.val (t.heap.pop o loc code).2 = (t.heap.val o).popResult loc code := by
  cases hc : aget loc (t.heap.val o).issues with
  | none =>
    rw [Heap.pop_none code hc]
    constructor
    · rw [Heap.new_val_other ht.inv ho]
      unfold Issues.pop; rw [hc]
    · unfold Issues.popResult; rw [hc]
      exact Heap.new_val ht.inv
  | some v =>
    obtain ⟨f, hf⟩ := Heap.org_some ht.inv ho
    obtain ⟨h1, -, -, h4, h5, -⟩ := Heap.pop_spec ht.inv ho code (by rw [hc]; rfl) hf
    exact ⟨h4, by rw [h1]; exact h5⟩

/-- The entries of a fresh view are those of the collection it was taken from. -/
private theorem view_entries (t : Tracked) (ht : t.Reach) (o : Nat) (loc l : Loc) :
    aget l ((t.heap.get o loc).1.issues.tab t.heap.size) = aget (loc ++ l) (t.heap.issues.tab o)
    ∧ aget l ((t.heap.get o loc).1.stop.tab t.heap.size) = aget (loc ++ l) (t.heap.stop.tab o) := by
  have h1 : t.heap.size = t.heap.issues.tabs.length := by rw [← ht.inv.issues.len, ht.inv.auto]; rfl
  have h2 : t.heap.size = t.heap.stop.tabs.length := by rw [← ht.inv.stop.len, ht.inv.auto]; rfl
  constructor
  · rw [h1]; exact Store.view_aget _ _ _ _
  · rw [h2]; exact Store.view_aget _ _ _ _

private theorem source_entries (t : Tracked) (ht : t.Reach) (o : Nat) (ho : o < t.heap.size) (loc : Loc) :
    (t.heap.get o loc).1.issues.tab o = t.heap.issues.tab o ∧ (t.heap.get o loc).1.stop.tab o = t.heap.stop.tab o := by
  have h1 := ht.inv.lt_issues ho
  have h2 := ht.inv.lt_stop ho
  constructor
  · show (t.heap.issues.view o loc).tab o = _
    rw [Store.view_eq, Store.tab_snoc, if_neg (by omega)]
  · show (t.heap.stop.view o loc).tab o = _
    rw [Store.view_eq, Store.tab_snoc, if_neg (by omega)]

private theorem aget_of_isSome_val {α : Type} {s : Store α} {o : Nat} {l : Loc} (h : (aget l (s.val o)).isSome) :
    ∃ r, aget l (s.tab o) = some r := by
  rw [Store.aget_val] at h
  cases hc : aget l (s.tab o) with
  | none => rw [hc] at h; cases h
  | some r => exact ⟨r, rfl⟩

private theorem aget_of_none_val {α : Type} {s : Store α} {o : Nat} {l : Loc} (h : aget l (s.val o) = none) :
    aget l (s.tab o) = none := by
  rw [Store.aget_val] at h
  cases hc : aget l (s.tab o) with
  | none => rfl
  | some r => rw [hc] at h; cases h

/-- **C106** What is added to a view at a location it has is added to the collection it was taken from as well, and the
other way round. -/
theorem C106_view (t : Tracked) (ht : t.Reach) (o : Nat) (ho : o < t.heap.size) (loc l : Loc) (e : VErr) (proceed : Bool)
    (hacc : (t.heap.val o).Accepts proceed (loc ++ l)) (x : Nat × Loc)
    (hx : x = (t.heap.size, l) ∨ x = (o, loc ++ l)) :
    ((t.heap.get o loc).1.add x.1 e proceed x.2).1.val o = (t.heap.val o).add e proceed (loc ++ l)
    ∧ ((t.heap.get o loc).1.add x.1 e proceed x.2).1.val t.heap.size = ((t.heap.val o).get loc).add e proceed l := by
  obtain ⟨f, hf⟩ := Heap.org_some ht.inv ho
  have hi1 := ht.inv.get loc hf
  obtain ⟨hv1, hv2⟩ := view_entries t ht o loc l
  obtain ⟨hs1, hs2⟩ := source_entries t ht o ho loc
  obtain ⟨r, hr⟩ := aget_of_isSome_val hacc.1
  have hro : aget (loc ++ l) ((t.heap.get o loc).1.issues.tab o) = some r := by rw [hs1]; exact hr
  have hrc : aget l ((t.heap.get o loc).1.issues.tab t.heap.size) = some r := by rw [hv1]; exact hr
  have hk : ∃ k, (proceed = true ∨ aget (loc ++ l) ((t.heap.get o loc).1.stop.tab o) = some k)
      ∧ (proceed = true ∨ aget l ((t.heap.get o loc).1.stop.tab t.heap.size) = some k) := by
    rcases hacc.2 with hp | hp
    · exact ⟨0, .inl hp, .inl hp⟩
    · obtain ⟨k, hk⟩ := aget_of_isSome_val hp
      exact ⟨k, .inr (by rw [hs2]; exact hk), .inr (by rw [hv2]; exact hk)⟩
  obtain ⟨k, hko, hkc⟩ := hk
  have hstep : (t.heap.get o loc).1.add x.1 e proceed x.2 = ({ (t.heap.get o loc).1 with
      issues := (t.heap.get o loc).1.issues.write r ((t.heap.get o loc).1.issues.cell r ++ [e])
      stop := if proceed then (t.heap.get o loc).1.stop else (t.heap.get o loc).1.stop.write k
        (Issues.unionCodes ((t.heap.get o loc).1.stop.cell k) [e.code]) }, .ok ()) := by
    rcases hx with rfl | rfl
    · exact Heap.add_found e proceed hrc hkc
    · exact Heap.add_found e proceed hro hko
  rw [hstep]
  refine ⟨?_, ?_⟩
  · rw [Heap.add_seen hi1 e proceed hro hko, Heap.get_val_other ht.inv o loc ho]
  · rw [Heap.add_seen hi1 e proceed hrc hkc, Heap.get_val ht.inv o loc]

/-- **C106** What is added to a collection at a location it did not have is not seen by the views taken before. -/
theorem C106_view_blind (t : Tracked) (ht : t.Reach) (o : Nat) (ho : o < t.heap.size) (hauto : t.heap.isAuto o = true)
    (loc l : Loc) (e : VErr) (proceed : Bool)
    (hn : aget l (t.heap.val o).issues = none) (hs : proceed = true ∨ aget l (t.heap.val o).stop = none) :
    ((t.heap.get o loc).1.add o e proceed l).1.val t.heap.size = (t.heap.val o).get loc := by
  obtain ⟨f, hf⟩ := Heap.org_some ht.inv ho
  have hi1 := ht.inv.get loc hf
  obtain ⟨hs1, hs2⟩ := source_entries t ht o ho loc
  have ha1 : (t.heap.get o loc).1.isAuto o = true := by
    unfold Heap.isAuto at *
    show (((t.heap.auto ++ [false])[o]?).getD false) = true
    rw [List.getElem?_append_left ho]; exact hauto
  rw [Heap.add_unseen hi1 (by simp [Heap.get, Heap.size]; have := ho; unfold Heap.size at this; omega) ha1 e proceed
    (by rw [hs1]; exact aget_of_none_val hn) (hs.imp id fun hs => by rw [hs2]; exact aget_of_none_val hs)
    (by omega), Heap.get_val ht.inv o loc]

end Scim

namespace Scim.Examples.IssuesHeap
open Scim

/-- A program: two collections, an issue in the first one, its part at `name`, and a merge into the second. -/
def name : Loc := [.name "name".toList]

def sub : Loc := [.name "name".toList, .name "givenName".toList]

def start : Tracked := (((({} : Tracked).step .new).step .new).step (.add 0 { code := 5 } true sub)).step (.add 0 { code := 2 } false name)

theorem start_reach : start.Reach := by
  refine .step _ (.step _ (.step _ (.step _ .start trivial) trivial) ?_) ?_
  · show 0 < 2; decide
  · show 0 < 2; decide

/-- The first two collections are not related; a view of the first one is related to it. -/
example : ¬ start.Related 0 1 := by unfold Tracked.Related; decide +kernel

example : (start.step (.get 0 name)).Related 0 2 := by unfold Tracked.Related; decide +kernel

/-- Adding through the view changes the first collection … -/
example : ((start.step (.get 0 name)).heap.add 2 { code := 7 } true []).1.val 0
    = { issues := [(sub, [{ code := 5 }]), (name, [{ code := 2 }, { code := 7 }])], stop := [(name, [2])] } := by
  decide +kernel

example : (start.heap.val 0).Accepts false (name ++ []) := by unfold Issues.Accepts; decide +kernel

/-- … but raises at a location the first collection has no entry for, and when the blocking entry is missing the issue
has been recorded nevertheless. -/
example : ((start.step (.get 0 name)).heap.add 2 { code := 7 } true [.name "x".toList]).2 = .error .keyError := by
  rfl

example : ((start.step (.get 0 name)).heap.add 2 { code := 7 } false [.name "givenName".toList]).2 = .error .keyError
    ∧ (((start.step (.get 0 name)).heap.add 2 { code := 7 } false [.name "givenName".toList]).1.val 0).errorsAt sub
      = [{ code := 5 }, { code := 7 }] :=
  ⟨by rfl, by decide +kernel⟩

/-- Before the merge one may proceed with a location that has a mere warning; afterwards the argument blocks there, and so
does the target. -/
example : ((start.heap.val 0).stop.map (·.1)) = [name]
    ∧ ((start.heap.merge 1 0 []).1.val 0).stop = [(name, [2]), (sub, [])]
    ∧ ((start.heap.merge 1 0 []).1.val 1).canProceedAt sub = false := by
  decide +kernel

/-- Merging a view with a mere warning raises. -/
example : ((start.step (.get 0 sub)).heap.merge 1 2 []).2 = .error .keyError := by rfl

/-- Merging a collection into itself doubles its issues at the same location and raises at any other one. -/
example : (start.heap.merge 0 0 []).2 = .ok ()
    ∧ ((start.heap.merge 0 0 []).1.val 0).errorsAt name = [{ code := 2 }, { code := 2 }]
    ∧ (start.heap.merge 0 0 name).2 = .error .runtimeError :=
  ⟨by rfl, by decide +kernel, by rfl⟩

/-- The second collection is spared by everything that happens to the first one and its views. -/
example : Tracked.Spares 1 start (((start.step (.get 0 name)).step (.add 2 { code := 7 } true [])).step (.pop 0 name 2)) := by
  refine .step (.get 0 name) ?_ trivial (.step (.add 2 { code := 7 } true []) ?_ ?_ (.step (.pop 0 name 2) ?_ ?_ (.done _)))
  · show 0 < 2; decide
  · show 2 < 3; decide
  · show ¬ _; unfold Tracked.Related; decide +kernel
  · show 0 < _; decide +kernel
  · show ¬ _; unfold Tracked.Related; decide +kernel

end Scim.Examples.IssuesHeap
