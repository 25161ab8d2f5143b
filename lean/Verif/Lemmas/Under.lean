import Verif.Lemmas.Validators
import Verif.Spec.Bulk

/-! Everything a request without query string reports stands under `body`. -/

namespace Scim
open Issues

/-- All locations start with the prefix. -/
def Issues.Under (p : Loc) (i : Issues) : Prop := ∀ q ∈ i.issues, p <+: q.1

theorem Issues.Under.empty (p : Loc) : Issues.Under p {} := by intro q hq; cases hq

theorem extendAt_under {p l : Loc} {es : List VErr} {m : List (Loc × List VErr)} (hm : ∀ q ∈ m, p <+: q.1) (hl : p <+: l) :
    ∀ q ∈ extendAt l es m, p <+: q.1 := by
  intro q hq
  unfold extendAt at hq
  have hk : q.1 ∈ (aset l ((aget l m).getD [] ++ es) m).map (·.1) := List.mem_map.mpr ⟨q, hq, rfl⟩
  rw [keys_aset] at hk
  split at hk
  · obtain ⟨q', h1, h2⟩ := List.mem_map.mp hk
    rw [← h2]; exact hm q' h1
  · rcases List.mem_append.mp hk with hk | hk
    · obtain ⟨q', h1, h2⟩ := List.mem_map.mp hk
      rw [← h2]; exact hm q' h1
    · rw [List.mem_singleton.mp hk]; exact hl

theorem Issues.Under.add {p : Loc} {i : Issues} (h : i.Under p) (e : VErr) (b : Bool) {l : Loc} (hl : p <+: l) :
    (i.add e b l).Under p := extendAt_under h hl

theorem mergeFold_under {p loc : Loc} (f : Loc → List Nat) (ps : List (Loc × List VErr)) (hp : ∀ q ∈ ps, p <+: loc ++ q.1)
    {i : Issues} (h : i.Under p) :
    (ps.foldl (fun acc q => Issues.mk (extendAt (loc ++ q.1) q.2 acc.issues)
      (updateAt (loc ++ q.1) (f q.1) acc.stop)) i).Under p := by
  induction ps generalizing i with
  | nil => exact h
  | cons q ps ih =>
    rw [List.foldl_cons]
    exact ih (fun q hq => hp q (List.mem_cons_of_mem _ hq)) (extendAt_under h (hp q (by simp)))

theorem Issues.Under.merge {p loc : Loc} {i o : Issues} (h : i.Under p) (hl : p <+: loc) : (i.merge o loc).Under p :=
  mergeFold_under (fun l => (aget l o.stop).getD []) o.issues (fun q _ => hl.trans (List.prefix_append _ _)) h

theorem Issues.Under.merge_nil {p : Loc} {i o : Issues} (h : i.Under p) (ho : o.Under p) : (i.merge o).Under p :=
  mergeFold_under (loc := []) (fun l => (aget l o.stop).getD []) o.issues (fun q hq => ho q hq) h

/-- When nothing is found below the prefix, there is nothing. -/
theorem Issues.Under.clean {p : Loc} {i : Issues} (h : i.Under p) (hn : (i.get p).hasIssues = false) : i.hasIssues = false := by
  rw [hasIssues_false_iff] at hn ⊢
  unfold Issues.get at hn
  simp only at hn
  cases hi : i.issues with
  | nil => rfl
  | cons q qs =>
    exfalso
    have hq := h q (by rw [hi]; simp)
    rw [hi, List.filterMap_cons, if_pos (List.prefix_iff_eq_take.mp hq).symm] at hn
    cases hn

variable [PyEnv]

theorem checkBody_under {c : Checker} {attrs : Attributes} {d : Direction} {b : Val} {s r : Issues}
    (hs : s.Under V.bodyLoc) (h : V.checkBody c attrs d b s = .ok r) : r.Under V.bodyLoc := by
  obtain ⟨is, rfl, -, -⟩ := V.checkBody_mono h
  exact hs.merge (List.prefix_refl _)

theorem parseBody_under {parse : Val → PyM (Val × Issues)} {attrs : Attributes} {body b : Val} {ig : List AttrRep}
    {is : Issues} (h : V.parseBody parse attrs body ig = .ok (b, is)) : is.Under V.bodyLoc := by
  obtain ⟨is1, is2, -, rfl, -, -⟩ := V.parseBody_split h
  exact ((Under.empty _).merge (List.prefix_refl _)).merge (List.prefix_refl _)

theorem itemsLoop_under {c : Checker} {attrs : Attributes} {p loc : Loc} (hl : p <+: loc) {xs : List Val} {j : Nat}
    {s r : Issues} (hs : s.Under p) (h : V.itemsLoop c attrs loc j xs s = .ok r) : r.Under p := by
  induction xs generalizing j s with
  | nil => rw [V.itemsLoop] at h; cases h; exact hs
  | cons x xs ih =>
    rw [V.itemsLoop] at h
    split at h
    · exact ih hs h
    · split at h
      · cases h
      · exact ih (hs.merge (hl.trans (List.prefix_append _ _))) h

theorem checkNewItems_under {a : Option Attr} {v : Val} {p loc : Loc} (hl : p <+: loc) {s r : Issues} (hs : s.Under p)
    (h : V.checkNewItems a v loc s = .ok r) : r.Under p := by
  unfold V.checkNewItems at h
  split at h
  · cases h; exact hs
  · split at h
    · cases h; exact hs
    · split at h
      · exact itemsLoop_under hl hs h
      · cases h
      · cases h

theorem newItemsLoop_under {v : Val} {p loc : Loc} (hl : p <+: loc) {as : List Attr} {s r : Issues} (hs : s.Under p)
    (h : V.newItemsLoop v loc as s = .ok r) : r.Under p := by
  induction as generalizing s with
  | nil => rw [V.newItemsLoop] at h; cases h; exact hs
  | cons a as ih =>
    rw [V.newItemsLoop] at h
    split at h
    · cases h
    · split at h
      · cases h
      · rename_i hc
        exact ih (checkNewItems_under (hl.trans (List.prefix_append _ _)) hs hc) h

theorem patchLoop_under {r : Schema} {i : Nat} {ops vs ps : List Val} {s s' : Issues} (hs : s.Under V.bodyLoc)
    (h : V.patchLoop r i ops vs ps s = .ok s') : s'.Under V.bodyLoc := by
  induction ops generalizing i vs ps s with
  | nil => rw [V.patchLoop] at h; cases h; exact hs; simp
  | cons o ops ih =>
    cases vs with
    | nil => rw [V.patchLoop] at h; cases h; exact hs; simp
    | cons v vs =>
    cases ps with
    | nil => rw [V.patchLoop] at h; cases h; exact hs; simp
    | cons p ps =>
      rw [V.patchLoop] at h
      split at h
      · cases h
      · rename_i s1 h1
        refine ih ?_ h
        unfold V.patchOne at h1
        split at h1
        · cases h1; exact hs
        · dsimp only at h1
          split at h1
          · exact newItemsLoop_under (List.prefix_append _ _) hs h1
          · split at h1
            · split at h1
              · cases h1
              · exact checkNewItems_under (List.prefix_append _ _) hs h1
            · cases h1

/-- Without query string and headers everything is about the body. -/
theorem singleRequest_under {m : Str} {s : Schema} {body : Val} {req : Request} {is : Issues}
    (h : singleRequest m s body = .ok (req, is)) : is.Under V.bodyLoc := by
  have hq : V.parseQuery .null = .ok (.null, {}) := rfl
  unfold singleRequest at h
  split at h
  · obtain ⟨q, iq, b, ib, h1, h2, rfl, -⟩ := V.parsePost_split h
    rw [hq] at h1; cases h1
    exact (Under.empty _).merge_nil (parseBody_under h2)
  split at h
  · obtain ⟨q, iq, b, ib, h1, h2, rfl, -⟩ := V.parsePut_split h
    rw [hq] at h1; cases h1
    exact (Under.empty _).merge_nil (parseBody_under h2)
  · unfold V.parsePatch at h
    rw [hq] at h
    simp only at h
    split at h
    · cases h
    · rename_i b i hb
      cases h
      unfold V.parsePatchBody at hb
      split at hb
      · cases hb
      · rename_i b1 i1 hb1
        have h1 := (Under.empty V.bodyLoc).merge_nil (parseBody_under hb1)
        simp only at hb
        split at hb
        · cases hb; exact h1
        · split at hb
          · split at hb
            · cases hb
            · rename_i hp
              cases hb
              exact patchLoop_under h1 hp
          all_goals cases hb

end Scim
