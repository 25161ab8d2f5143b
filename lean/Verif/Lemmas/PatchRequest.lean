import Verif.Props.PatchOp
import Verif.Props.Requests
import Verif.Spec.PatchRequest
import Verif.Lemmas.SchemaDoc

/-! Lemmas about the checks of PATCH requests. -/

namespace Scim
open Issues V
variable [PyEnv]

/-! ### Reading the parts of a list -/

mutual
/-- Reading a sub-attribute of an attribute that holds a list reads it from the items. -/
theorem getX_sub (v : Val) (r : AttrRep) (hr : r.sub = []) (out : List Val) (w : Str) (hw : w ≠ [])
    (h : Val.getX false v r = .ok (.list out)) :
    Val.getX false v { r with sub := w } = Val.getX true (.list out) { attr := w } := by
  match v with
  | .cont data lc =>
    rw [Val.getX] at h ⊢
    simp only [Bool.false_and, Bool.false_eq_true, if_false] at h ⊢
    split at h
    · rename_i k hk
      exact getAt_sub data k { attr := r.attr, sub := r.sub } hr out w hw h
    · rename_i hk
      split at h
      · cases h
      · rename_i k hk'
        rw [if_pos (by simp [hr])] at h
        simp only [show w.isEmpty = false by simpa using hw, Bool.false_eq_true, if_false]
        split at h
        · rename_i x hx
          cases h
          clear hk hk'
          induction data with
          | nil => simp [aget] at hx
          | cons p rest ih =>
            obtain ⟨k', v'⟩ := p
            rw [getAt]
            rw [aget_cons] at hx
            split at hx
            · rename_i e
              rw [if_pos e]
              cases hx; rfl
            · rename_i e
              rw [if_neg e]
              exact ih hx
        · cases h
  | .prim _ => simp [Val.getX] at h
  | .list _ => simp [Val.getX] at h
  | .dict _ => simp [Val.getX] at h
  | .dt _ => simp [Val.getX] at h
  | .missing => simp [Val.getX] at h
  | .invalid => simp [Val.getX] at h
  | .obj _ => simp [Val.getX] at h
theorem getAt_sub (data : List (Str × Val)) (k : Str) (r : AttrRep) (hr : r.sub = []) (out : List Val) (w : Str)
    (hw : w ≠ []) (h : getAt false k data r = .ok (.list out)) :
    getAt false k data { r with sub := w } = Val.getX true (.list out) { attr := w } := by
  match data with
  | [] => simp [getAt] at h
  | (k', v) :: rest =>
    rw [getAt] at h ⊢
    split at h
    · rename_i e
      rw [if_pos e]
      exact getX_sub v r hr out w hw h
    · rename_i e
      rw [if_neg e]
      exact getAt_sub rest k r hr out w hw h
end
/-! ### Adding issues -/

/-- `r` has the issues of `is`, and new ones as described by `P`: `P p q e` says that `e` can be reported at `p ++ q`,
and that something has to be reported under `p`. -/
structure Adds (P : Loc → Loc → VErr → Prop) (is r : Issues) : Prop where
  wf : r.WF
  keep : ∀ l e, e ∈ is.errorsAt l → e ∈ r.errorsAt l
  new : ∀ l e, e ∈ r.errorsAt l → e ∈ is.errorsAt l ∨ ∃ p q, l = p ++ q ∧ P p q e
  full : ∀ p q e, P p q e → ∃ q' e', e' ∈ r.errorsAt (p ++ q')

omit [PyEnv] in
theorem Adds.none {P : Loc → Loc → VErr → Prop} {is : Issues} (hw : is.WF) (h : ∀ p q e, ¬ P p q e) : Adds P is is :=
  ⟨hw, fun _ _ h => h, fun _ _ h => .inl h, fun p q e hp => absurd hp (h p q e)⟩

omit [PyEnv] in
theorem Adds.trans {P Q R : Loc → Loc → VErr → Prop} {is is' r : Issues} (h1 : Adds P is is') (h2 : Adds Q is' r)
    (hR : ∀ p q e, R p q e ↔ P p q e ∨ Q p q e) : Adds R is r := by
  refine ⟨h2.wf, fun l e h => h2.keep l e (h1.keep l e h), ?_, ?_⟩
  · intro l e h
    rcases h2.new l e h with h | ⟨p, q, hl, g⟩
    · rcases h1.new l e h with h | ⟨p, q, hl, g⟩
      · exact .inl h
      · exact .inr ⟨p, q, hl, (hR _ _ _).mpr (.inl g)⟩
    · exact .inr ⟨p, q, hl, (hR _ _ _).mpr (.inr g)⟩
  · intro p q e h
    rcases (hR _ _ _).mp h with h | h
    · obtain ⟨q', e', h⟩ := h1.full p q e h
      exact ⟨q', e', h2.keep _ _ h⟩
    · exact h2.full p q e h

omit [PyEnv] in
theorem Adds.congr {P R : Loc → Loc → VErr → Prop} {is r : Issues} (h1 : Adds P is r)
    (hR : ∀ p q e, R p q e ↔ P p q e) : Adds R is r :=
  ⟨h1.wf, h1.keep, fun l e h => (h1.new l e h).imp_right (fun ⟨p, q, hl, h⟩ => ⟨p, q, hl, (hR _ _ _).mpr h⟩),
    fun p q e h => h1.full p q e ((hR _ _ _).mp h)⟩

/-! ### The items -/

theorem mem_serverSubs {subs : List Attr} (hs : PlainSubs subs) {s : Attr} (hm : s ∈ subs) :
    Listed s.rep (serverRequired subs) ↔ s.info.required = true ∧ s.info.issuer = .server := by
  unfold Listed serverRequired
  constructor
  · rintro ⟨x, hx, h1, h2, h3⟩
    obtain ⟨b, hb, rfl⟩ := List.mem_map.mp hx
    obtain ⟨hb, hc⟩ := List.mem_filter.mp hb
    have e : b = s := eq_of_map_nodup hs.distinct hb hm h2
    subst e
    simpa using hc
  · rintro ⟨h1, h2⟩
    exact ⟨s.rep, List.mem_map.mpr ⟨s, List.mem_filter.mpr ⟨hm, by simp [h1, h2]⟩, rfl⟩, fun _ _ => rfl, rfl, rfl⟩

theorem plainSubs_keys {subs : List Attr} (hs : PlainSubs subs) : (subs.map Attr.key).Nodup := by
  have hd := hs.distinct
  rw [List.nodup_iff_pairwise_ne] at *
  rw [List.pairwise_map] at *
  refine hd.imp ?_
  intro a b hab he
  apply hab
  unfold Attr.key at he
  simp only [Prod.mk.injEq] at he
  rw [he.2.1]

/-- What the checker says about an item. -/
theorem call_item {a : Attr} (hs : PlainSubs a.subs) {x : Val} {p : Issues}
    (h : Checker.call { ignore := serverRequired a.subs } x (Attributes.ofList a.subs) .request = .ok p) (l : Loc) (e : VErr) :
    e ∈ p.errorsAt l ↔ e = ⟨15, []⟩ ∧ ∃ s, a.Lacks s x ∧ l = [.name s.rep.attr] := by
  rw [call_errors _ _ _ _ _ h, ofList_all (plainSubs_keys hs)]
  constructor
  · rintro ⟨s, hm, v, ho, he⟩
    rw [checkPresence_errors] at he
    rcases he.2 with ⟨rfl, h1, h2, h3, -⟩ | ⟨-, -, h, -⟩
    · have hsub := (hs.plain s hm).2.1
      have hd : a.Demands s := ⟨hm, h2, fun hi => h3 ((mem_serverSubs hs hm).mpr ⟨h2, hi⟩)⟩
      cases ho with
      | top g1 g2 g3 => exact ⟨rfl, s, ⟨hd, v, g2, h1⟩, rfl⟩
      | sub g => exact absurd hsub g
      | null g => exact absurd hsub g
      | item g => exact absurd hsub g
    · cases h
  · rintro ⟨rfl, s, ⟨⟨hm, h2, h3⟩, w, hw, hem⟩, rfl⟩
    refine ⟨s, hm, w, .top (hs.plain s hm).2.1 hw ?_, ?_⟩
    · rcases hem with rfl | rfl | rfl | rfl <;> rfl
    · rw [checkPresence_errors]
      exact ⟨rfl, .inl ⟨rfl, hem, h2, fun hl => h3 ((mem_serverSubs hs hm).mp hl).2, fun h => by cases h⟩⟩

theorem itemsLoop_adds {a : Attr} (hs : PlainSubs a.subs) {loc : Loc} {j : Nat} {xs : List Val} {is r : Issues} (hw : is.WF)
    (h : itemsLoop { ignore := serverRequired a.subs } (Attributes.ofList a.subs) loc j xs is = .ok r) :
    Adds (fun p q e => ∃ (k : Nat) (x : Val) (s : Attr), xs[k]? = some x ∧ a.Lacks s x ∧ p = loc ++ [.idx (j + k)] ∧
      q = [.name s.rep.attr] ∧ e = ⟨15, []⟩) is r := by
  induction xs generalizing j is with
  | nil => unfold itemsLoop at h; cases h; exact .none hw (by simp)
  | cons x xs ih =>
    rw [itemsLoop] at h
    have hstep : ∀ is', Adds (fun p q e => ∃ s, a.Lacks s x ∧ p = loc ++ [.idx j] ∧ q = [.name s.rep.attr] ∧ e = ⟨15, []⟩) is is' →
        itemsLoop { ignore := serverRequired a.subs } (Attributes.ofList a.subs) loc (j + 1) xs is' = .ok r →
        Adds (fun p q e => ∃ (k : Nat) (x' : Val) (s : Attr), (x :: xs)[k]? = some x' ∧ a.Lacks s x' ∧ p = loc ++ [.idx (j + k)] ∧
          q = [.name s.rep.attr] ∧ e = ⟨15, []⟩) is r := by
      intro is' h1 h2
      refine h1.trans (ih h1.wf h2) ?_
      intro p q e
      constructor
      · rintro ⟨k, x', s, hk, hl, rfl, rfl, rfl⟩
        cases k with
        | zero => cases hk; exact .inl ⟨s, hl, rfl, rfl, rfl⟩
        | succ k => exact .inr ⟨k, x', s, hk, hl, by rw [Nat.add_assoc, Nat.add_comm 1 k], rfl, rfl⟩
      · rintro (⟨s, hl, rfl, rfl, rfl⟩ | ⟨k, x', s, hk, hl, rfl, rfl, rfl⟩)
        · exact ⟨0, x, s, rfl, hl, rfl, rfl, rfl⟩
        · exact ⟨k + 1, x', s, hk, hl, by rw [Nat.add_assoc, Nat.add_comm 1 k], rfl, rfl⟩
    split at h
    · rename_i hh
      rw [hasIssues_one, hasIssuesAt_iff hw] at hh
      obtain ⟨m, ⟨t, rfl⟩, hm⟩ := hh
      refine hstep is ⟨hw, fun _ _ h => h, fun _ _ h => .inl h, ?_⟩ h
      rintro p q e ⟨s, hl, rfl, rfl, rfl⟩
      obtain ⟨e', he'⟩ := List.exists_mem_of_ne_nil _ hm
      exact ⟨t, e', he'⟩
    · split at h
      · cases h
      · rename_i p hp
        have hwp := call_wf hp
        refine hstep _ ⟨hw.merge hwp _, ?_, ?_, ?_⟩ h
        · intro l e he
          rw [errorsAt_merge hwp]
          exact List.mem_append_left _ he
        · intro l e he
          rw [errorsAt_merge hwp] at he
          rcases List.mem_append.mp he with he | he
          · exact .inl he
          · split at he
            · rename_i hpre
              obtain ⟨t, rfl⟩ := hpre
              rw [List.drop_left] at he
              obtain ⟨rfl, s, hl, rfl⟩ := (call_item hs hp _ _).mp he
              exact .inr ⟨_, _, rfl, s, hl, rfl, rfl, rfl⟩
            · cases he
        · rintro _ _ _ ⟨s, hl, rfl, rfl, rfl⟩
          refine ⟨[.name s.rep.attr], ⟨15, []⟩, ?_⟩
          rw [errorsAt_merge hwp, if_pos ⟨_, rfl⟩, List.drop_left]
          exact List.mem_append_right _ ((call_item hs hp _ _).mpr ⟨rfl, s, hl, rfl⟩)

/-- A part missing from an item of the value `v` of `a`, reported at `p ++ q`. -/
def MissingPart (a : Attr) (v : Val) (loc p q : Loc) (e : VErr) : Prop :=
  ∃ (xs : List Val) (k : Nat) (x : Val) (s : Attr), a.ManyParts ∧ v = .list xs ∧ xs[k]? = some x ∧ a.Lacks s x ∧ p = loc ++ [.idx k] ∧
    q = [.name s.rep.attr] ∧ e = ⟨15, []⟩

theorem checkNewItems_adds {a : Attr} (hs : PlainSubs a.subs) {v : Val} {loc : Loc} {is r : Issues} (hw : is.WF)
    (h : checkNewItems (some a) v loc is = .ok r) : Adds (MissingPart a v loc) is r := by
  unfold checkNewItems at h
  simp only at h
  split at h
  · rename_i hc
    cases h
    refine .none hw ?_
    rintro p q e ⟨xs, k, x, s, ⟨h1, h2⟩, rfl, -⟩
    simp [h1, h2, Val.isMissing] at hc
  · rename_i hc
    have hmp : a.ManyParts := by
      simp only [Bool.or_eq_true, Bool.not_eq_true', Bool.and_eq_false_iff, not_or, Bool.not_eq_false, Bool.not_eq_true] at hc
      exact hc.1
    split at h
    · rename_i xs
      refine (itemsLoop_adds hs hw h).congr ?_
      intro p q e
      unfold MissingPart
      constructor
      · rintro ⟨xs', k, x, s, -, e1, hk, hl, rfl, rfl, rfl⟩
        cases e1
        exact ⟨k, x, s, hk, hl, by simp, rfl, rfl⟩
      · rintro ⟨k, x, s, hk, hl, rfl, rfl, rfl⟩
        exact ⟨xs, k, x, s, hmp, rfl, hk, hl, by simp, rfl, rfl⟩
    · cases h
    · cases h

theorem newItemsLoop_adds {as : List Attr} (hs : ∀ a ∈ as, PlainSubs a.subs) {v : Val} {loc : Loc} {is r : Issues} (hw : is.WF)
    (h : newItemsLoop v loc as is = .ok r) :
    Adds (fun p q e => ∃ a ∈ as, ∃ w, v.getItem a.rep = .ok w ∧ MissingPart a w (loc ++ a.rep.loc) p q e) is r := by
  induction as generalizing is with
  | nil => unfold newItemsLoop at h; cases h; exact .none hw (by simp)
  | cons a as ih =>
    rw [newItemsLoop] at h
    split at h
    · cases h
    rename_i w hv
    split at h
    · cases h
    rename_i is' hc
    have h1 := checkNewItems_adds (hs a (by simp)) hw hc
    refine h1.trans (ih (fun a ha => hs a (by simp [ha])) h1.wf h) ?_
    intro p q e
    constructor
    · rintro ⟨b, hb, w', hv', hm⟩
      rcases List.mem_cons.mp hb with rfl | hb
      · rw [hv] at hv'; cases hv'; exact .inl hm
      · exact .inr ⟨b, hb, w', hv', hm⟩
    · rintro (hm | ⟨b, hb, w', hv', hm⟩)
      · exact ⟨a, by simp, w, hv, hm⟩
      · exact ⟨b, by simp [hb], w', hv', hm⟩
/-! ### Paths -/

/-- The filter of a path is about the attribute of the path. -/
theorem parsed_filter {s : Str} {p : PatchPath} {is : Issues} (h : PatchPath.parse s = .ok (some p, is)) {o : Op}
    (ho : p.filter = some o) : ∃ o', o = .cplx p.rep o' := by
  have hcons : ∃ r o', o = .cplx r o' := by
    obtain ⟨r, o', h1, -⟩ := (C62_consistent s p is h).1.filter o ho
    exact ⟨r, o', h1⟩
  obtain ⟨r, o', rfl⟩ := hcons
  have hmake : ∀ {rep f sub q}, PatchPath.make rep f sub = .ok q → q.rep = rep ∧ q.filter = f := by
    intro rep f sub q hq
    unfold PatchPath.make at hq
    split at hq
    · cases hq
    · split at hq
      · cases hq
      · split at hq
        · cases hq
        · cases hq; exact ⟨rfl, rfl⟩
  unfold PatchPath.parse at h
  simp only at h
  split at h
  · cases h
  · split at h
    · unfold parseCplxPath at h
      split at h
      · cases h
      · split at h
        · cases h
        · split at h
          · cases h
          · rename_i o2
            split at h
            · cases h
            · rename_i r2 hr2
              split at h
              · cases h
              · split at h
                · cases h
                · split at h
                  · cases h
                  · rename_i q hq
                    obtain ⟨h1, h2⟩ := hmake hq
                    cases h
                    rw [ho] at h2
                    cases h2
                    cases hr2
                    exact ⟨o', by rw [h1]⟩
    · split at h
      · cases h
      · split at h
        · cases h
        · rename_i q hq
          obtain ⟨h1, h2⟩ := hmake hq
          cases h
          rw [ho] at h2
          cases h2

/-- The attribute found for a path. -/
theorem getByPath_stands {r : Schema} {p : PatchPath} (hf : ∀ o, p.filter = some o → ∃ o', o = .cplx p.rep o')
    (hd : p.Declared r) : ∃ fr, filterRep p = .ok fr ∧ r.attrs.getByPath p.rep fr p.subRep = p.stands r := by
  obtain ⟨h1, h2⟩ := hd
  obtain ⟨a, ha⟩ := Option.isSome_iff_exists.mp h1
  have hgo : Attributes.getByPath.go r.attrs p.rep p.subRep = p.stands r := by
    unfold Attributes.getByPath.go PatchPath.stands
    rw [ha]
    cases hs : p.subRep with
    | none => simp
    | some s => simp
  unfold filterRep
  cases hfl : p.filter with
  | none => exact ⟨none, rfl, hgo⟩
  | some o =>
    obtain ⟨o', rfl⟩ := hf o hfl
    refine ⟨some p.rep, rfl, ?_⟩
    unfold Attributes.getByPath
    simp only [ha, Option.isNone_some, Bool.false_eq_true, if_false]
    exact hgo

/-! ### The operations -/

/-- A part missing from the new value of an operation, reported at `p ++ q`. -/
def OpMissing (r : Schema) (op value path : Val) (loc p q : Loc) (e : VErr) : Prop :=
  op ≠ .str PatchA.removeWord ∧
    ((path.isNoneOrMissing = true ∧ ∃ a ∈ r.attrs.all, ∃ w, value.getItem a.rep = .ok w ∧
        MissingPart a w (loc ++ a.rep.loc) p q e) ∨
      ∃ pp a, path = .obj (.path pp) ∧ pp.stands r = some a ∧ MissingPart a value loc p q e)

/-- The path of a parsed operation. -/
def GoodPath (r : Schema) (path : Val) : Prop :=
  ∀ p, path = .obj (.path p) → (∀ o, p.filter = some o → ∃ o', o = .cplx p.rep o') ∧ p.Declared r

theorem get_mem {r : Schema} {x : AttrRep} {a : Attr} (h : r.attrs.get x = some a) : a ∈ r.attrs.all := by
  unfold Attributes.get findAttr at h
  exact List.mem_of_find?_eq_some h

theorem stands_mem {r : Schema} {p : PatchPath} {a : Attr} (h : p.stands r = some a) : a ∈ r.attrs.all := by
  unfold PatchPath.stands at h
  split at h <;> exact get_mem h

theorem patchOne_adds {r : Schema} (hs : ∀ a ∈ r.attrs.all, PlainSubs a.subs) {i : Nat} {op value path : Val} {is res : Issues}
    (hp : GoodPath r path) (hw : is.WF) (h : patchOne r i op value path is = .ok res) :
    Adds (OpMissing r op value path (bodyLoc ++ [.name PatchA.opsWord, .idx i, .name PatchA.valWord])) is res := by
  unfold patchOne at h
  split at h
  · rename_i ht
    cases h
    refine .none hw ?_
    rintro p q e ⟨h1, -⟩
    exact h1 (isText_iff.mp ht)
  · rename_i ht
    have hop : op ≠ .str PatchA.removeWord := fun e => ht (isText_iff.mpr e)
    simp only at h
    split at h
    · rename_i hno
      refine (newItemsLoop_adds hs hw h).congr ?_
      intro p q e
      constructor
      · rintro ⟨-, ⟨-, h⟩ | ⟨pp, a, rfl, -⟩⟩
        · exact h
        · cases hno
      · exact fun h => ⟨hop, .inl ⟨hno, h⟩⟩
    · rename_i hno
      split at h
      · rename_i pp
        split at h
        · cases h
        rename_i fr hfr
        obtain ⟨hf, hd⟩ := hp pp rfl
        obtain ⟨fr', e1, e2⟩ := getByPath_stands hf hd
        rw [hfr] at e1
        cases e1
        rw [e2] at h
        cases hst : pp.stands r with
        | none =>
          rw [hst] at h
          cases h
          refine .none hw ?_
          rintro p q e ⟨-, ⟨h, -⟩ | ⟨pp', a, h1, h2, -⟩⟩
          · exact hno h
          · cases h1; rw [hst] at h2; cases h2
        | some a =>
          rw [hst] at h
          refine (checkNewItems_adds (hs a (stands_mem hst)) hw h).congr ?_
          intro p q e
          constructor
          · rintro ⟨-, ⟨h, -⟩ | ⟨pp', a', h1, h2, h3⟩⟩
            · exact absurd h hno
            · cases h1; rw [hst] at h2; cases h2; exact h3
          · exact fun h => ⟨hop, .inr ⟨pp, a, rfl, hst, h⟩⟩
      · cases h

theorem patchLoop_adds {r : Schema} (hs : ∀ a ∈ r.attrs.all, PlainSubs a.subs) {i : Nat} {ops vs ps : List Val} {is res : Issues}
    (hp : ∀ p ∈ ps, GoodPath r p) (hw : is.WF) (h : patchLoop r i ops vs ps is = .ok res) :
    Adds (fun p q e => ∃ (k : Nat) (op v pa : Val), ops[k]? = some op ∧ vs[k]? = some v ∧ ps[k]? = some pa ∧
      OpMissing r op v pa (bodyLoc ++ [.name PatchA.opsWord, .idx (i + k), .name PatchA.valWord]) p q e) is res := by
  induction ops generalizing i vs ps is with
  | nil => unfold patchLoop at h; cases h; exact .none hw (by simp)
  | cons op ops ih =>
    cases vs with
    | nil => unfold patchLoop at h; cases h; exact .none hw (by simp)
    | cons v vs =>
      cases ps with
      | nil => unfold patchLoop at h; cases h; exact .none hw (by simp)
      | cons pa ps =>
        rw [patchLoop] at h
        split at h
        · cases h
        rename_i is' h1
        have h1 := patchOne_adds hs (hp pa (by simp)) hw h1
        refine h1.trans (ih (fun p hm => hp p (by simp [hm])) h1.wf h) ?_
        intro p q e
        constructor
        · rintro ⟨k, op', v', pa', g1, g2, g3, g4⟩
          cases k with
          | zero => cases g1; cases g2; cases g3; exact .inl g4
          | succ k => exact .inr ⟨k, op', v', pa', g1, g2, g3, by rwa [show i + 1 + k = i + (k + 1) by omega]⟩
        · rintro (g | ⟨k, op', v', pa', g1, g2, g3, g4⟩)
          · exact ⟨0, op, v, pa, rfl, rfl, rfl, g⟩
          · exact ⟨k + 1, op', v', pa', g1, g2, g3, by rwa [show i + (k + 1) = i + 1 + k by omega]⟩
/-! ### Reading the operations -/

theorem toCont_read {kvs : List (Str × Val)} (hd : (kvs.map (fun p => lower p.1)).Nodup) (hne : ∀ p ∈ kvs, p.1 ≠ [])
    {k : Str} {v : Val} (hk : aget k kvs = some v) : (Val.toCont (.dict kvs)).getItem { attr := k } = .ok (convVal v) := by
  have hm : k ∈ kvs.map (·.1) := by
    apply Classical.byContradiction
    intro hn
    rw [aget_eq_none_iff.mpr hn] at hk
    cases hk
  unfold Val.toCont Val.getItem
  rw [Val.getX]
  simp only [Bool.false_and, Bool.false_eq_true, if_false]
  have h0 : aget (lower []) (lcOf (kvs.map (·.1))) = none := by
    cases he : aget (lower []) (lcOf (kvs.map (·.1))) with
    | none => rfl
    | some x =>
      exfalso
      rw [aget_lcOf] at he
      have := List.mem_of_getLast? he
      obtain ⟨h1, h2⟩ := List.mem_filter.mp this
      obtain ⟨p, hp, rfl⟩ := List.mem_map.mp h1
      refine lower_ne_nil (hne p hp) ?_
      simpa using h2
  rw [h0]
  simp only
  rw [aget_lcOf_mem hd hm]
  simp only [List.isEmpty_nil, if_true, aget_convPairs, hk, Option.map_some]

theorem words_nodup {t p w : Val} :
    ([(PatchA.opWord, t), (PatchA.pathWord, p), (PatchA.valWord, w)].map (fun p => lower p.1)).Nodup := by
  have h1 : lower PatchA.opWord ≠ lower PatchA.pathWord := lower_ne_ascii (by decide) (by decide) (by decide)
  have h2 : lower PatchA.opWord ≠ lower PatchA.valWord := lower_ne_ascii (by decide) (by decide) (by decide)
  have h3 : lower PatchA.pathWord ≠ lower PatchA.valWord := lower_ne_ascii (by decide) (by decide) (by decide)
  simp [h1, h2, h3]

theorem words_nodup' {t p : Val} :
    ([(PatchA.opWord, t), (PatchA.pathWord, p)].map (fun p => lower p.1)).Nodup := by
  have h1 : lower PatchA.opWord ≠ lower PatchA.pathWord := lower_ne_ascii (by decide) (by decide) (by decide)
  simp [h1]

/-- The path of a parsed operation is the path given. -/
theorem parseOne_path {r : Schema} {t path value o : Val} (h : PatchA.parseOne r t path value = .ok (o, {})) :
    o.getItem { attr := PatchA.pathWord } = .ok (convVal path) := by
  unfold PatchA.parseOne at h
  split at h
  · unfold PatchA.parseAddReplace at h
    split at h
    · rename_i hh
      exfalso
      have := congrArg Prod.snd (Except.ok.inj h)
      have h2 := congrArg Issues.hasIssues this
      simp only at h2
      have h3 : (Issues.empty.merge (PatchA.pathIssues r path) [.name PatchA.pathWord]).hasIssues = false := h2
      rw [hasIssues_merge_false] at h3
      rw [h3.2] at hh
      cases hh
    · split at h
      · cases h
      · rename_i v iv hv
        have : o = _ := (congrArg Prod.fst (Except.ok.inj h)).symm
        rw [this]
        exact toCont_read words_nodup (by simp [PatchA.opWord, PatchA.pathWord, PatchA.valWord]) rfl
  · unfold PatchA.parseRemove at h
    split at h
    · rename_i p
      have hread : (Val.toCont (.dict [(PatchA.opWord, .str PatchA.removeWord), (PatchA.pathWord, .obj (.path p))])).getItem
          { attr := PatchA.pathWord } = .ok (convVal (.obj (.path p))) :=
        toCont_read words_nodup' (by simp [PatchA.opWord, PatchA.pathWord]) rfl
      simp only at h
      repeat' split at h
      all_goals first
        | cases h; done
        | (have e := (congrArg Prod.fst (Except.ok.inj h)).symm
           have e2 := congrArg Prod.snd (Except.ok.inj h)
           first
            | (simp only at e; rw [e]; exact hread)
            | (exfalso
               have h2 := congrArg Issues.hasIssues e2
               simp only at h2
               rename_i hh
               rw [hh] at h2
               cases h2))
    · cases h
/-! ### Issues stay -/

theorem itemsLoop_mono {c : Checker} {as : Attributes} {loc : Loc} {j : Nat} {xs : List Val} {is r : Issues}
    (h : itemsLoop c as loc j xs is = .ok r) (hn : r.hasIssues = false) : is.hasIssues = false := by
  induction xs generalizing j is with
  | nil => unfold itemsLoop at h; cases h; exact hn
  | cons x xs ih =>
    rw [itemsLoop] at h
    split at h
    · exact ih h
    · split at h
      · cases h
      · exact ((hasIssues_merge_false _ _ _).mp (ih h)).1

theorem checkNewItems_mono {a : Option Attr} {v : Val} {loc : Loc} {is r : Issues}
    (h : checkNewItems a v loc is = .ok r) (hn : r.hasIssues = false) : is.hasIssues = false := by
  unfold checkNewItems at h
  split at h
  · cases h; exact hn
  · split at h
    · cases h; exact hn
    · split at h
      · exact itemsLoop_mono h hn
      · cases h
      · cases h

theorem newItemsLoop_mono {v : Val} {loc : Loc} {as : List Attr} {is r : Issues}
    (h : newItemsLoop v loc as is = .ok r) (hn : r.hasIssues = false) : is.hasIssues = false := by
  induction as generalizing is with
  | nil => unfold newItemsLoop at h; cases h; exact hn
  | cons a as ih =>
    rw [newItemsLoop] at h
    split at h
    · cases h
    · split at h
      · cases h
      · rename_i h1
        exact checkNewItems_mono h1 (ih h)

theorem patchLoop_mono {r : Schema} {i : Nat} {ops vs ps : List Val} {is res : Issues}
    (h : patchLoop r i ops vs ps is = .ok res) (hn : res.hasIssues = false) : is.hasIssues = false := by
  induction ops generalizing i vs ps is with
  | nil => unfold patchLoop at h; cases h; exact hn
  | cons op ops ih =>
    cases vs with
    | nil => unfold patchLoop at h; cases h; exact hn
    | cons v vs =>
      cases ps with
      | nil => unfold patchLoop at h; cases h; exact hn
      | cons p ps =>
        rw [patchLoop] at h
        split at h
        · cases h
        rename_i h1
        have h2 := ih h
        unfold patchOne at h1
        split at h1
        · cases h1; exact h2
        · simp only at h1
          split at h1
          · exact newItemsLoop_mono h1 h2
          · split at h1
            · split at h1
              · cases h1
              · exact checkNewItems_mono h1 h2
            · cases h1

end Scim
