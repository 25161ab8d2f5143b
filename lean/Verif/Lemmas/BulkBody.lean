import Verif.Lemmas.BulkTotality
import Verif.Lemmas.PatchOutcome
import Verif.Lemmas.Under

/-! From the operations of a bulk request to the whole request: when it raises. -/

namespace Scim
open Issues

/-! ### Every issue of a request stops something -/

/-- Every location with issues is one that stops. -/
def Issues.AllStop (i : Issues) : Prop := ∀ q ∈ i.issues, (aget q.1 i.stop).isSome

theorem Issues.AllStop.empty : Issues.AllStop {} := by intro q hq; cases hq

theorem Issues.AllStop.step {s : Issues} (h : s.AllStop) (l : Loc) (es : List VErr) (cs : List Nat) :
    Issues.AllStop ⟨extendAt l es s.issues, updateAt l cs s.stop⟩ := by
  intro q hq
  simp only [updateAt, aget_aset]
  split
  · simp
  · rename_i hne
    have hk : q.1 ∈ (extendAt l es s.issues).map (·.1) := List.mem_map.mpr ⟨q, hq, rfl⟩
    unfold extendAt at hk
    rw [keys_aset] at hk
    have : q.1 ∈ s.issues.map (·.1) := by
      split at hk
      · exact hk
      · rcases List.mem_append.mp hk with hk | hk
        · exact hk
        · exact absurd (List.mem_singleton.mp hk).symm hne
    obtain ⟨q', h1, h2⟩ := List.mem_map.mp this
    rw [← h2]
    exact h q' h1

theorem mergeFold_allStop {loc : Loc} (f : Loc → List Nat) (ps : List (Loc × List VErr)) {i : Issues} (h : i.AllStop) :
    (ps.foldl (fun acc q => Issues.mk (extendAt (loc ++ q.1) q.2 acc.issues)
      (updateAt (loc ++ q.1) (f q.1) acc.stop)) i).AllStop := by
  induction ps generalizing i with
  | nil => exact h
  | cons q ps ih =>
    rw [List.foldl_cons]
    exact ih (h.step _ _ _)

theorem Issues.AllStop.merge {s : Issues} (h : s.AllStop) (o : Issues) (loc : Loc) : (s.merge o loc).AllStop :=
  mergeFold_allStop (fun l => (aget l o.stop).getD []) o.issues h

/-- What is found below a location of such issues can be merged. -/
theorem Issues.AllStop.mergeCopy {i : Issues} (h : i.AllStop) (s : Issues) (p l : Loc) :
    s.mergeCopy (i.get p) l = .ok (s.merge (i.get p) l) := by
  unfold Issues.mergeCopy
  rw [if_pos]
  rw [List.all_eq_true]
  intro q hq
  rw [stop_get]
  unfold Issues.get at hq
  simp only [List.mem_filterMap] at hq
  obtain ⟨q0, h0, h1⟩ := hq
  split at h1
  · rename_i ht
    cases h1
    simp only
    have : p ++ q0.1.drop p.length = q0.1 := by
      have := List.take_append_drop p.length q0.1
      rwa [ht] at this
    rw [this]
    exact h q0 h0
  · cases h1

variable [PyEnv]

theorem checkBody_allStop {c : Checker} {attrs : Attributes} {d : Direction} {b : Val} {s r : Issues}
    (hs : s.AllStop) (h : V.checkBody c attrs d b s = .ok r) : r.AllStop := by
  obtain ⟨is, rfl, -, -⟩ := V.checkBody_mono h
  exact hs.merge _ _

theorem parseBody_allStop {parse : Val → PyM (Val × Issues)} {attrs : Attributes} {body b : Val} {ig : List AttrRep}
    {is : Issues} (h : V.parseBody parse attrs body ig = .ok (b, is)) : is.AllStop := by
  obtain ⟨is1, is2, -, rfl, -, -⟩ := V.parseBody_split h
  exact (AllStop.empty.merge _ _).merge _ _

theorem itemsLoop_allStop {c : Checker} {attrs : Attributes} {loc : Loc} {xs : List Val} {j : Nat}
    {s r : Issues} (hs : s.AllStop) (h : V.itemsLoop c attrs loc j xs s = .ok r) : r.AllStop := by
  induction xs generalizing j s with
  | nil => rw [V.itemsLoop] at h; cases h; exact hs
  | cons x xs ih =>
    rw [V.itemsLoop] at h
    split at h
    · exact ih hs h
    · split at h
      · cases h
      · exact ih (hs.merge _ _) h

theorem checkNewItems_allStop {a : Option Attr} {v : Val} {loc : Loc} {s r : Issues} (hs : s.AllStop)
    (h : V.checkNewItems a v loc s = .ok r) : r.AllStop := by
  unfold V.checkNewItems at h
  split at h
  · cases h; exact hs
  · split at h
    · cases h; exact hs
    · split at h
      · exact itemsLoop_allStop hs h
      · cases h
      · cases h

theorem newItemsLoop_allStop {v : Val} {loc : Loc} {as : List Attr} {s r : Issues} (hs : s.AllStop)
    (h : V.newItemsLoop v loc as s = .ok r) : r.AllStop := by
  induction as generalizing s with
  | nil => rw [V.newItemsLoop] at h; cases h; exact hs
  | cons a as ih =>
    rw [V.newItemsLoop] at h
    split at h
    · cases h
    · split at h
      · cases h
      · rename_i hc
        exact ih (checkNewItems_allStop hs hc) h

theorem patchLoop_allStop {r : Schema} {i : Nat} {ops vs ps : List Val} {s s' : Issues} (hs : s.AllStop)
    (h : V.patchLoop r i ops vs ps s = .ok s') : s'.AllStop := by
  induction ops generalizing i vs ps s with
  | nil => rw [V.patchLoop] at h; cases h; exact hs; simp
  | cons o ops ih =>
    cases vs with
    | nil => rw [V.patchLoop] at h; cases h; exact hs; simp
    | cons v vs =>
    cases ps with
    | nil => rw [V.patchLoop] at h; cases h; exact hs; simp
    | cons p ps =>
      rw [V.patchLoop] at h
      split at h
      · cases h
      · rename_i s1 h1
        refine ih ?_ h
        unfold V.patchOne at h1
        split at h1
        · cases h1; exact hs
        · dsimp only at h1
          split at h1
          · exact newItemsLoop_allStop hs h1
          · split at h1
            · split at h1
              · cases h1
              · exact checkNewItems_allStop hs h1
            · cases h1

/-- All issues of a single request without query string stop something. -/
theorem singleRequest_allStop {m : Str} {s : Schema} {body : Val} {req : Request} {is : Issues}
    (h : singleRequest m s body = .ok (req, is)) : is.AllStop := by
  have hq : V.parseQuery .null = .ok (.null, {}) := rfl
  unfold singleRequest at h
  split at h
  · obtain ⟨q, iq, b, ib, h1, h2, rfl, -⟩ := V.parsePost_split h
    rw [hq] at h1; cases h1
    exact AllStop.empty.merge _ _
  split at h
  · obtain ⟨q, iq, b, ib, h1, h2, rfl, -⟩ := V.parsePut_split h
    rw [hq] at h1; cases h1
    exact AllStop.empty.merge _ _
  · unfold V.parsePatch at h
    rw [hq] at h
    simp only at h
    split at h
    · cases h
    · rename_i b i hb
      cases h
      unfold V.parsePatchBody at hb
      split at hb
      · cases hb
      · rename_i b1 i1 hb1
        have h1 : (Issues.merge {} i1).AllStop := AllStop.empty.merge _ _
        simp only at hb
        split at hb
        · cases hb; exact h1
        · split at hb
          · split at hb
            · cases hb
            · rename_i hp
              cases hb
              exact patchLoop_allStop h1 hp
          all_goals cases hb

namespace V

/-! ### The loop over the operations -/

/-- An operation that is looked at and makes the parser raise. -/
def OpFails (vs : List (Str × Schema)) (path data method : Val) : Prop :=
  method.isText BulkA.deleteWord = false ∧ ((∃ e, resourceName method path = .error e) ∨ methodOf method = none ∨
    ∃ name m s e, resourceName method path = .ok name ∧ methodOf method = some m ∧ aget name vs = some s ∧
      parseOp m s data = .error e)

/-- The operation is looked at. -/
def Proceeds (i : Nat) (s : Issues) : Prop :=
  s.canProceed [opPartLoc i BulkA.pathWord, opPartLoc i BulkA.dataWord,
      [.name BulkA.opsWord, .idx i, .name BulkA.methodWord]] = true

theorem parseOp_allStop {m : Method} {s : Schema} {data : Val} {req : Request} {is : Issues}
    (h : parseOp m s data = .ok (req, is)) : is.AllStop := by
  unfold parseOp at h
  split at h
  · cases h; exact AllStop.empty
  · exact singleRequest_allStop (m := "POST".toList) (s := s) (body := data) (by unfold singleRequest; rw [if_pos rfl]; exact h)
  · exact singleRequest_allStop (m := "PUT".toList) (s := s) (body := data) (by
      unfold singleRequest; rw [if_neg (by decide), if_pos rfl]; exact h)
  · exact singleRequest_allStop (m := "PATCH".toList) (s := s) (body := data) (by
      unfold singleRequest; rw [if_neg (by decide), if_neg (by decide)]; exact h)
  · cases h

theorem parseOpFor_exact (vs : List (Str × Schema)) (i : Nat) {o : Val} (ho : o.isCont = true) (path data method : Val) (s : Issues) :
    (∃ o' r, parseOpFor vs i o path data method s = .ok (o', r) ∧ ¬ OpFails vs path data method ∧
      ∀ l, (∀ w, ¬ opPartLoc i w <+: l) → ((aget l r.stop).isSome ↔ (aget l s.stop).isSome)) ∨
    (∃ e, parseOpFor vs i o path data method s = .error e) ∧ OpFails vs path data method := by
  unfold parseOpFor
  by_cases hd : method.isText BulkA.deleteWord = true
  · rw [if_pos hd]
    refine .inl ⟨_, _, rfl, ?_, fun _ _ => Iff.rfl⟩
    rintro ⟨h, -⟩
    rw [hd] at h; cases h
  · rw [if_neg hd]
    have hd' : method.isText BulkA.deleteWord = false := by simpa using hd
    cases hr : resourceName method path with
    | error e => exact .inr ⟨⟨_, rfl⟩, hd', .inl ⟨e, hr⟩⟩
    | ok name =>
      dsimp only
      cases hm : methodOf method with
      | none => exact .inr ⟨⟨_, rfl⟩, hd', .inr (.inl hm)⟩
      | some m =>
        dsimp only
        cases hv : aget name vs with
        | none =>
          refine .inl ⟨_, _, rfl, ?_, ?_⟩
          · rintro ⟨-, ⟨e, h⟩ | h | ⟨n', m', s', e, h1, h2, h3, -⟩⟩
            · rw [hr] at h; cases h
            · rw [hm] at h; cases h
            · rw [hr] at h1; cases h1
              rw [hv] at h3; cases h3
          · intro l hl
            rw [stop_add_isSome]
            constructor
            · rintro (h | ⟨-, h⟩)
              · exact h
              · exact absurd (by rw [h]; exact List.prefix_refl _) (hl BulkA.pathWord)
            · exact .inl
        | some sc =>
          dsimp only
          unfold parseOpData
          cases hp : parseOp m sc data with
          | error e => exact .inr ⟨⟨_, rfl⟩, hd', .inr (.inr ⟨name, m, sc, e, hr, hm, hv, hp⟩)⟩
          | ok q =>
            obtain ⟨req, is⟩ := q
            dsimp only
            rw [(parseOp_allStop hp).mergeCopy]
            dsimp only
            obtain ⟨o', ho'⟩ : ∃ o', o.setPlain BulkA.dataWord req.body = .ok o' := by
              cases o <;> simp [Val.isCont] at ho
              exact ⟨_, rfl⟩
            rw [ho']
            refine .inl ⟨_, _, rfl, ?_, ?_⟩
            · rintro ⟨-, ⟨e, h⟩ | h | ⟨n', m', s', e, h1, h2, h3, h4⟩⟩
              · rw [hr] at h; cases h
              · rw [hm] at h; cases h
              · rw [hr] at h1; cases h1
                rw [hm] at h2; cases h2
                rw [hv] at h3; cases h3
                rw [hp] at h4; cases h4
            · intro l hl
              rw [stop_merge_isSome]
              constructor
              · rintro (h | ⟨m, -, h⟩)
                · exact h
                · exact absurd (by rw [← h]; exact List.prefix_append _ _) (hl BulkA.dataWord)
              · exact .inl

omit [PyEnv] in
theorem proceeds_congr {i : Nat} {s r : Issues} (h : ∀ l, (∀ (k : Nat) w, k < i → ¬ opPartLoc k w <+: l) →
    ((aget l r.stop).isSome ↔ (aget l s.stop).isSome)) : Proceeds i r ↔ Proceeds i s := by
  have key : ∀ l ∈ [opPartLoc i BulkA.pathWord, opPartLoc i BulkA.dataWord,
      [.name BulkA.opsWord, .idx i, .name BulkA.methodWord]], r.canProceedAt l = s.canProceedAt l := by
    intro l hl
    have hq : ∀ q, q <+: l → ((aget q r.stop).isSome ↔ (aget q s.stop).isSome) := by
      intro q hq
      apply h
      intro k w hk hp
      have hp := hp.trans hq
      simp only [List.mem_cons, List.not_mem_nil, or_false] at hl
      rcases hl with rfl | rfl | rfl
      · obtain ⟨t, ht⟩ := hp
        simp only [opPartLoc, bodyLoc, List.cons_append, List.nil_append, List.cons.injEq, LKey.idx.injEq] at ht
        omega
      · obtain ⟨t, ht⟩ := hp
        simp only [opPartLoc, bodyLoc, List.cons_append, List.nil_append, List.cons.injEq, LKey.idx.injEq] at ht
        omega
      · exact absurd hp.length_le (by simp [opPartLoc, bodyLoc])
    rw [Bool.eq_iff_iff, canProceedAt_iff, canProceedAt_iff]
    constructor
    · intro h' q hq'
      have := h' q hq'
      rw [← Option.not_isSome_iff_eq_none] at this ⊢
      rwa [← hq q hq']
    · intro h' q hq'
      have := h' q hq'
      rw [← Option.not_isSome_iff_eq_none] at this ⊢
      rwa [hq q hq']
  unfold Proceeds Issues.canProceed
  simp only [List.all_cons, List.all_nil, Bool.and_true]
  rw [key _ (by simp), key _ (by simp), key _ (by simp)]

/-- The loop goes through unless an operation that is looked at makes it raise. -/
theorem bulkLoop_exact {vs : List (Str × Schema)} (s0 : Issues) : ∀ (k : Nat) (os ps ds ms : List Val) (s : Issues),
    ps.length = os.length → ds.length = os.length → ms.length = os.length → (∀ o ∈ os, o.isCont = true) →
    (∀ l, (∀ (i : Nat) w, i < k → ¬ opPartLoc i w <+: l) → ((aget l s.stop).isSome ↔ (aget l s0.stop).isSome)) →
    ((∃ r, bulkLoop vs k os ps ds ms s = .ok r) ↔
      ∀ (i : Nat) p d m, ps[i]? = some p → ds[i]? = some d → ms[i]? = some m → Proceeds (k + i) s0 → ¬ OpFails vs p d m)
  | k, [], [], [], [], s, _, _, _, _, _ => by
    rw [bulkLoop]
    · simp
    · simp
  | k, [], p :: ps, ds, ms, s, h1, _, _, _, _ => by simp at h1
  | k, [], [], d :: ds, ms, s, _, h2, _, _, _ => by simp at h2
  | k, [], [], [], m :: ms, s, _, _, h3, _, _ => by simp at h3
  | k, o :: os, [], ds, ms, s, h1, _, _, _, _ => by simp at h1
  | k, o :: os, p :: ps, [], ms, s, _, h2, _, _, _ => by simp at h2
  | k, o :: os, p :: ps, d :: ds, [], s, _, _, h3, _, _ => by simp at h3
  | k, o :: os, p :: ps, d :: ds, m :: ms, s, h1, h2, h3, ho, hs => by
    simp only [List.length_cons, Nat.add_right_cancel_iff] at h1 h2 h3
    have hpk : Proceeds k s ↔ Proceeds k s0 := proceeds_congr hs
    rw [bulkLoop]
    have hstep : ∀ r : Issues, (∀ l, (∀ w, ¬ opPartLoc k w <+: l) → ((aget l r.stop).isSome ↔ (aget l s.stop).isSome)) →
        ∀ l, (∀ (i : Nat) w, i < k + 1 → ¬ opPartLoc i w <+: l) → ((aget l r.stop).isSome ↔ (aget l s0.stop).isSome) := by
      intro r hr l hl
      rw [hr l (fun w => hl k w (by omega)), hs l (fun i w hi => hl i w (by omega))]
    have hcons : (∀ (i : Nat) p' d' m', (p :: ps)[i]? = some p' → (d :: ds)[i]? = some d' → (m :: ms)[i]? = some m' →
        Proceeds (k + i) s0 → ¬ OpFails vs p' d' m') ↔ (Proceeds k s0 → ¬ OpFails vs p d m) ∧
        ∀ (i : Nat) p' d' m', ps[i]? = some p' → ds[i]? = some d' → ms[i]? = some m' →
        Proceeds (k + 1 + i) s0 → ¬ OpFails vs p' d' m' := by
      constructor
      · intro h
        refine ⟨h 0 p d m rfl rfl rfl, ?_⟩
        intro i p' d' m' a b c e
        exact h (i + 1) p' d' m' (by simpa using a) (by simpa using b) (by simpa using c)
          (by rwa [show k + (i + 1) = k + 1 + i by omega])
      · rintro ⟨h0, h⟩ i p' d' m' a b c e
        cases i with
        | zero =>
          simp only [List.getElem?_cons_zero, Option.some.injEq] at a b c
          subst a b c
          exact h0 e
        | succ i =>
          exact h i p' d' m' (by simpa using a) (by simpa using b) (by simpa using c)
            (by rwa [show k + 1 + i = k + (i + 1) by omega])
    have htail : ∀ (o' : Val) (r : Issues), (∀ l, (∀ w, ¬ opPartLoc k w <+: l) → ((aget l r.stop).isSome ↔ (aget l s.stop).isSome)) →
        ((∃ q, (match bulkLoop vs (k + 1) os ps ds ms r with
            | .error e => (.error e : PyM (List Val × Issues))
            | .ok (os', issues) => .ok (o' :: os', issues)) = .ok q) ↔
          ∀ (i : Nat) p' d' m', ps[i]? = some p' → ds[i]? = some d' → ms[i]? = some m' →
            Proceeds (k + 1 + i) s0 → ¬ OpFails vs p' d' m') := by
      intro o' r hr
      rw [← bulkLoop_exact s0 (k + 1) os ps ds ms r h1 h2 h3 (fun z hz => ho z (List.mem_cons_of_mem _ hz)) (hstep r hr)]
      cases bulkLoop vs (k + 1) os ps ds ms r with
      | error e => simp
      | ok q => simp
    rw [hcons]
    unfold bulkOne
    by_cases hc : Proceeds k s
    · have hc' := hc
      unfold Proceeds at hc'
      rw [if_pos hc']
      rcases parseOpFor_exact vs k (ho o (by simp)) p d m s with ⟨o', r, e, hf, hr⟩ | ⟨⟨e, he⟩, hf⟩
      · rw [e]
        dsimp only
        refine Iff.trans (htail o' r hr) ?_
        exact ⟨fun h => ⟨fun _ => hf, h⟩, fun h => h.2⟩
      · rw [he]
        constructor
        · rintro ⟨q, h⟩; cases h
        · rintro ⟨h, -⟩
          exact absurd hf (h (hpk.mp hc))
    · have hc' := hc
      unfold Proceeds at hc'
      rw [if_neg hc']
      dsimp only
      refine Iff.trans (htail o s (fun _ _ => Iff.rfl)) ?_
      exact ⟨fun h => ⟨fun h' => absurd (hpk.mpr h') hc, h⟩, fun h => h.2⟩

end V

namespace BulkA

/-! ### The body -/

theorem request_owned : requestSchema.Owned := by
  apply owned_of request_wf
  have hall : requestSchema.attrs.all = (schemasAttr :: [failA, requestOps]).flatMap (bindWithSubs requestUrn false) := by
    obtain ⟨_, h2⟩ := bind_facts (urn := requestUrn) (ext := false) (declarations_of requestNames_eq (by decide +kernel))
    exact ofList_all (keys_of_lnames h2)
  rw [hall]
  exact owned_bind (named_of requestNames_eq (by decide +kernel))

theorem request_all_eq : requestSchema.attrs.all = (schemasAttr :: [failA, requestOps]).flatMap (bindWithSubs requestUrn false) := by
  obtain ⟨_, h2⟩ := bind_facts (urn := requestUrn) (ext := false) (declarations_of requestNames_eq (by decide +kernel))
  exact ofList_all (keys_of_lnames h2)

theorem request_sub {a : Attr} (ha : a ∈ requestSchema.attrs.all) (hs : a.rep.sub ≠ []) :
    ∃ s ∈ requestSubs, a = bindAttr s { schema := requestUrn, attr := opsWord, sub := s.rep.attr } := by
  rw [request_all_eq] at ha
  obtain ⟨d, hd, ha⟩ := List.mem_flatMap.mp ha
  unfold bindWithSubs at ha
  rcases List.mem_cons.mp ha with rfl | ha
  · rw [bindAttr_rep] at hs
    exact absurd rfl hs
  · obtain ⟨s, hs', rfl⟩ := List.mem_map.mp ha
    simp only [List.mem_cons, List.not_mem_nil, or_false] at hd
    rcases hd with rfl | rfl | rfl
    · cases hs'
    · cases hs'
    · rw [requestOps_subs] at hs'
      exact ⟨s, hs', rfl⟩

theorem path_mem : bindAttr pathA { schema := requestUrn, attr := opsWord, sub := pathWord } ∈ requestSchema.attrs.all := by
  rw [request_all_eq]
  refine List.mem_flatMap.mpr ⟨requestOps, by simp, ?_⟩
  unfold bindWithSubs
  refine List.mem_cons_of_mem _ (List.mem_map.mpr ⟨pathA, ?_, rfl⟩)
  rw [requestOps_subs]
  simp [requestSubs]

theorem request_parent {a : Attr} (ha : a ∈ requestSchema.attrs.all) (hs : a.rep.sub ≠ []) :
    requestSchema.attrs.get { schema := a.rep.schema, attr := a.rep.attr } = some requestOpsB := by
  obtain ⟨t, ht, h1, -, -, -, h2⟩ := request_owned.parent request_wf ha hs
  rcases request_top t ht with rfl | rfl | rfl
  · cases h1
  · cases h1
  · exact h2

/-- What the presence check of a parsed request says below `Operations`. -/
theorem presence_errors {d : List (Str × Val)} {lc : List (Str × Str)} {os : List Val} {is2 : Issues}
    (hget : (Val.cont d lc).getItem (requestRep []) = .ok (.list os))
    (h : Checker.call {} (.cont d lc) requestSchema.attrs .response = .ok is2) {i : Nat} {o : Val} (ho : os[i]? = some o)
    {p : Val} (hp : o.getItem { attr := pathWord } = .ok p) :
    is2.errorsAt [.name opsWord] = [] ∧ is2.errorsAt [.name opsWord, .idx i] = [] ∧
    is2.errorsAt [.name opsWord, .idx i, .name dataWord] = [] ∧
    (is2.errorsAt [.name opsWord, .idx i, .name pathWord] = [] ↔ ¬ p.Empty) := by
  have key : ∀ l, is2.errorsAt (.name opsWord :: l) ≠ [] → (l = [] ∧ os = []) ∨
      ∃ (i : Nat) (o : Val) (s : Attr) (v : Val), s ∈ requestSubs ∧ s.info.required = true ∧ l = [.idx i, .name s.rep.attr] ∧ os[i]? = some o ∧
        o.getItem { attr := s.rep.attr } = .ok v ∧ v.Empty := by
    intro l hl
    obtain ⟨e, he⟩ := List.exists_mem_of_ne_nil _ hl
    obtain ⟨a, ha, v, hobs, hcp⟩ := (call_errors _ _ _ _ _ h _ e).mp he
    generalize hloc : (LKey.name opsWord :: l) = loc at hobs
    cases hobs with
    | top h1 h2 h3 =>
      simp only [List.cons.injEq, LKey.name.injEq] at hloc
      obtain ⟨hn, rfl⟩ := hloc
      have ha' : a ∈ requestSchema.attrs.top := by
        rw [request_wf.topAll]; exact List.mem_filter.mpr ⟨ha, by simp [h1]⟩
      rcases request_top a ha' with rfl | rfl | rfl
      · rw [bindAttr_rep] at hn; exact absurd hn (by decide)
      · rw [bindAttr_rep] at hn; exact absurd hn (by decide)
      · rw [requestOpsB_rep, hget] at h2
        cases h2
        obtain ⟨-, ⟨-, he, -⟩ | ⟨-, -, -, -, he⟩⟩ := (checkPresence_errors _ _ _ _ _ _).mp hcp
        · rcases he with he | he | he | he
          · cases he
          · cases he
          · cases he; exact .inl ⟨rfl, rfl⟩
          · cases he
        · rcases he with he | ⟨he, -⟩ | ⟨he, -⟩
          · rw [requestOpsB_eq] at he; cases he
          · cases he
          · cases he
    | @sub t v h1 h2 h3 h4 h5 =>
      rw [request_parent ha h1] at h2
      cases h2
      have hm : requestOpsB.info.multi = true := by rw [requestOpsB_eq]; rfl
      rw [hm] at h3; cases h3
    | @null t h1 h2 h3 h4 =>
      obtain ⟨s, hs, rfl⟩ := request_sub ha h1
      rw [bindAttr_rep] at h4
      rw [show (Val.cont d lc).getItem { schema := requestUrn, attr := opsWord } = .ok (.list os) from hget] at h4
      cases h4
    | @item t v ys k z h1 h2 h3 h4 h5 h6 h7 =>
      obtain ⟨s, hs, rfl⟩ := request_sub ha h1
      rw [bindAttr_rep] at h4 h6 hloc
      rw [show (Val.cont d lc).getItem { schema := requestUrn, attr := opsWord } = .ok (.list os) from hget] at h4
      cases h4
      have hinfo : s.info.returned = .default ∧ (bindAttr s { schema := requestUrn, attr := opsWord, sub := s.rep.attr }).info.required = s.info.required ∧
          (bindAttr s { schema := requestUrn, attr := opsWord, sub := s.rep.attr }).info.returned = s.info.returned := by
        simp only [requestSubs, List.mem_cons, List.not_mem_nil, or_false] at hs
        rcases hs with rfl | rfl | rfl | rfl | rfl <;> exact ⟨rfl, rfl, rfl⟩
      simp only [List.cons.injEq] at hloc
      obtain ⟨-, rfl⟩ := hloc
      refine .inr ⟨k, z, s, v, hs, ?_, rfl, h5, h6, ?_⟩
      · obtain ⟨-, ⟨-, -, he, -⟩ | ⟨-, -, -, -, he⟩⟩ := (checkPresence_errors _ _ _ _ _ _).mp hcp
        · rw [← hinfo.2.1]; exact he
        · rcases he with he | ⟨he, -⟩ | ⟨he, -⟩
          · rw [hinfo.2.2, hinfo.1] at he; cases he
          · cases he
          · cases he
      · obtain ⟨-, ⟨-, he, -⟩ | ⟨-, -, -, -, he⟩⟩ := (checkPresence_errors _ _ _ _ _ _).mp hcp
        · exact he
        · rcases he with he | ⟨he, -⟩ | ⟨he, -⟩
          · rw [hinfo.2.2, hinfo.1] at he; cases he
          · cases he
          · cases he
  refine ⟨?_, ?_, ?_, ?_⟩
  · apply Classical.byContradiction
    intro hne
    rcases key [] hne with ⟨-, e⟩ | ⟨i, o, s, v, -, -, e, -⟩
    · rw [e] at ho; simp at ho
    · cases e
  · apply Classical.byContradiction
    intro hne
    rcases key _ hne with ⟨e, -⟩ | ⟨i, o, s, v, -, -, e, -⟩
    · cases e
    · cases e
  · apply Classical.byContradiction
    intro hne
    rcases key _ hne with ⟨e, -⟩ | ⟨i, o, s, v, hs, hr, e, -⟩
    · cases e
    · simp only [List.cons.injEq, LKey.name.injEq] at e
      have hn := e.2.1
      simp only [requestSubs, List.mem_cons, List.not_mem_nil, or_false] at hs
      rcases hs with rfl | rfl | rfl | rfl | rfl
      · exact absurd hn (show dataWord ≠ methodWord by decide)
      · exact absurd hn (show dataWord ≠ idWord by decide)
      · exact absurd hn (show dataWord ≠ versionWord by decide)
      · exact absurd hn (show dataWord ≠ pathWord by decide)
      · cases hr
  · constructor
    · intro hn hemp
      have hrep : (bindAttr pathA { schema := requestUrn, attr := opsWord, sub := pathWord }).rep =
        { schema := requestUrn, attr := opsWord, sub := pathWord } := bindAttr_rep _ _
      have : (⟨15, []⟩ : VErr) ∈ is2.errorsAt [.name opsWord, .idx i, .name pathWord] := by
        rw [call_errors _ _ _ _ _ h]
        refine ⟨_, path_mem, p, ?_, ?_⟩
        · have hobs := Observed.item (attrs := requestSchema.attrs) (data := .cont d lc)
            (a := bindAttr pathA { schema := requestUrn, attr := opsWord, sub := pathWord }) (v := p) (t := requestOpsB) (xs := os)
            (i := i) (x := o) (by rw [hrep]; exact (show pathWord ≠ [] by decide))
            (request_parent path_mem (by rw [hrep]; exact (show pathWord ≠ [] by decide)))
            (by rw [requestOpsB_eq]; rfl) (by rw [hrep]; exact hget) ho (by rw [hrep]; exact hp) (by
              rcases hemp with rfl | rfl | rfl | rfl <;> rfl)
          rw [hrep] at hobs
          exact hobs
        · rw [checkPresence_errors]
          refine ⟨rfl, .inl ⟨rfl, hemp, rfl, ?_, fun e => (by cases e)⟩⟩
          rintro ⟨r, hr, -⟩
          cases hr
      rw [hn] at this
      cases this
    · intro hne
      apply Classical.byContradiction
      intro hne'
      rcases key _ hne' with ⟨e, -⟩ | ⟨i', o', s, v, hs, hr, e, h1, h2, h3⟩
      · cases e
      · simp only [List.cons.injEq, LKey.name.injEq, LKey.idx.injEq] at e
        obtain ⟨rfl, hn, -⟩ := e
        rw [ho] at h1; cases h1
        rw [← hn, hp] at h2; cases h2
        exact hne h3

/-- The body of a request with a list of operations. -/
structure Body (kvs : List (Str × Val)) (xs : List Val) (d : List (Str × Val)) (lc : List (Str × Str)) (is0 : Issues) (os : List Val)
    (j is2 : Issues) : Prop where
  parsed : requestSchema.parse (.dict kvs) = .ok (.cont d lc, is0)
  wf : is0.WF
  inv : CInv d lc
  noUrn : aget (lower requestUrn) lc = none
  ops : Ops xs os j
  errs : ∀ l, is0.errorsAt (.name opsWord :: l) = j.errorsAt l
  root : is0.errorsAt [] = []
  read : (Val.cont d lc).getItem (requestRep []) = .ok (.list os)
  checked : Checker.call {} (.cont d lc) requestSchema.attrs .response = .ok is2

theorem top_read {d : List (Str × Val)} {lc : List (Str × Str)} (hi : CInv d lc) (hn : aget (lower requestUrn) lc = none) {a : Attr}
    (ha : a ∈ requestSchema.attrs.top) : ∃ x, (Val.cont d lc).getItem a.rep = .ok x := by
  have hrep : a.rep.schema = requestUrn ∧ a.rep.sub = [] := by
    rcases request_top a ha with rfl | rfl | rfl
    · rw [bindAttr_rep]; exact ⟨rfl, rfl⟩
    · rw [bindAttr_rep]; exact ⟨rfl, rfl⟩
    · rw [requestOpsB_rep]; exact ⟨rfl, rfl⟩
  rw [getItem_noKey (by rw [hrep.1]; exact hn), hrep.2]
  cases hk : aget (lower a.rep.attr) lc with
  | none => exact ⟨_, rfl⟩
  | some k =>
    obtain ⟨x, hx⟩ := Option.isSome_iff_exists.mp (aget_isSome_iff.mpr (hi.sound _ _ hk).2)
    dsimp only
    rw [hx]
    exact ⟨x, rfl⟩

theorem body_total {kvs : List (Str × Val)} (hord : Ordinary requestSchema kvs) {xs : List Val}
    (hx : (Val.dict kvs).toCont.getItem (requestRep []) = .ok (.list xs)) : ∃ d lc is0 os j is2, Body kvs xs d lc is0 os j is2 := by
  have hobj : ((Val.dict kvs).isCont || (Val.dict kvs).isDict) = true := rfl
  have hrep := requestOpsB_rep
  obtain ⟨x', hx', ht, -⟩ := hord.read request_wf requestOpsB_mem
  rw [hrep, hx] at hx'
  cases hx'
  have ht : TameCList xs := by simpa only [Val.TameC] using ht
  obtain ⟨os, j, hp, hops⟩ := request_ops ht
  obtain ⟨b, is0, h0⟩ : ∃ b is0, requestSchema.parse (.dict kvs) = .ok (b, is0) := by
    refine process_total_of request_wf hord ?_
    intro a ha x hxa htx hbx _
    rcases request_top a ha with rfl | rfl | rfl
    · exact process_total _ (bind_standard (by unfold schemasAttr mkAttr; exact .inl rfl) _) x htx hbx
    · exact process_total _ (bind_standard (by unfold failA mkAttr; exact .inl rfl) _) x htx hbx
    · rw [hrep, hx] at hxa
      cases hxa
      exact ⟨_, hp⟩
  have hw0 : is0.WF := schema_process_wf request_wf request_sane h0
  obtain ⟨htr, ⟨d, lc, rfl, hnk⟩, -⟩ := process_spec request_wf hobj h0
  have hnk' : aget (lower requestUrn) lc = none := hnk
  have hreach := schema_process_reach hobj h0
  have hi : CInv d lc := by
    obtain ⟨d', lc', e, hi⟩ := hreach.inv
    cases e
    exact hi
  have hget : (Val.cont d lc).getItem (requestRep []) = .ok (.list os) := by
    obtain ⟨y, j', hp', hy⟩ := htr.present requestOpsB requestOpsB_mem (.list xs) (by rw [hrep]; exact hx) rfl
    rw [hp] at hp'
    cases hp'
    rw [hrep] at hy
    exact hy
  have hpl : ∀ o ∈ os, o.Plainly := fun o ho => plainly_of (hops.keyed o ho).1 (hops.keyed o ho).2.1
  have hloc := C82_locations .parse requestSchema request_wf request_sane (.dict kvs) _ is0 (.inr rfl) h0
  obtain ⟨is2, hcall⟩ : ∃ is2, Checker.call {} (.cont d lc) requestSchema.attrs .response = .ok is2 := by
    have htop : ∀ t ∈ requestSchema.attrs.top, t.isComplex = true → t = requestOpsB := by
      intro t ht hc
      rcases request_top t ht with rfl | rfl | rfl
      · cases hc
      · cases hc
      · rfl
    refine checker_total_of request_wf request_owned ?_ ?_ {} .response
    · intro a ha
      by_cases hsub : a.rep.sub = []
      · exact top_read hi hnk' (by rw [request_wf.topAll]; exact List.mem_filter.mpr ⟨ha, by simp [hsub]⟩)
      · obtain ⟨t, ht, h1, h2, h3, -⟩ := request_owned.parent request_wf ha hsub
        have := htop t ht h1
        subst this
        rw [hrep] at h2 h3
        obtain ⟨ys, hy⟩ := getMap_total (q := a.rep.sub) os hpl
        have e1 : a.rep.schema = requestUrn := h2.symm
        have e2 : a.rep.attr = opsWord := h3.symm
        have hw := (request_owned.owner a ha hsub).1
        refine ⟨.list ys, ?_⟩
        have hread : (Val.cont d lc).getItem { schema := requestUrn, attr := opsWord, sub := a.rep.sub } = .ok (.list ys) := by
          rw [V.getItem_sub_noKey hnk' hsub]
          have : (Val.cont d lc).getItem { schema := requestUrn, attr := opsWord } = .ok (.list os) := hget
          rw [this]
          simp only [Val.getX, hw, Bool.not_true, Bool.and_false, Bool.false_eq_true, if_false, hy]
        refine Eq.trans ?_ hread
        rw [getItem_noKey (r := a.rep) (by rw [e1]; exact hnk'),
          getItem_noKey (r := { schema := requestUrn, attr := opsWord, sub := a.rep.sub }) hnk', e2]
    · intro t ht hc x hxt
      have := htop t ht hc
      subst this
      rw [hrep, hget] at hxt
      cases hxt
      have hm : requestOpsB.info.multi = true := by rw [requestOpsB_eq]; rfl
      rw [hm]
      exact .inr (.inr (.inr (.inr ⟨rfl, os, rfl, hpl⟩)))
  refine ⟨d, lc, is0, os, j, is2, h0, hw0, hi, hnk', hops, ?_, ?_, hget, hcall⟩
  · intro l
    obtain ⟨y', i', hp', c2⟩ := hloc.1 requestOpsB requestOpsB_mem _ (by rw [hrep]; exact hx) rfl
    rw [hp] at hp'
    cases hp'
    have hrl : requestOpsB.reportLoc = [.name opsWord] := by unfold Attr.reportLoc; rw [hrep]; rfl
    rw [hrl] at c2
    apply c2
    intro e
    simp only [List.singleton_append, List.cons.injEq, LKey.name.injEq] at e
    exact absurd e.1 (by decide)
  · apply Classical.byContradiction
    intro hne
    obtain ⟨a, ha, x, y, i, l', -, -, -, e, -⟩ := hloc.2 [] (by intro e; cases e) hne
    have hr : a.reportLoc ≠ [] := by
      unfold Attr.reportLoc
      rcases request_top a ha with rfl | rfl | rfl
      · rw [bindAttr_rep]; decide
      · rw [bindAttr_rep]; decide
      · rw [requestOpsB_rep]; decide
    cases hrl : a.reportLoc with
    | nil => exact hr hrl
    | cons k ks => rw [hrl] at e; cases e

/-! ### Which operations are looked at -/

omit [PyEnv] in
theorem prefix_three {α : Type} {a b c : α} {m : List α} (h : m <+: [a, b, c]) :
    m = [] ∨ m = [a] ∨ m = [a, b] ∨ m = [a, b, c] := by
  obtain ⟨t, h⟩ := h
  match m, h with
  | [], _ => exact .inl rfl
  | [x], h => simp at h; simp [h]
  | [x, y], h => simp at h; simp [h]
  | [x, y, z], h => simp at h; simp [h]
  | x :: y :: z :: w :: r, h => simp at h

omit [PyEnv] in
theorem stop_both {is0 is2 : Issues} (h0 : is0.WF) (h2 : is2.WF) (l : Loc) :
    (aget l ((Issues.empty.merge is0 V.bodyLoc).merge is2 V.bodyLoc).stop).isSome ↔
      ∃ m, l = V.bodyLoc ++ m ∧ (is0.errorsAt m ≠ [] ∨ is2.errorsAt m ≠ []) := by
  rw [stop_merge_isSome' h2, stop_merge_isSome' h0]
  constructor
  · rintro ((h | ⟨m, h, rfl⟩) | ⟨m, h, rfl⟩)
    · cases h
    · exact ⟨m, rfl, .inl h⟩
    · exact ⟨m, rfl, .inr h⟩
  · rintro ⟨m, rfl, h | h⟩
    · exact .inl (.inr ⟨m, h, rfl⟩)
    · exact .inr ⟨m, h, rfl⟩

omit [PyEnv] in
theorem proceeds_both {is0 is2 : Issues} (h0 : is0.WF) (h2 : is2.WF) (i : Nat) :
    V.Proceeds i ((Issues.empty.merge is0 V.bodyLoc).merge is2 V.bodyLoc) ↔
      ∀ m ∈ [[], [.name opsWord], [.name opsWord, .idx i], [.name opsWord, .idx i, .name pathWord],
        [.name opsWord, .idx i, .name dataWord]], is0.errorsAt m = [] ∧ is2.errorsAt m = [] := by
  have hstop := stop_both h0 h2
  generalize (Issues.empty.merge is0 V.bodyLoc).merge is2 V.bodyLoc = s0 at hstop
  have hpart : ∀ w, s0.canProceedAt (V.opPartLoc i w) = true ↔ ∀ m ∈ [[], [.name opsWord], [.name opsWord, .idx i],
      [.name opsWord, .idx i, .name w]], is0.errorsAt m = [] ∧ is2.errorsAt m = [] := by
    intro w
    rw [canProceedAt_iff]
    constructor
    · intro h m hm
      have hp : V.bodyLoc ++ m <+: V.opPartLoc i w := by
        unfold V.opPartLoc
        rw [List.prefix_append_right_inj]
        simp only [List.mem_cons, List.not_mem_nil, or_false] at hm
        rcases hm with rfl | rfl | rfl | rfl
        · exact ⟨_, rfl⟩
        · exact ⟨_, rfl⟩
        · exact ⟨_, rfl⟩
        · exact ⟨[], rfl⟩
      have := h _ hp
      rw [← Option.not_isSome_iff_eq_none, hstop] at this
      constructor
      · exact Classical.byContradiction fun hne => this ⟨m, rfl, .inl hne⟩
      · exact Classical.byContradiction fun hne => this ⟨m, rfl, .inr hne⟩
    · intro h q hq
      rw [← Option.not_isSome_iff_eq_none, hstop]
      rintro ⟨m, rfl, hne⟩
      unfold V.opPartLoc at hq
      rw [List.prefix_append_right_inj] at hq
      have := h m (by
        rcases prefix_three hq with rfl | rfl | rfl | rfl <;> simp)
      rcases hne with hne | hne
      · exact hne this.1
      · exact hne this.2
  have hmeth : s0.canProceedAt [.name opsWord, .idx i, .name methodWord] = true := by
    rw [canProceedAt_iff]
    intro q hq
    rw [← Option.not_isSome_iff_eq_none, hstop]
    rintro ⟨m, rfl, -⟩
    obtain ⟨t, ht⟩ := hq
    simp only [V.bodyLoc, List.cons_append, List.nil_append, List.cons.injEq, LKey.name.injEq] at ht
    exact absurd ht.1 (by decide)
  unfold V.Proceeds Issues.canProceed
  simp only [List.all_cons, List.all_nil, Bool.and_true, Bool.and_eq_true]
  rw [hpart, hpart, hmeth]
  constructor
  · rintro ⟨h1, h2, -⟩ m hm
    simp only [List.mem_cons, List.not_mem_nil, or_false] at hm
    rcases hm with rfl | rfl | rfl | rfl | rfl
    · exact h1 _ (by simp)
    · exact h1 _ (by simp)
    · exact h1 _ (by simp)
    · exact h1 _ (by simp)
    · exact h2 _ (by simp)
  · intro h
    refine ⟨?_, ?_, rfl⟩
    · intro m hm
      apply h
      simp only [List.mem_cons, List.not_mem_nil, or_false] at hm ⊢
      rcases hm with hm | hm | hm | hm
      · exact .inl hm
      · exact .inr (.inl hm)
      · exact .inr (.inr (.inl hm))
      · exact .inr (.inr (.inr (.inl hm)))
    · intro m hm
      apply h
      simp only [List.mem_cons, List.not_mem_nil, or_false] at hm ⊢
      rcases hm with hm | hm | hm | hm
      · exact .inl hm
      · exact .inr (.inl hm)
      · exact .inr (.inr (.inl hm))
      · exact .inr (.inr (.inr (.inr hm)))

theorem Body.proceeds {kvs : List (Str × Val)} {xs : List Val} {d : List (Str × Val)} {lc : List (Str × Str)} {is0 : Issues}
    {os : List Val} {j is2 : Issues} (h : Body kvs xs d lc is0 os j is2) {i : Nat} {x : Val} (hx : xs[i]? = some x) :
    V.Proceeds i ((Issues.empty.merge is0 V.bodyLoc).merge is2 V.bodyLoc) ↔ ∃ t, Examined xs x t := by
  rw [proceeds_both h.wf (call_wf h.checked)]
  cases hc : x.isCont with
  | false =>
    constructor
    · intro h'
      have := (h' [.name opsWord, .idx i] (by simp)).1
      rw [h.errs] at this
      exact absurd this (h.ops.bad i x hx hc)
    · rintro ⟨t, ht⟩
      rw [ht.object] at hc; cases hc
  | true =>
    obtain ⟨o, ho, hop⟩ := h.ops.good i x hx hc
    obtain ⟨p, p', a1, a2, a3⟩ := hop.path
    obtain ⟨e1, e2, e3, e4⟩ := presence_errors h.read h.checked ho a2
    constructor
    · intro h'
      have b1 := (h' [.name opsWord, .idx i, .name pathWord] (by simp)).1
      have b2 := (h' [.name opsWord, .idx i, .name pathWord] (by simp)).2
      have b3 := (h' [.name opsWord, .idx i, .name dataWord] (by simp)).1
      rw [h.errs] at b1 b3
      rw [e4] at b2
      rcases a3 with ⟨rfl, a3⟩ | ⟨-, -, a4⟩
      · rcases a3 with a3 | ⟨t, rfl⟩
        · exfalso
          apply b2
          cases p' with
          | prim q => cases q <;> first | (simp [Val.isNoneOrMissing] at a3; done) | exact .inl rfl
          | missing => exact .inr (.inr (.inr rfl))
          | _ => simp [Val.isNoneOrMissing] at a3
        · refine ⟨t, hc, a1, ?_, (hop.fits t a1).mp ⟨b1, b3⟩⟩
          rintro rfl
          exact b2 (.inr (.inl rfl))
      · exact absurd b1 a4
    · rintro ⟨t, ht⟩
      have hr : x.getItem { attr := pathWord } = .ok (.str t) := ht.reads
      rw [a1] at hr
      cases hr
      obtain ⟨c1, c2⟩ := (hop.fits t a1).mpr ht.fits
      have hp' : p' = .str t := by
        rcases a3 with ⟨rfl, -⟩ | ⟨-, -, a4⟩
        · rfl
        · exact absurd c1 a4
      subst hp'
      intro m hm
      simp only [List.mem_cons, List.not_mem_nil, or_false] at hm
      rcases hm with rfl | rfl | rfl | rfl | rfl
      · exact ⟨h.root, V.call_no_root h.checked⟩
      · exact ⟨by rw [h.errs]; exact h.ops.root, e1⟩
      · exact ⟨by rw [h.errs]; exact hop.root, e2⟩
      · refine ⟨by rw [h.errs]; exact c1, e4.mpr ?_⟩
        rintro (e | e | e | e)
        · cases e
        · cases e; exact ht.given rfl
        · cases e
        · cases e
      · exact ⟨by rw [h.errs]; exact c2, e3⟩

/-! ### What makes the parser raise -/

theorem methodOf_none {v : Val} : V.methodOf v = none ↔ ∀ m ∈ bulkMethods, v ≠ .str m := by
  constructor
  · intro h m hm e
    subst e
    revert h
    revert m
    decide
  · intro h
    cases hm : V.methodOf v with
    | none => rfl
    | some m =>
      exfalso
      obtain ⟨t, e, ht⟩ := mem_five hm
      refine h t ?_ e
      rcases ht with rfl | ht
      · decide
      · clear e hm; revert ht; revert t; decide

omit [PyEnv] in
theorem dropWhile_slash (t : Str) : (t.dropWhile (· ≠ '/') = [] ∧ '/' ∉ t) ∨
    ∃ before rest, t = before ++ '/' :: rest ∧ '/' ∉ before ∧ t.dropWhile (· ≠ '/') = '/' :: rest := by
  induction t with
  | nil => exact .inl ⟨rfl, by simp⟩
  | cons c t ih =>
    by_cases hc : c = '/'
    · subst hc
      exact .inr ⟨[], t, rfl, by simp, by simp [List.dropWhile]⟩
    · have hd : (c :: t).dropWhile (· ≠ '/') = t.dropWhile (· ≠ '/') := by
        rw [List.dropWhile_cons, if_pos (by simpa using hc)]
      rcases ih with ⟨h1, h2⟩ | ⟨b, r, h1, h2, h3⟩
      · refine .inl ⟨by rw [hd]; exact h1, ?_⟩
        simp only [List.mem_cons, not_or]
        exact ⟨fun e => hc e.symm, h2⟩
      · refine .inr ⟨c :: b, r, by rw [h1]; rfl, ?_, by rw [hd]; exact h3⟩
        simp only [List.mem_cons, not_or]
        exact ⟨fun e => hc e.symm, h2⟩

omit [PyEnv] in
theorem append_slash {b b' r r' : Str} (h : b ++ '/' :: r = b' ++ '/' :: r') (hb : '/' ∉ b) (hb' : '/' ∉ b') : b = b' ∧ r = r' := by
  induction b generalizing b' with
  | nil =>
    cases b' with
    | nil => simpa using h
    | cons c b' =>
      simp only [List.nil_append, List.cons_append, List.cons.injEq] at h
      exact absurd (by rw [h.1]; simp) hb'
  | cons c b ih =>
    cases b' with
    | nil =>
      simp only [List.nil_append, List.cons_append, List.cons.injEq] at h
      exact absurd (by rw [h.1]; simp) hb
    | cons c' b' =>
      simp only [List.cons_append, List.cons.injEq] at h
      obtain ⟨e1, e2⟩ := ih h.2 (fun hm => hb (List.mem_cons_of_mem _ hm)) (fun hm => hb' (List.mem_cons_of_mem _ hm))
      exact ⟨by rw [h.1, e1], e2⟩

theorem resourceName_iff {m t name : Str} : V.resourceName (.str m) (.str t) = .ok name ↔ Addressed m t name := by
  have hd : V.resourceName (.str m) (.str t) = match t.dropWhile (· ≠ '/') with
    | [] => .error .indexError
    | _ :: r => .ok (if (Val.str m).isText postWord then r else r.takeWhile (· ≠ '/')) := rfl
  have hif : ∀ r : Str, (if (Val.str m).isText postWord then r else r.takeWhile (· ≠ '/')) =
      if m = "POST".toList then r else r.takeWhile (· ≠ '/') := by
    intro r
    by_cases h : m = "POST".toList
    · rw [if_pos h, if_pos (show (Val.str m).isText postWord = true from text_iff.mpr h)]
    · rw [if_neg h, if_neg (fun h' : (Val.str m).isText postWord = true => h (text_iff.mp h'))]
  rw [hd]
  rcases dropWhile_slash t with ⟨h1, h2⟩ | ⟨b, r, h1, h2, h3⟩
  · rw [h1]
    constructor
    · intro h; cases h
    · rintro ⟨b, r, rfl, -, -⟩
      simp at h2
  · rw [h3]
    dsimp only
    rw [hif]
    constructor
    · intro h
      cases h
      exact ⟨b, r, h1, h2, rfl⟩
    · rintro ⟨b', r', e1, e2, rfl⟩
      rw [h1] at e1
      obtain ⟨rfl, rfl⟩ := append_slash e1 h2 e2
      rfl

omit [PyEnv] in
theorem resourceName_error {m : Val} {t : Str} : (∃ e, V.resourceName m (.str t) = .error e) ↔ '/' ∉ t := by
  have hd : V.resourceName m (.str t) = match t.dropWhile (· ≠ '/') with
    | [] => .error .indexError
    | _ :: r => .ok (if m.isText postWord then r else r.takeWhile (· ≠ '/')) := rfl
  rw [hd]
  rcases dropWhile_slash t with ⟨h1, h2⟩ | ⟨b, r, h1, h2, h3⟩
  · rw [h1]
    exact ⟨fun _ => h2, fun _ => ⟨_, rfl⟩⟩
  · rw [h3]
    constructor
    · rintro ⟨e, h⟩; cases h
    · intro h
      exact absurd (by rw [h1]; simp) h

theorem parseOp_single {m : Str} {k : V.Method} {s : Schema} {d : Val} (hm : V.methodOf (.str m) = some k) {e : PyErr}
    (h : V.parseOp k s d = .error e) (hd : (Val.str m).isText deleteWord = false) : m ∈ dataMethods ∧ singleRequest m s d = .error e := by
  have key : ∀ {t : Str}, (Val.str m).isText t = true → m = t := fun h => text_iff.mp h
  unfold V.methodOf at hm
  split at hm
  · cases hm; cases h
  split at hm
  · rename_i h'
    cases hm
    have := key h'
    subst this
    exact ⟨by decide, h⟩
  split at hm
  · rename_i h'
    cases hm
    have := key h'
    subst this
    exact ⟨by decide, h⟩
  split at hm
  · rename_i h'
    cases hm
    have := key h'
    subst this
    exact ⟨by decide, h⟩
  split at hm
  · rename_i h'
    rw [h'] at hd; cases hd
  · cases hm

theorem single_parseOp {m : Str} (hm : m ∈ dataMethods) : ∃ k, V.methodOf (.str m) = some k ∧ (Val.str m).isText deleteWord = false ∧
    ∀ (s : Schema) d, V.parseOp k s d = singleRequest m s d := by
  simp only [dataMethods, List.mem_cons, List.not_mem_nil, or_false] at hm
  rcases hm with rfl | rfl | rfl
  · exact ⟨.post, by decide, by decide, fun _ _ => rfl⟩
  · exact ⟨.put, by decide, by decide, fun _ _ => rfl⟩
  · exact ⟨.patch, by decide, by decide, fun _ _ => rfl⟩

/-- The operation of the body that is looked at fails exactly when the one of the request is said to raise. -/
theorem fails_iff {vs : List (Str × Schema)} {xs : List Val} {i : Nat} {x o : Val} {j : Issues} (h : Op xs i x o j) {t : Str}
    (ht : Examined xs x t) {p' d' v' : Val} (hp : o.getItem { attr := pathWord } = .ok p') (hd : o.getItem { attr := dataWord } = .ok d')
    (hv : o.getItem { attr := methodWord } = .ok v') : V.OpFails vs p' d' v' ↔ BulkRaises vs xs x := by
  have hr : x.getItem { attr := pathWord } = .ok (.str t) := ht.reads
  have hp' : p' = .str t := by
    obtain ⟨p, p2, a1, a2, a3⟩ := h.path
    rw [hp] at a2; cases a2
    rw [hr] at a1; cases a1
    rcases a3 with ⟨rfl, -⟩ | ⟨-, a4, -⟩
    · rfl
    · exact absurd rfl (a4 t)
  subst hp'
  obtain ⟨v, v2, m1, m2, m3⟩ := h.method
  rw [hv] at m2; cases m2
  obtain ⟨d, d1, d2⟩ := h.data
  have hfive : ∀ m ∈ bulkMethods, v = .str m → v' = .str m := by
    intro m hm e
    rcases m3 with rfl | ⟨-, h'⟩
    · exact e
    · exact absurd e (h' m hm)
  constructor
  · rintro ⟨hdel, hf⟩
    by_cases hn : ∀ m ∈ bulkMethods, v ≠ .str m
    · exact .method ht m1 hn
    · obtain ⟨m, hm⟩ := Classical.not_forall.mp hn
      obtain ⟨hmb, e⟩ := Classical.not_imp.mp hm
      have e : v = .str m := Classical.not_not.mp e
      have e' := hfive m hmb e
      subst e e'
      have hmd : m ≠ "DELETE".toList := by
        rintro rfl
        exact absurd hdel (by decide)
      rcases hf with hf | hf | ⟨name, k, s, e, f1, f2, f3, f4⟩
      · exact .path ht m1 hmb hmd (resourceName_error.mp hf)
      · exact absurd rfl (methodOf_none.mp hf m hmb)
      · obtain ⟨g1, g2⟩ := parseOp_single f2 f4 hdel
        have := d2 _ m1 (hasData_iff.mpr g1)
        rw [hd] at this; cases this
        exact .request ht m1 g1 (resourceName_iff.mp f1) f3 d1 ⟨e, g2⟩
  · intro hb
    cases hb with
    | @method t' w h1 h2 h3 =>
      have h2' : x.getItem { attr := methodWord } = .ok w := h2
      rw [m1] at h2'
      cases h2'
      have hnone : V.methodOf v' = none := by
        rw [methodOf_none]
        rcases m3 with rfl | ⟨rfl, -⟩
        · exact h3
        · intro m _ e; cases e
      refine ⟨?_, .inr (.inl hnone)⟩
      rw [← Bool.not_eq_true, isText_iff]
      exact methodOf_none.mp hnone _ (by decide)
    | @path t' m h1 h2 h3 h4 h5 =>
      have h2' : x.getItem { attr := methodWord } = .ok (.str m) := h2
      rw [m1] at h2'
      cases h2'
      have := hfive m h3 rfl
      subst this
      have ht' : t' = t := by
        have := h1.reads
        rw [ht.reads] at this
        cases this; rfl
      subst ht'
      refine ⟨?_, .inl (resourceName_error.mpr h5)⟩
      rw [← Bool.not_eq_true, text_iff]
      exact h4
    | @request t' m name s d'' h1 h2 h3 h4 h5 h6 h7 =>
      have h2' : x.getItem { attr := methodWord } = .ok (.str m) := h2
      rw [m1] at h2'
      cases h2'
      have hmb : m ∈ bulkMethods := by clear h4 h2 h7 m3 hfive m1 hv; revert h3; revert m; decide
      have := hfive m hmb rfl
      subst this
      have ht' : t' = t := by
        have := h1.reads
        rw [ht.reads] at this
        cases this; rfl
      subst ht'
      have h6' : x.getItem { attr := dataWord } = .ok d'' := h6
      rw [d1] at h6'; cases h6'
      have := d2 _ m1 (hasData_iff.mpr h3)
      rw [hd] at this; cases this
      obtain ⟨k, g1, g2, g3⟩ := single_parseOp h3
      obtain ⟨e, h7⟩ := h7
      exact ⟨g2, .inr (.inr ⟨name, k, s, e, resourceName_iff.mpr h4, g1, h5, by rw [g3]; exact h7⟩)⟩

end BulkA

namespace V
open BulkA (requestRep)

/-- Parsing a bulk request raises exactly when one of its operations makes it, or when it is not known how many
operations there may be. -/
theorem parseBulk_exact {vs : List (Str × Schema)} {kvs : List (Str × Val)} (hord : Ordinary BulkA.requestSchema kvs) {xs : List Val}
    (hx : (Val.dict kvs).toCont.getItem (requestRep []) = .ok (.list xs)) (headers query : Val) :
    ((∃ x ∈ xs, BulkRaises vs xs x) ∧ ∃ e, ∀ maxOps, parseBulk maxOps vs (.dict kvs) headers query = .error e) ∨
    ((∀ x ∈ xs, ¬ BulkRaises vs xs x) ∧ parseBulk none vs (.dict kvs) headers query = .error .typeError ∧
      ∀ max, ∃ r, parseBulk (some max) vs (.dict kvs) headers query = .ok r) := by
  obtain ⟨d, lc, is0, os, j, is2, hb⟩ := BulkA.body_total hord hx
  unfold parseBulk
  rw [hb.parsed]
  dsimp only
  rw [hb.checked]
  dsimp only
  unfold parseBulkBody
  have hnr : is0.canProceed [opsLoc] = true := request_no_root (.inr rfl) hb.parsed
  simp only [hnr, Bool.not_true, Bool.false_eq_true, if_false]
  have hpl : ∀ o ∈ os, o.Plainly := fun o ho => BulkA.plainly_of (hb.ops.keyed o ho).1 (hb.ops.keyed o ho).2.1
  have hlists : ∀ w ∈ [BulkA.methodWord, BulkA.pathWord, BulkA.dataWord], ∃ ys, getMap os { attr := w } = .ok ys ∧
      (Val.cont d lc).getItem (requestRep w) = .ok (.list ys) := by
    intro w hw
    obtain ⟨ys, hy⟩ := getMap_total (q := w) os hpl
    refine ⟨ys, hy, ?_⟩
    have hw' : w ∈ [BulkA.methodWord, BulkA.idWord, BulkA.versionWord, BulkA.pathWord, BulkA.dataWord,
      BulkA.locationWord, BulkA.statusWord, BulkA.responseWord] := by clear hy; revert hw; revert w; decide
    have := getItem_part hb.noUrn hw' hb.read
    refine Eq.trans this ?_
    simp only [Val.getX, bulk_word_name hw', Bool.not_true, Bool.and_false, Bool.false_eq_true, if_false, hy]
  obtain ⟨ps, hps, hps'⟩ := hlists BulkA.pathWord (by simp)
  obtain ⟨ds, hds, hds'⟩ := hlists BulkA.dataWord (by simp)
  obtain ⟨ms, hms, hms'⟩ := hlists BulkA.methodWord (by simp)
  simp only [hb.read, hps', hds', hms']
  obtain ⟨l1, g1⟩ := getMap_spec hps
  obtain ⟨l2, g2⟩ := getMap_spec hds
  obtain ⟨l3, g3⟩ := getMap_spec hms
  have hloop := bulkLoop_exact (vs := vs) ((Issues.empty.merge is0 bodyLoc).merge is2 bodyLoc) 0 os ps ds ms
    ((Issues.empty.merge is0 bodyLoc).merge is2 bodyLoc) l1 l2 l3 (fun o ho => by
      obtain ⟨a, b, rfl, -⟩ := hpl o ho; rfl) (fun _ _ => Iff.rfl)
  have hall : (∀ (i : Nat) p d m, ps[i]? = some p → ds[i]? = some d → ms[i]? = some m →
      Proceeds (0 + i) ((Issues.empty.merge is0 bodyLoc).merge is2 bodyLoc) → ¬ OpFails vs p d m) ↔ ∀ x ∈ xs, ¬ BulkRaises vs xs x := by
    constructor
    · intro h x hxm hbr
      obtain ⟨t, ht⟩ : ∃ t, Examined xs x t := by
        cases hbr with
        | method h => exact ⟨_, h⟩
        | path h => exact ⟨_, h⟩
        | request h => exact ⟨_, h⟩
      obtain ⟨i, hi⟩ := List.getElem?_of_mem hxm
      obtain ⟨o, ho, hop⟩ := hb.ops.good i x hi ht.object
      obtain ⟨p, b1, b2⟩ := g1 i o ho
      obtain ⟨dd, b3, b4⟩ := g2 i o ho
      obtain ⟨m, b5, b6⟩ := g3 i o ho
      exact h i p dd m b1 b3 b5 (by rw [Nat.zero_add]; exact (hb.proceeds hi).mpr ⟨t, ht⟩) ((BulkA.fails_iff hop ht b2 b4 b6).mpr hbr)
    · intro h i p dd m b1 b3 b5 hpr hf
      rw [Nat.zero_add] at hpr
      have hlt : i < os.length := by
        rw [← l1]
        exact (List.getElem?_eq_some_iff.mp b1).1
      have hlt' : i < xs.length := by rw [← hb.ops.len]; exact hlt
      have hi := List.getElem?_eq_getElem hlt'
      obtain ⟨t, ht⟩ := (hb.proceeds hi).mp hpr
      obtain ⟨o, ho, hop⟩ := hb.ops.good i _ hi ht.object
      obtain ⟨p', c1, c2⟩ := g1 i o ho
      rw [b1] at c1; cases c1
      obtain ⟨d', c3, c4⟩ := g2 i o ho
      rw [b3] at c3; cases c3
      obtain ⟨m', c5, c6⟩ := g3 i o ho
      rw [b5] at c5; cases c5
      exact h _ (List.getElem_mem hlt') ((BulkA.fails_iff hop ht c2 c4 c6).mp hf)
  have hset : ∀ os', ∃ b', (Val.cont d lc).setItem { attr := BulkA.opsWord } (.list os') = .ok b' := by
    intro os'
    simp [Val.setItem, Val.setLocal, Val.setPlain]
  have hno := hloop.trans hall
  unfold parseBulkOps
  cases hl : bulkLoop vs 0 os ps ds ms ((Issues.empty.merge is0 bodyLoc).merge is2 bodyLoc) with
  | error e =>
    refine .inl ⟨?_, e, fun _ => rfl⟩
    apply Classical.byContradiction
    intro h
    obtain ⟨r, hr⟩ := hno.mpr (fun x hx hb => h ⟨x, hx, hb⟩)
    rw [hl] at hr; cases hr
  | ok q =>
    obtain ⟨os', is3⟩ := q
    obtain ⟨b', hset⟩ := hset os'
    refine .inr ⟨hno.mp ⟨_, hl⟩, ?_, fun max => ?_⟩
    · dsimp only
      rw [hset]
      rfl
    · dsimp only
      rw [hset]
      exact ⟨_, rfl⟩

end V
end Scim
