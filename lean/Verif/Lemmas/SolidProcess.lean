import Verif.Lemmas.Solid
import Verif.Spec.ListTotality

/-! Helper lemmas for C98: what schemas make of data is solid. -/

namespace Scim
open Issues
variable [PyEnv]

theorem SolidPairs.aset {d : List (Str × Val)} (h : SolidPairs d) {k : Str} {v : Val} (hv : v.Solid) : SolidPairs (aset k v d) := by
  rw [solidPairs_iff] at h ⊢
  intro p hp
  induction d with
  | nil =>
    simp only [Scim.aset, List.mem_singleton] at hp
    subst hp; exact hv
  | cons q r ih =>
    obtain ⟨a, b⟩ := q
    rw [aset_cons] at hp
    split at hp
    · rcases List.mem_cons.mp hp with rfl | hp
      · exact hv
      · exact h p (List.mem_cons_of_mem _ hp)
    · rcases List.mem_cons.mp hp with rfl | hp
      · exact h _ (by simp)
      · exact ih (fun p hp => h p (List.mem_cons_of_mem _ hp)) hp

theorem solid_emptyCont : (Val.emptyCont).Solid := by
  simp only [Val.Solid, SolidPairs, and_true]
  exact CInv.ofDict [] (by simp)

theorem setPlain_solid {c v c' : Val} {a : Str} (hc : c.Solid) (hv : v.Solid) (h : c.setPlain a v = .ok c') : c'.Solid := by
  unfold Val.setPlain at h
  split at h
  · cases h
    simp only [Val.Solid] at hc ⊢
    exact ⟨hc.1.setPlain a v, hc.2.aset hv⟩
  · cases h

theorem setItem_solid {c v c' : Val} {r : AttrRep} (hr : r.sub = []) (hc : c.Solid) (hv : v.Solid) (h : c.setItem r v = .ok c') :
    c'.Solid := by
  unfold Val.setItem at h
  split at h
  · rename_i data lc
    split at h
    · simp only [Val.Solid] at hc
      have key : ∀ (d : List (Str × Val)) (l : List (Str × Str)), CInv d l → SolidPairs d →
          (match aget r.schema d with
            | none => (.error .keyError : PyM Val)
            | some inner => match inner.setLocal r.attr r.sub v with
              | .ok inner' => .ok (.cont (aset r.schema inner' d) l)
              | .error e => .error e) = .ok c' → c'.Solid := by
        intro d l h1 h2 h
        split at h
        · cases h
        · rename_i inner hi
          split at h
          · rename_i inner' hl
            cases h
            simp only [Val.Solid]
            rw [Val.setLocal, hr] at hl
            exact ⟨h1.setData _ _, h2.aset (setPlain_solid (solidPairs_iff.mp h2 _ (mem_of_aget hi)) hv hl)⟩
          · cases h
      cases hk : aget (lower r.schema) lc with
      | none =>
        simp only [hk] at h
        exact key _ _ (hc.1.setPlain _ _) (hc.2.aset solid_emptyCont) h
      | some k =>
        simp only [hk] at h
        exact key _ _ hc.1 hc.2 h
    · rw [Val.setLocal, hr] at h
      exact setPlain_solid hc hv h
  · cases h

/-- The values of an attribute with a type of its own. -/
theorem conv_solid {m : Mode} {t : AttrType} (h1 : t ≠ .unknown) (h2 : t ≠ .complex) {v r : Val} {is : Issues}
    (h : t.conv m v = .ok (r, is)) : r.Solid := by
  have hs : ∀ (p : Prim), (Val.prim p).Solid := fun p => by simp only [Val.Solid]
  have hd : ∀ d, (Val.dt d).Solid := fun d => by simp only [Val.Solid]
  have hi : Val.invalid.Solid := by simp only [Val.Solid]
  cases m <;> cases t <;> simp only [AttrType.conv, AttrType.parse, AttrType.dump, booleanConv, decimalConv, integerConv, stringConv,
    binaryConv, extRefConv, ne_eq, reduceCtorEq, not_true_eq_false, not_false_eq_true, badType, Val.int, Val.str, Val.bool] at h h1 h2
  all_goals repeat' split at h
  all_goals cases h
  all_goals first | exact hs _ | exact hd _ | exact hi

theorem processOne_solid {m : Mode} {a : AttrInfo} (h1 : a.type ≠ .unknown) (h2 : a.type ≠ .complex) {loc : Loc} {v r : Val}
    {s is : Issues} (h : a.processOne m loc v s = .ok (r, is)) : r.Solid := by
  unfold AttrInfo.processOne at h
  split at h
  · cases h
  · rename_i hc
    dsimp only at h
    split at h
    · cases h; simp only [Val.Solid]
    · cases h; exact conv_solid h1 h2 hc

theorem processItems_solid {m : Mode} {a : AttrInfo} (h1 : a.type ≠ .unknown) (h2 : a.type ≠ .complex) : ∀ {k : Nat}
    {xs rs : List Val} {s is : Issues}, a.processItems m k xs s = .ok (rs, is) → SolidList rs
  | _, [], _, _, _, h => by cases h; simp only [SolidList]
  | _, x :: xs, _, _, _, h => by
    rw [AttrInfo.processItems] at h
    split at h
    · cases h
    · rename_i item i1 ho
      split at h
      · cases h
      · rename_i items i2 hr
        cases h
        simp only [SolidList]
        exact ⟨processOne_solid h1 h2 ho, processItems_solid h1 h2 hr⟩

theorem isNone_solid {v : Val} (h : v.isNone = true) : v.Solid := by
  cases v <;> simp [Val.isNone] at h <;> simp only [Val.Solid]

theorem runProcs_solid : ∀ (ps : List Proc), (∀ p ∈ ps, ∀ v r i, p v = .ok (r, i) → r = v ∨ r = .invalid) → ∀ {v : Val} {s : Issues}
    {r : Val} {is : Issues}, v.Solid → runProcs ps v s = .ok (r, is) → r.Solid
  | [], _, _, _, _, _, hv, h => by cases h; exact hv
  | p :: ps, hps, v, s, r, is, hv, h => by
    rw [runProcs] at h
    split at h
    · cases h
    · rename_i v' i hp
      refine runProcs_solid ps (fun q hq => hps q (List.mem_cons_of_mem _ hq)) ?_ h
      rcases hps p (by simp) _ _ _ hp with rfl | rfl
      · exact hv
      · simp only [Val.Solid]

omit [PyEnv] in
theorem bulkId_keeps {v r : Val} {i : Issues} (h : bulkIdValidator v = .ok (r, i)) : r = v ∨ r = .invalid := by
  unfold bulkIdValidator at h
  split at h
  · split at h <;> cases h
    · exact .inr rfl
    · exact .inl rfl
  · cases h

theorem primary_keeps {v r : Val} {i : Issues} (h : validateSinglePrimary v = .ok (r, i)) : r = v ∨ r = .invalid := by
  unfold validateSinglePrimary at h
  split at h
  · split at h
    · cases h
    · cases h; exact .inl rfl
  · cases h

theorem simple_solid {m : Mode} {info : AttrInfo} (hstd : (Attr.simple info).Standard m) (h1 : info.type ≠ .unknown)
    (h2 : info.type ≠ .complex) {v r : Val} {is : Issues} (h : info.process m v = .ok (r, is)) : r.Solid := by
  have hp : ∀ p ∈ info.procs m, ∀ v r i, p v = .ok (r, i) → r = v ∨ r = .invalid := by
    intro p hp v r i hv
    rcases hstd with h | ⟨_, _, h⟩
    · rw [h] at hp; cases hp
    · rw [h, List.mem_singleton] at hp
      subst hp
      exact bulkId_keeps hv
  unfold AttrInfo.process at h
  split at h
  · rename_i hn
    cases h
    exact isNone_solid hn
  · dsimp only at h
    split at h
    · cases h
    · cases h; simp only [Val.Solid]
    · rename_i p issues hb
      have hps : p.Solid := by
        split at hb
        · split at hb
          · split at hb
            · cases hb
            · rename_i hi
              cases hb
              simp only [Val.Solid]
              exact processItems_solid h1 h2 hi
          · cases hb
        · split at hb
          · cases hb
          · rename_i ho
            cases hb
            exact processOne_solid h1 h2 ho
      split at h
      · cases h; exact hps
      · exact runProcs_solid _ hp hps h

omit [PyEnv] in
theorem typedAll_iff {as : List Attr} : typedAll as = true ↔ ∀ a ∈ as, a.typed = true := by
  induction as with
  | nil => simp [typedAll]
  | cons a r ih => simp [typedAll, ih]

/-- The value of a complex attribute that is not taken apart is not one that needs to be. -/
theorem complex_stopped {m : Mode} {info : AttrInfo} (ht : info.type = .complex) (hvc : info.validateCanon = false)
    (hs1 : info.procs m = []) {v value : Val} {issues : Issues} (hi : info.process m v = .ok (value, issues))
    (hc : (!issues.canProceed || value.isNone) = true) : value.Solid := by
  unfold AttrInfo.process at hi
  split at hi
  · rename_i hvn
    cases hi
    exact isNone_solid hvn
  · simp only [hs1, runProcs, ite_self] at hi
    cases hm : info.multi with
    | true =>
      rw [hm] at hi
      simp only [if_true] at hi
      cases v with
      | list xs =>
        simp only at hi
        split at hi
        · cases hi
        · rename_i hh; split at hh <;> cases hh
        · rename_i p i hh
          split at hh
          · cases hh
          · rename_i items i' hit
            cases hh; cases hi
            have := processItems_stop hit rfl
            rw [(canProceed_nil_iff _).2 this] at hc
            simp [Val.isNone] at hc
      | _ => simp only at hi; cases hi; simp only [Val.Solid]
    | false =>
      rw [hm] at hi
      simp only [Bool.false_eq_true, if_false] at hi
      unfold AttrInfo.processOne at hi
      rw [ht, complex_conv] at hi
      by_cases hcont : v.isCont = true
      · simp only [hcont, if_true, hvc, Bool.and_false, Bool.false_eq_true, if_false] at hi
        cases hi
        cases v <;> simp [Val.isCont] at hcont
        exact absurd hc (by rw [(canProceed_nil_iff _).2 (by rfl)]; simp [Val.isNone])
      · simp only [hcont, if_false, hvc, Bool.and_false, Bool.false_eq_true, badType] at hi
        cases hi
        simp only [Val.Solid]

theorem complexItems_solid {f : Loc → Val → Issues → PyM (Val × Issues)}
    (hf : ∀ loc v s r is, f loc v s = .ok (r, is) → r.Solid) : ∀ {k : Nat} {xs rs : List Val} {s is : Issues},
    complexItems f k xs s = .ok (rs, is) → SolidList rs
  | _, [], _, _, _, h => by cases h; simp only [SolidList]
  | _, x :: xs, _, _, _, h => by
    rw [complexItems] at h
    split at h
    · cases h
    · rename_i item i1 ho
      split at h
      · cases h
      · rename_i items i2 hr
        cases h
        simp only [SolidList]
        exact ⟨hf _ _ _ _ _ ho, complexItems_solid hf hr⟩

mutual
theorem process_solid {m : Mode} : ∀ (a : Attr), a.Standard m → a.typed = true → ∀ {v r : Val} {is : Issues},
    a.process m v = .ok (r, is) → r.Solid
  | .simple info, hstd, ht, v, r, is, h => by
    rw [Attr.process] at h
    simp only [Attr.typed, Bool.and_eq_true, bne_iff_ne] at ht
    exact simple_solid hstd ht.1 ht.2 h
  | .complex info subs ps ds, hstd, hty, v, r, is, h => by
    obtain ⟨ht, hvc, hs1, hs2, hs3, hs4⟩ := hstd
    rw [Attr.typed] at hty
    rw [complex_process_eq] at h
    split at h
    · cases h
    · rename_i value issues hi
      split at h
      · rename_i hc
        cases h
        exact complex_stopped ht hvc hs1 hi hc
      · split at h
        · cases h
        · rename_i parsed issues2 hb
          have key := @processSubs_solid m subs hs4 hty (fun s hs => (hs3.plain s hs).2.1)
          have hok : parsed.Solid := by
            unfold complexBody at hb
            split at hb
            · split at hb
              · split at hb
                · cases hb
                · rename_i hc
                  cases hb
                  simp only [Val.Solid]
                  exact complexItems_solid (fun _ _ _ _ _ h => key solid_emptyCont h) hc
              · cases hb
            · exact key solid_emptyCont hb
          split at h
          · cases h; exact hok
          · refine runProcs_solid _ ?_ hok h
            intro p hp v r i hv
            rw [(hs2 p hp).1] at hv
            exact primary_keeps hv
theorem processSubs_solid {m : Mode} : ∀ (subs : List Attr), StandardAll m subs → typedAll subs = true →
    (∀ s ∈ subs, s.rep.sub = []) → ∀ {loc : Loc} {item parsed r : Val} {s is : Issues}, parsed.Solid →
    processSubs m subs loc item parsed s = .ok (r, is) → r.Solid
  | [], _, _, _, _, _, _, _, _, _, hp, h => by rw [processSubs] at h; cases h; exact hp
  | a :: as, hstd, hty, hsub, loc, item, parsed, r, s, is, hp, h => by
    rw [StandardAll] at hstd
    simp only [typedAll, Bool.and_eq_true] at hty
    rw [processSubs] at h
    split at h
    · cases h
    · exact processSubs_solid as hstd.2 hty.2 (fun s hs => hsub s (List.mem_cons_of_mem _ hs)) hp h
    · split at h
      · cases h
      · rename_i p i hpr
        split at h
        · cases h
        · rename_i parsed' hset
          exact processSubs_solid as hstd.2 hty.2 (fun s hs => hsub s (List.mem_cons_of_mem _ hs))
            (setItem_solid (hsub a (by simp)) hp (process_solid a hstd.1 hty.1 hpr) hset) h
end

theorem processTop_solid {m : Mode} : ∀ (as : List Attr), StandardAll m as → typedAll as = true → (∀ a ∈ as, a.rep.sub = []) →
    ∀ {data parsed r : Val} {s is : Issues}, parsed.Solid → processTop m as data parsed s = .ok (r, is) → r.Solid
  | [], _, _, _, _, _, _, _, _, hp, h => by rw [processTop] at h; cases h; exact hp
  | a :: as, hstd, hty, hsub, data, parsed, r, s, is, hp, h => by
    rw [StandardAll] at hstd
    simp only [typedAll, Bool.and_eq_true] at hty
    rw [processTop] at h
    split at h
    · cases h
    · exact processTop_solid as hstd.2 hty.2 (fun s hs => hsub s (List.mem_cons_of_mem _ hs)) hp h
    · split at h
      · cases h
      · rename_i p i hpr
        split at h
        · cases h
        · rename_i parsed' hset
          exact processTop_solid as hstd.2 hty.2 (fun s hs => hsub s (List.mem_cons_of_mem _ hs))
            (setItem_solid (hsub a (by simp)) hp (process_solid a hstd.1 hty.1 hpr) hset) h

/-- What a schema makes of data is solid, whatever the data are. -/
theorem schema_process_solid {m : Mode} {s : Schema} (hs : s.WF) (hstd : StandardAll m s.attrs.top) (hty : typedAll s.attrs.top = true)
    {data r : Val} {is : Issues} (h : s.process m data = .ok (r, is)) : r.Solid := by
  unfold Schema.process at h
  split at h
  · cases h; simp only [Val.Solid]
  split at h
  · cases h; simp only [Val.Solid]
  split at h
  · cases h
  · rename_i r' is' hp
    have hr := processTop_solid _ hstd hty (fun a ha => hs.sub a ha) solid_emptyCont hp
    dsimp only at h
    repeat' split at h
    all_goals first
      | (cases h; done)
      | (cases h; exact hr)

theorem schema_dump_solid {s : Schema} (hs : s.WF) (hstd : StandardAll .dump s.attrs.top) (hty : typedAll s.attrs.top = true)
    {data r : Val} {is : Issues} (h : s.dump data = .ok (r, is)) : r.Solid := by
  unfold Schema.dump at h
  split at h
  · cases h
  · rename_i r' is' hp
    have hr := schema_process_solid hs hstd hty hp
    repeat' split at h
    all_goals first
      | (cases h; done)
      | (cases h; exact hr)

end Scim
