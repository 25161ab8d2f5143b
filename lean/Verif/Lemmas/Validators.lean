import Verif.Model.Validators
import Verif.Lemmas.PatchBridge
import Verif.Props.Presence

/-! Helper lemmas about the validators. -/

namespace Scim
open Issues
variable [PyEnv]

/-! ## Presence checks report consistently -/

theorem checkItems_wf {c : Checker} {d : Direction} {a : Attr} {n : Nat} {xs : List Val} {s r : Issues}
    (hs : s.WF) (h : c.checkItems d a n xs s = .ok r) : r.WF := by
  induction xs generalizing n s with
  | nil => simp only [Checker.checkItems, Except.ok.injEq] at h; subst h; exact hs
  | cons x xs ih =>
    rw [Checker.checkItems] at h
    split at h
    · simp at h
    · split at h
      · simp at h
      · exact ih hs h
      · exact ih (hs.merge (checkPresence_wf _ _ _ _) _) h

theorem checkAttr_wf {c : Checker} {data : Val} {attrs : Attributes} {d : Direction} {a : Attr} {s r : Issues}
    (hs : s.WF) (h : c.checkAttr data attrs d a s = .ok r) : r.WF := by
  unfold Checker.checkAttr at h
  have hm : ∀ v l, (s.merge (c.checkPresence v d a) l).WF := fun v l => hs.merge (checkPresence_wf _ _ _ _) _
  have hsing : ∀ {r}, (match data.getItem a.rep with
      | .error e => Except.error e
      | .ok .invalid => Except.ok s
      | .ok v => Except.ok (s.merge (c.checkPresence v d a) a.rep.loc)) = Except.ok r → r.WF := by
    intro r h
    split at h
    · cases h
    · cases h; exact hs
    · cases h; exact hm _ _
  simp only at h
  split at h
  · cases h
  · split at h
    · exact hsing h
    · split at h
      · cases h
      · split at h
        · exact hsing h
        · split at h
          all_goals first
            | (cases h; done)
            | (cases h; exact hs)
            | (cases h; exact hm _ _)
            | exact checkItems_wf hs h

theorem checkAll_wf {c : Checker} {data : Val} {attrs : Attributes} {d : Direction} {as : List Attr} {s r : Issues}
    (hs : s.WF) (h : c.checkAll data attrs d as s = .ok r) : r.WF := by
  induction as generalizing s with
  | nil => simp only [Checker.checkAll, Except.ok.injEq] at h; subst h; exact hs
  | cons a as ih =>
    rw [Checker.checkAll] at h
    split at h
    · simp at h
    · rename_i s' hs'
      exact ih (checkAttr_wf hs hs') h

theorem call_wf {c : Checker} {data : Val} {attrs : Attributes} {d : Direction} {r : Issues}
    (h : c.call data attrs d = .ok r) : r.WF := checkAll_wf WF.empty h

/-! ## Schemas -/

/-- Without issues the result is an object. -/
theorem process_noIssues {m : Mode} {s : Schema} {data r : Val} {is : Issues} (h : s.process m data = .ok (r, is))
    (hn : is.hasIssues = false) : (data.isCont || data.isDict) = true ∧ r.Reach := by
  by_cases hobj : (data.isCont || data.isDict) = true
  · exact ⟨hobj, schema_process_reach hobj h⟩
  · unfold Schema.process at h
    split at h
    · cases h; simp [blocking, hasIssues_add] at hn
    · split at h
      · cases h; simp [blocking, hasIssues_add] at hn
      · rename_i h2; simp at h2; simp at hobj; grind

/-- `dump` processes first and may report the type of the resource besides. -/
theorem dump_split {s : Schema} {data r : Val} {is : Issues} (h : s.dump data = .ok (r, is)) :
    ∃ is1 is2, s.process .dump data = .ok (r, is1) ∧ is = is1.merge is2 ∧ is2.WF ∧
      ∀ l, l ≠ resourceTypeLoc → is2.errorsAt l = [] := by
  unfold Schema.dump at h
  split at h
  · cases h
  · rename_i r0 is0 hp
    repeat' split at h
    all_goals first
      | (cases h; done)
      | (cases h; exact ⟨_, {}, hp, rfl, WF.empty, fun _ _ => rfl⟩)
      | skip
    rename_i is2 hv
    cases h
    refine ⟨_, is2, hp, rfl, ?_, ?_⟩
    · unfold validateResourceType at hv
      split at hv
      · cases hv
      · cases hv
        split
        · exact WF.empty
        · exact WF.empty.add _ _ _
    · intro l hl
      unfold validateResourceType at hv
      split at hv
      · cases hv
      · cases hv
        split
        · rfl
        · rw [errorsAt_add, if_neg (Ne.symm hl)]; rfl

theorem dump_noIssues {s : Schema} {data r : Val} {is : Issues} (h : s.dump data = .ok (r, is))
    (hn : is.hasIssues = false) :
    (data.isCont || data.isDict) = true ∧ r.Reach ∧ s.process .dump data = .ok (r, is) := by
  obtain ⟨is1, is2, hp, rfl, _⟩ := dump_split h
  rw [hasIssues_merge_false] at hn
  have := process_noIssues hp hn.1
  refine ⟨this.1, this.2, ?_⟩
  rw [hp, merge_noIssues _ _ hn.2]

theorem schema_dump_wf {s : Schema} (hs : s.WF) (hsane : SaneAll s.attrs.top) {data r : Val} {is : Issues}
    (h : s.dump data = .ok (r, is)) : is.WF := by
  obtain ⟨is1, is2, hp, rfl, hw, _⟩ := dump_split h
  exact (schema_process_wf hs hsane hp).merge hw _

theorem Val.Reach.isCont {v : Val} (h : v.Reach) : v.isCont = true := by
  obtain ⟨_, _, rfl, _⟩ := h.inv; rfl

theorem Val.Reach.toDict {v : Val} (h : v.Reach) : ∃ kvs, v.toDict = .dict kvs := by
  obtain ⟨d, lc, rfl, _⟩ := h.inv; exact ⟨_, rfl⟩

/-! ## Nothing blocks where nothing is reported -/

theorem canProceed_empty (ls : List Loc) : Issues.canProceed {} ls = true := by
  cases ls with
  | nil => rfl
  | cons l ls => simp [Issues.canProceed, Issues.canProceedAt]

namespace V

omit [PyEnv] in
theorem merge_empty_clean {is : Issues} (l : Loc) (h : is.hasIssues = false) : Issues.empty.merge is l = {} :=
  merge_noIssues _ _ h

/-- A body passes the presence check without issues exactly when the checker has none. -/
theorem checkBody_clean {c : Checker} {attrs : Attributes} {d : Direction} {body : Val} {r : Issues}
    (h : checkBody c attrs d body {} = .ok r) (hn : r.hasIssues = false) :
    ∃ is, c.call body attrs d = .ok is ∧ is.hasIssues = false ∧ r = {} := by
  unfold checkBody at h
  rw [canProceed_empty] at h
  simp only [if_true] at h
  split at h
  · cases h
  · rename_i is his
    cases h
    rw [hasIssues_merge_false] at hn
    exact ⟨is, his, hn.2, merge_noIssues _ _ hn.2⟩

theorem checkBody_mono {c : Checker} {attrs : Attributes} {d : Direction} {body : Val} {s r : Issues}
    (h : checkBody c attrs d body s = .ok r) :
    ∃ is, r = s.merge is bodyLoc ∧ is.WF ∧
      ((s.canProceed [bodyLoc] = true ∧ c.call body attrs d = .ok is) ∨ (s.canProceed [bodyLoc] = false ∧ is = {})) := by
  unfold checkBody at h
  split at h
  · rename_i hc
    split at h
    · cases h
    · rename_i is his
      cases h
      exact ⟨is, rfl, call_wf his, .inl ⟨hc, his⟩⟩
  · rename_i hc
    cases h
    exact ⟨{}, rfl, WF.empty, .inr ⟨by simpa using hc, rfl⟩⟩

theorem parseBody_split {parse : Val → PyM (Val × Issues)} {attrs : Attributes} {body b : Val} {ig : List AttrRep}
    {is : Issues} (h : parseBody parse attrs body ig = .ok (b, is)) :
    ∃ is1 is2, parse body = .ok (b, is1) ∧ is = (Issues.empty.merge is1 bodyLoc).merge is2 bodyLoc ∧ is2.WF ∧
      (((Issues.empty.merge is1 bodyLoc).canProceed [bodyLoc] = true ∧
          Checker.call { ignore := ig } b attrs .request = .ok is2) ∨
        ((Issues.empty.merge is1 bodyLoc).canProceed [bodyLoc] = false ∧ is2 = {})) := by
  unfold parseBody at h
  split at h
  · cases h
  · rename_i b0 is1 hp
    split at h
    · cases h
    · rename_i r hr
      cases h
      obtain ⟨is2, rfl, hw, hcase⟩ := checkBody_mono hr
      exact ⟨is1, is2, hp, rfl, hw, hcase⟩

/-- A body is accepted exactly when it parses and is complete. -/
theorem parseBody_clean {parse : Val → PyM (Val × Issues)} {attrs : Attributes} {body b : Val} {ig : List AttrRep}
    {is : Issues} (h : parseBody parse attrs body ig = .ok (b, is)) (hn : is.hasIssues = false) :
    ∃ is1 is2, parse body = .ok (b, is1) ∧ is1.hasIssues = false ∧
      Checker.call { ignore := ig } b attrs .request = .ok is2 ∧ is2.hasIssues = false := by
  obtain ⟨is1, is2, hp, rfl, _, hcase⟩ := parseBody_split h
  rw [hasIssues_merge_false, hasIssues_merge_false] at hn
  refine ⟨is1, is2, hp, hn.1.2, ?_, hn.2⟩
  rw [merge_empty_clean _ hn.1.2, canProceed_empty] at hcase
  grind

theorem dropReadOnly_reach {as : List Attr} {b r : Val} (hb : b.Reach) (h : dropReadOnly as b = .ok r) : r.Reach := by
  induction as generalizing b with
  | nil => cases h; exact hb
  | cons a as ih =>
    rw [dropReadOnly] at h
    split at h
    · split at h
      · cases h
      · rename_i b' hd
        exact ih (.del _ hb hd) h
    · exact ih hb h

/-- What is known of a PUT request. -/
theorem parsePut_split {s : Schema} {body headers query : Val} {req : Request} {is : Issues}
    (h : parsePut s body headers query = .ok (req, is)) :
    ∃ q iq b ib, parseQuery query = .ok (q, iq) ∧ parseBody s.parse s.attrs body = .ok (b, ib) ∧ is = iq.merge ib ∧
      req.headers = headers ∧ req.query = q ∧
      ((is.hasIssues = true ∧ req.body = .null) ∨
        (is.hasIssues = false ∧ dropReadOnly s.attrs.all b = .ok req.body)) := by
  unfold parsePut at h
  split at h
  · cases h
  · rename_i q iq hq
    split at h
    · cases h
    · rename_i b ib hb
      simp only at h
      split at h
      · rename_i hi
        cases h
        exact ⟨q, iq, b, ib, hq, hb, rfl, rfl, rfl, .inl ⟨hi, rfl⟩⟩
      · rename_i hi
        split at h
        · cases h
        · rename_i b' hd
          cases h
          exact ⟨q, iq, b, ib, hq, hb, rfl, rfl, rfl, .inr ⟨by simpa using hi, hd⟩⟩

theorem parsePost_split {s : Schema} {body headers query : Val} {req : Request} {is : Issues}
    (h : parsePost s body headers query = .ok (req, is)) :
    ∃ q iq b ib, parseQuery query = .ok (q, iq) ∧
      parseBody s.parse s.attrs body (serverRequired s.attrs.all) = .ok (b, ib) ∧ is = iq.merge ib ∧
      req.headers = headers ∧ req.query = q ∧ req.body = if is.hasIssues then .null else b := by
  unfold parsePost at h
  split at h
  · cases h
  · rename_i q iq hq
    split at h
    · cases h
    · rename_i b ib hb
      cases h
      exact ⟨q, iq, b, ib, hq, hb, rfl, rfl, rfl, rfl⟩

/-- What is known of a resource response. -/
theorem dumpResource_split {s : Schema} {lr : Bool} {ex st : Int} {body headers : Val} {c : Option Checker}
    {resp : Response} {is : Issues} (h : dumpResource s lr ex st body headers c = .ok (resp, is)) :
    ∃ b is1 is2 i3 is3, s.dump body = .ok (b, is1) ∧
      i3 = (((Issues.empty.merge is1 bodyLoc).merge (locationInHeader (orDict headers) lr) headersLoc).merge
        (statusIs ex st) statusLoc) ∧
      is2 = i3.merge is3 bodyLoc ∧ is3.WF ∧
      ((i3.canProceed [bodyLoc] = true ∧ (c.getD {}).call b s.attrs .response = .ok is3) ∨
        (i3.canProceed [bodyLoc] = false ∧ is3 = {})) ∧
      checkLocations s (orDict headers) b is2 = .ok is ∧ resp.headers = orDict headers ∧
      resp.body = if is.hasIssues then .null else b.toDict := by
  unfold dumpResource at h
  split at h
  · cases h
  · rename_i b is1 hd
    simp only at h
    split at h
    · cases h
    · rename_i is2 hc
      obtain ⟨is3, rfl, hw, hcase⟩ := checkBody_mono hc
      split at h
      · cases h
      · rename_i is4 hl
        cases h
        exact ⟨b, is1, _, _, is3, hd, rfl, rfl, hw, hcase, hl, rfl, rfl⟩

theorem checkLocations_split {s : Schema} {headers body : Val} {is r : Issues}
    (h : checkLocations s headers body is = .ok r) :
    ∃ a loc, s.attrs.getSub "meta".toList "location".toList = some a ∧ getLocation headers = .ok loc ∧
      (((is.canProceed [bodyLoc ++ a.rep.loc, headerLocationLoc] && !loc.isNone) = true ∧
          ∃ v j, body.getItem a.rep = .ok v ∧ locationsMatch v loc = .ok j ∧ r = is.merge j) ∨
        ((is.canProceed [bodyLoc ++ a.rep.loc, headerLocationLoc] && !loc.isNone) = false ∧ r = is)) := by
  unfold checkLocations at h
  split at h
  · cases h
  · rename_i a ha
    split at h
    · cases h
    · rename_i loc hloc
      split at h
      · rename_i hc
        split at h
        · cases h
        · rename_i v hv
          split at h
          · cases h
          · rename_i j hj
            cases h
            exact ⟨a, loc, ha, hloc, .inl ⟨hc, v, j, hv, hj, rfl⟩⟩
      · rename_i hc
        cases h
        exact ⟨a, loc, ha, hloc, .inr ⟨by simpa using hc, rfl⟩⟩

theorem checkLocations_noIssues {s : Schema} {headers body : Val} {is r : Issues}
    (h : checkLocations s headers body is = .ok r) (hn : r.hasIssues = false) : is.hasIssues = false := by
  obtain ⟨a, loc, _, _, ⟨_, v, j, _, _, rfl⟩ | ⟨_, rfl⟩⟩ := checkLocations_split h
  · exact ((hasIssues_merge_false _ _ _).mp hn).1
  · exact hn

end V
end Scim
