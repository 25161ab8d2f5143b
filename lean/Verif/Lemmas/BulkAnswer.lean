import Verif.Lemmas.BulkOutcome
import Verif.Props.BulkResponses

/-! Bulk responses: which operations make the dumper raise. -/

namespace Scim
open Issues
variable [PyEnv]

/-! ### The parts of an operation -/

namespace BulkA

theorem location_dump {z w : Val} {j : Issues} (h : locationA.process .dump z = .ok (w, j)) :
    (w = z ∧ (z = .null ∨ ∃ s, z = .str s ∧ urlOk s = true)) ∨ (w = .invalid ∧ ∀ s, z = .str s → urlOk s = false) := by
  by_cases hz : z.isNone = true
  · rw [isNone_iff.mp hz, C25_null] at h
    cases h
    exact .inl ⟨(isNone_iff.mp hz).symm, .inl (isNone_iff.mp hz)⟩
  · have e : locationA = .simple locationA.info := rfl
    rw [e, single_process rfl (by simpa using hz)] at h
    have hc : locationA.info.validateCanon = false := rfl
    have ht : locationA.info.type = .extRef := rfl
    have hp : locationA.info.procs .dump = [] := rfl
    unfold AttrInfo.processOne at h
    rw [ht, hp] at h
    simp only [AttrType.conv, AttrType.dump, AttrType.parse, hc, Bool.and_false, Bool.false_eq_true, if_false, runProcs] at h
    have hx : (∃ s, z = .str s ∧ urlOk s = true ∧ extRefConv z = .ok (.str s, {})) ∨
        ∃ k, extRefConv z = .ok (.invalid, k) ∧ (Issues.merge {} k).hasIssues = true ∧ ∀ s, z = .str s → urlOk s = false := by
      unfold extRefConv
      split
      · rename_i s
        by_cases hu : urlOk s = true
        · exact .inl ⟨s, rfl, hu, by rw [if_pos hu]⟩
        · exact .inr ⟨_, by rw [if_neg hu], rfl, fun s' e => by cases e; simpa using hu⟩
      · rename_i hne
        exact .inr ⟨_, rfl, rfl, fun s e => absurd e (hne s)⟩
    rcases hx with ⟨s, rfl, hu, hx⟩ | ⟨k, hx, hk, hno⟩
    · rw [hx] at h
      have e0 : Issues.merge {} {} = {} := rfl
      simp only [e0, has_empty, Bool.false_eq_true, if_false] at h
      cases h
      exact .inl ⟨rfl, .inr ⟨s, rfl, hu⟩⟩
    · rw [hx] at h
      simp only [hk, if_true] at h
      cases h
      exact .inr ⟨rfl, hno⟩

theorem text_dump {a : Attr} (ha : a = .simple a.info) (hm : a.info.multi = false) (ht : a.info.type = .string)
    (hp : a.info.procs .dump = []) (hv : a.info.validateCanon = false) {z w : Val} {j : Issues} (h : a.process .dump z = .ok (w, j)) :
    (w = z ∧ (z = .null ∨ ∃ s, z = .str s)) ∨ w = .invalid := by
  by_cases hz : z.isNone = true
  · rw [isNone_iff.mp hz, C25_null] at h
    cases h
    exact .inl ⟨(isNone_iff.mp hz).symm, .inl (isNone_iff.mp hz)⟩
  · rw [ha, single_process hm (by simpa using hz), one_mode (by rw [ht]; decide)] at h
    rcases one_string (i := a.info) ht z with ⟨s, rfl, ⟨hc, e⟩ | ⟨hc, hv', e⟩⟩ | ⟨hne, e⟩
    · rw [e] at h
      simp only [has_empty, Bool.false_eq_true, if_false, hp, runProcs] at h
      cases h
      exact .inl ⟨rfl, .inr ⟨s, rfl⟩⟩
    · rw [hv] at hv'; cases hv'
    · rw [e] at h
      have : (Issues.merge {} (blocking 2)).hasIssues = true := rfl
      simp only [this, if_true] at h
      cases h
      exact .inr rfl

/-- The parts of an operation `x` as the loop over the operations finds them. -/
structure PartsOf (x : Val) (p : V.Parts) : Prop where
  method : p.method.truthy = true → ∃ t, p.method = .str t ∧ Considered x t
  method' : ∀ t, Considered x t → p.method = .str t ∧ p.method.truthy = true
  location : p.location.truthy = true → ∃ t, p.location = .str t ∧ PlacedAt x t
  location' : ∀ t, PlacedAt x t → p.location = .str t ∧ p.location.truthy = true
  status : p.status.truthy = true → ∃ n, p.status.pyInt = .ok n
  report : (p.status.truthy && p.response.truthy) = true → ∃ n, p.status.pyInt = .ok n ∧ Reported x n p.response
  report' : ∀ n r, Reported x n r → (p.status.truthy && p.response.truthy) = true ∧ p.status.pyInt = .ok n ∧ p.response = r
  version : p.version.truthy = true → ∃ t, p.version = .str t

/-- The parts of a dumped operation. -/
theorem parts_item {x o m st r l v : Val} (hs : SubResult .dump responseSubs x o)
    (hm : o.getItem { attr := methodWord } = .ok m) (hst : o.getItem { attr := statusWord } = .ok st)
    (hr : o.getItem { attr := responseWord } = .ok r) (hl : o.getItem { attr := locationWord } = .ok l)
    (hv : o.getItem { attr := versionWord } = .ok v) : PartsOf x ⟨m, st, r, l, v⟩ := by
  have hread : ∀ s ∈ responseSubs, ∃ z w, x.getItem s.rep = .ok z ∧ o.getItem s.rep = .ok w ∧
      ((z = .missing ∧ w = .missing) ∨ ∃ j, s.process .dump z = .ok (w, j)) := by
    intro s hsm
    obtain ⟨z, hz⟩ := hs.read s hsm
    cases hmz : z.isMissing with
    | true =>
      have := missing_eq hmz
      subst this
      exact ⟨_, _, hz, hs.absent s hsm hz, .inl ⟨rfl, rfl⟩⟩
    | false =>
      obtain ⟨w, j, hp, hw⟩ := hs.present s hsm z hz hmz
      exact ⟨z, w, hz, hw, .inr ⟨j, hp⟩⟩
  obtain ⟨zm, wm, xm, om, cm⟩ := hread methodA (by simp [responseSubs])
  obtain ⟨zs, ws, xs, os, cs⟩ := hread statusA (by simp [responseSubs])
  obtain ⟨zr, wr, xr, or, cr⟩ := hread responseA (by simp [responseSubs])
  obtain ⟨zl, wl, xl, ol, cl⟩ := hread locationA (by simp [responseSubs])
  obtain ⟨zv, wv, xv, ov, cv⟩ := hread versionA (by simp [responseSubs])
  have em : wm = m := Except.ok.inj (om.symm.trans hm)
  have es : ws = st := Except.ok.inj (os.symm.trans hst)
  have er' : wr = r := Except.ok.inj (or.symm.trans hr)
  have el : wl = l := Except.ok.inj (ol.symm.trans hl)
  have ev : wv = v := Except.ok.inj (ov.symm.trans hv)
  subst em es er' el ev
  have er : zr = wr := by
    rcases cr with ⟨rfl, rfl⟩ | ⟨j, hp⟩
    · rfl
    · rw [response_dump] at hp; cases hp; rfl
  subst er
  have fm : x.getItem { attr := "method".toList } = .ok zm := xm
  have fs : x.getItem { attr := "status".toList } = .ok zs := xs
  have fr : x.getItem { attr := "response".toList } = .ok zr := xr
  have fl : x.getItem { attr := "location".toList } = .ok zl := xl
  have hmne : ∀ t, ["get".toList, "post".toList, "patch".toList, "put".toList, "delete".toList].contains (lower t) = true →
      t ≠ [] := by
    rintro _ h rfl
    rw [show lower ([] : Str) = [] from PyEnv.lower_ascii [] (by simp)] at h
    revert h; decide
  have hcon : ∀ t, Considered x t → zm = .str t ∧
      ["get".toList, "post".toList, "patch".toList, "put".toList, "delete".toList].contains (lower t) = true := by
    rintro t ⟨h1, h2⟩
    rw [fm] at h1
    exact ⟨Except.ok.inj h1, List.contains_iff_mem.mpr h2⟩
  have hpl : ∀ t, PlacedAt x t → zl = .str t ∧ urlOk t = true := by
    rintro t ⟨h1, h2⟩
    rw [fl] at h1
    exact ⟨Except.ok.inj h1, h2⟩
  refine ⟨?_, ?_, ?_, ?_, ?_, ?_, ?_, ?_⟩
  · intro ht
    rcases cm with ⟨rfl, rfl⟩ | ⟨jm, hpm⟩
    · cases ht
    rcases method_dump hpm with ⟨rfl, rfl | ⟨s, rfl, hc⟩, -⟩ | ⟨rfl, -, -⟩
    · cases ht
    · exact ⟨s, rfl, fm, List.contains_iff_mem.mp hc⟩
    · cases ht
  · intro t ht
    obtain ⟨rfl, hc⟩ := hcon t ht
    rcases cm with ⟨e, -⟩ | ⟨jm, hpm⟩
    · cases e
    rcases method_dump hpm with ⟨rfl, -, -⟩ | ⟨-, -, hno⟩
    · exact ⟨rfl, str_truthy (hmne t hc)⟩
    · rw [hno t rfl] at hc; cases hc
  · intro ht
    rcases cl with ⟨rfl, rfl⟩ | ⟨j, hp⟩
    · cases ht
    rcases location_dump hp with ⟨rfl, rfl | ⟨s, rfl, hc⟩⟩ | ⟨rfl, -⟩
    · cases ht
    · exact ⟨s, rfl, fl, hc⟩
    · cases ht
  · intro t ht
    obtain ⟨rfl, hc⟩ := hpl t ht
    rcases cl with ⟨e, -⟩ | ⟨jm, hp⟩
    · cases e
    rcases location_dump hp with ⟨rfl, -⟩ | ⟨-, hno⟩
    · refine ⟨rfl, str_truthy ?_⟩
      rintro rfl
      rw [PyEnv.urlOk_nil] at hc; cases hc
    · rw [hno t rfl] at hc; cases hc
  · intro ht
    rcases cs with ⟨rfl, rfl⟩ | ⟨js, hps⟩
    · cases ht
    rcases status_dump hps with ⟨rfl, rfl | ⟨s, n, rfl, hn⟩, -⟩ | ⟨rfl, -, -⟩
    · cases ht
    · refine ⟨n, ?_⟩
      show (Val.prim (.str s)).pyInt = _
      simp only [Val.pyInt, hn]
    · cases ht
  · intro ht
    rw [Bool.and_eq_true] at ht
    rcases cs with ⟨rfl, rfl⟩ | ⟨js, hps⟩
    · cases ht.1
    rcases status_dump hps with ⟨rfl, rfl | ⟨s, n, rfl, hn⟩, -⟩ | ⟨rfl, -, -⟩
    · cases ht.1
    · refine ⟨n, ?_, s, fs, hn, fr, ht.2⟩
      show (Val.prim (.str s)).pyInt = _
      simp only [Val.pyInt, hn]
    · cases ht.1
  · rintro n r ⟨s, h1, hn, h2, h3⟩
    rw [fs] at h1; cases h1
    rw [fr] at h2; cases h2
    rcases cs with ⟨e, -⟩ | ⟨js, hps⟩
    · cases e
    rcases status_dump hps with ⟨rfl, -, -⟩ | ⟨-, -, hno⟩
    · refine ⟨?_, ?_, rfl⟩
      · rw [Bool.and_eq_true]
        refine ⟨str_truthy ?_, h3⟩
        rintro rfl
        rw [PyEnv.parseInt_nil] at hn; cases hn
      · show (Val.prim (.str s)).pyInt = _
        simp only [Val.pyInt, hn]
    · rw [hno s rfl] at hn; cases hn
  · intro ht
    rcases cv with ⟨rfl, rfl⟩ | ⟨j, hp⟩
    · cases ht
    rcases text_dump (a := versionA) rfl rfl rfl rfl rfl hp with ⟨rfl, rfl | ⟨s, rfl⟩⟩ | rfl
    · cases ht
    · exact ⟨s, rfl⟩
    · cases ht

/-- An operation that is no object has no parts. -/
theorem parts_bad {x : Val} (h : x.isCont = false) : PartsOf x ⟨.missing, .missing, .missing, .missing, .missing⟩ := by
  have hno : ∀ (a : Str) (v : Val), x.getItem { attr := a } ≠ .ok v := by
    intro a v hv
    cases x <;> simp [Val.isCont, Val.getItem, Val.getX] at h hv
  refine ⟨?_, ?_, ?_, ?_, ?_, ?_, ?_, ?_⟩
  · intro h; cases h
  · rintro t ⟨h, -⟩; exact absurd h (hno _ _)
  · intro h; cases h
  · rintro t ⟨h, -⟩; exact absurd h (hno _ _)
  · intro h; cases h
  · intro h; cases h
  · rintro n r ⟨s, h, -⟩; exact absurd h (hno _ _)
  · intro h; cases h

end BulkA

/-! ### The loop over the operations -/

namespace V
open BulkA (PartsOf)

theorem find_of_leadsTo {vs : List (Str × Schema)} {t name : Str} {s : Schema} (h : LeadsTo vs t name s) :
    vs.find? (fun p => isInfix ('/' :: p.1 ++ ['/']) t) = some (name, s) := by
  obtain ⟨before, after, rfl, h1, h2⟩ := h
  rw [List.find?_eq_some_iff_append]
  refine ⟨(isInfix_iff _ _).mpr h1, before, after, rfl, ?_⟩
  intro q hq
  rw [Bool.not_eq_true', ← Bool.not_eq_true, isInfix_iff]
  exact h2 q hq

theorem find_none {vs : List (Str × Schema)} {t : Str} :
    vs.find? (fun p => isInfix ('/' :: p.1 ++ ['/']) t) = none ↔ ∀ q ∈ vs, ¬ Contains ('/' :: q.1 ++ ['/']) t := by
  rw [List.find?_eq_none]
  simp only [isInfix_iff]

omit [PyEnv] in
theorem last_eq {α : Type} {xs : List α} {y : α} : xs.getLast? = some y ↔ ∃ before, xs = before ++ [y] := by
  rw [List.getLast?_eq_some_iff]

/-- The validator for a location is that of the schema that answers. -/
theorem validatorFor_some {vs : List (Str × Schema)} {i : Nat} {m t : Str} {mm : Method} (hm : methodOf (.str m) = some mm)
    (ht : (Val.str t).truthy = true) (issues : Issues) :
    ∃ v is', validatorFor vs i (.str m) (.str t) issues = .ok (v, is') ∧ (v = none ↔ vs = []) ∧
      (∀ m' s, v = some (m', s) ↔ m' = mm ∧ AnsweredBy vs t s) := by
  unfold validatorFor
  rw [if_pos ht, hm]
  show ∃ v is', (match vs.find? (fun p => isInfix ('/' :: p.1 ++ ['/']) t) with
        | some p => Except.ok (some (mm, p.2), issues)
        | none => .ok (vs.getLast?.map (fun p => (mm, p.2)), issues.add ⟨36, []⟩ false (opPartLoc i BulkA.locationWord)) : PyM _) = .ok (v, is') ∧ _
  cases hf : vs.find? (fun p => isInfix ('/' :: p.1 ++ ['/']) t) with
  | some p =>
    refine ⟨_, _, rfl, ?_, ?_⟩
    · constructor
      · intro h; cases h
      · rintro rfl; cases hf
    · intro m' s
      constructor
      · intro h
        cases h
        exact ⟨rfl, .inl ⟨_, leadsTo_of_find hf⟩⟩
      · rintro ⟨rfl, ⟨name, h⟩ | ⟨h, -⟩⟩
        · rw [find_of_leadsTo h] at hf; cases hf; rfl
        · rw [find_none.mpr h] at hf; cases hf
  | none =>
    refine ⟨_, _, rfl, ?_, ?_⟩
    · rw [Option.map_eq_none_iff, List.getLast?_eq_none_iff]
    · intro m' s
      rw [Option.map_eq_some_iff]
      constructor
      · rintro ⟨⟨name, s'⟩, h1, h2⟩
        cases h2
        obtain ⟨before, h1⟩ := last_eq.mp h1
        exact ⟨rfl, .inr ⟨find_none.mp hf, before, name, h1⟩⟩
      · rintro ⟨rfl, ⟨name, h⟩ | ⟨h, before, name, h1⟩⟩
        · rw [find_of_leadsTo h] at hf; cases hf
        · exact ⟨_, last_eq.mpr ⟨before, h1⟩, rfl⟩

theorem methodOf_text {m : Str} : methodOf (.str m) = none ↔ m ∉ bulkMethods := by
  rw [BulkA.methodOf_none]
  constructor
  · intro h hm; exact h m hm rfl
  · intro h m' hm' e
    cases e
    exact h hm'

theorem answeredBy_mem {vs : List (Str × Schema)} {t : Str} {s : Schema} (h : AnsweredBy vs t s) : ∃ name, (name, s) ∈ vs := by
  rcases h with ⟨name, before, after, rfl, -⟩ | ⟨-, before, name, rfl⟩
  · exact ⟨name, by simp⟩
  · exact ⟨name, by simp⟩

theorem responseOne_iff {vs : List (Str × Schema)} (hvs : ∀ q ∈ vs, ServedSchema q.2) {x o : Val} {p : Parts} (hp : PartsOf x p)
    (ho : o.isCont = true) (i : Nat) (issues : Issues) :
    (∃ res, responseOne vs i o p.method p.status p.response p.location p.version issues = .ok res) ↔ ¬ OutcomeRaises vs x := by
  constructor
  · rintro ⟨res, h⟩ hr
    unfold responseOne at h
    cases hr with
    | @method m t hc hl hm =>
      obtain ⟨e1, e2⟩ := hp.method' _ hc
      obtain ⟨e3, e4⟩ := hp.location' _ hl
      rw [e2] at h
      simp only [Bool.not_true, Bool.false_eq_true, if_false] at h
      unfold validatorFor at h
      rw [if_pos e4, e1, methodOf_text.mpr hm] at h
      cases h
    | @failed m n r hc hrep hn he =>
      obtain ⟨e1, e2⟩ := hp.method' _ hc
      obtain ⟨e3, e4, e5⟩ := hp.report' _ _ hrep
      rw [e2] at h
      simp only [Bool.not_true, Bool.false_eq_true, if_false] at h
      split at h
      · cases h
      rw [e3] at h
      simp only [Bool.not_true, Bool.false_eq_true, if_false] at h
      obtain ⟨e, he⟩ := he
      unfold outcomeOp at h
      rw [e4] at h
      simp only [hn, if_true] at h
      unfold failedOp at h
      rw [e5, he] at h
      cases h
    | @deleted t n r hc hl hv hrep hn =>
      obtain ⟨e1, e2⟩ := hp.method' _ hc
      obtain ⟨e3, e4⟩ := hp.location' _ hl
      obtain ⟨e5, e6, e7⟩ := hp.report' _ _ hrep
      rw [e2] at h
      simp only [Bool.not_true, Bool.false_eq_true, if_false] at h
      rw [e1, e3] at h
      rw [e3] at e4
      obtain ⟨v, is', h1, h2, h3⟩ := validatorFor_some (vs := vs) (i := i) (m := "DELETE".toList) (mm := .delete) rfl e4 issues
      rw [h1] at h
      dsimp only at h
      rw [e5] at h
      simp only [Bool.not_true, Bool.false_eq_true, if_false] at h
      cases v with
      | none => exact hv (h2.mp rfl)
      | some q =>
        obtain ⟨m', s⟩ := q
        obtain ⟨rfl, -⟩ := (h3 _ _).mp rfl
        unfold outcomeOp at h
        rw [e6] at h
        simp only [show ¬ n ≥ 300 by omega, if_false] at h
        cases h
    | @done m t n r s hc hm hd hl ha hrep hn he =>
      obtain ⟨e1, e2⟩ := hp.method' _ hc
      obtain ⟨e3, e4⟩ := hp.location' _ hl
      obtain ⟨e5, e6, e7⟩ := hp.report' _ _ hrep
      rw [e2] at h
      simp only [Bool.not_true, Bool.false_eq_true, if_false] at h
      rw [e1, e3] at h
      rw [e3] at e4
      cases hmm : methodOf (.str m) with
      | none => exact methodOf_text.mp hmm hm
      | some mm =>
        obtain ⟨v, is', h1, h2, h3⟩ := validatorFor_some (vs := vs) (i := i) hmm e4 issues
        rw [h1] at h
        dsimp only at h
        rw [e5] at h
        simp only [Bool.not_true, Bool.false_eq_true, if_false] at h
        rw [(h3 mm s).mpr ⟨rfl, ha⟩] at h
        unfold outcomeOp at h
        rw [e6] at h
        simp only [show ¬ n ≥ 300 by omega, if_false] at h
        obtain ⟨e, he⟩ := he
        unfold doneOp at h
        rw [dumpOp_eq hmm hd, e7, he] at h
        cases h
  · intro hno
    unfold responseOne
    cases hmt : p.method.truthy with
    | false => exact ⟨_, rfl⟩
    | true =>
      simp only [Bool.not_true, Bool.false_eq_true, if_false]
      obtain ⟨m, e1, hc⟩ := hp.method hmt
      rw [e1]
      have hafter : ∀ (v : Option (Method × Schema)) (is' : Issues),
          (∀ mm s, v = some (mm, s) → methodOf (.str m) = some mm ∧ ∃ t, p.location = .str t ∧ PlacedAt x t ∧ AnsweredBy vs t s) →
          ∃ res, (if !(p.status.truthy && p.response.truthy) then (Except.ok ((o, is'), false) : PyM ((Val × Issues) × Bool))
            else outcomeOp v i o p.status p.response p.location p.version is') = .ok res := by
        intro v is' hv
        cases hst : (p.status.truthy && p.response.truthy) with
        | false => exact ⟨_, rfl⟩
        | true =>
          simp only [Bool.not_true, Bool.false_eq_true, if_false]
          obtain ⟨n, e2, hrep⟩ := hp.report hst
          unfold outcomeOp
          rw [e2]
          dsimp only
          by_cases hn : n ≥ 300
          · rw [if_pos hn]
            cases hde : dumpError n p.response .null with
            | error e => exact absurd (.failed hc hrep hn ⟨e, hde⟩) hno
            | ok q =>
              obtain ⟨resp, is⟩ := q
              obtain ⟨res, hres⟩ := failedOp_total (i := i) ho hde is'
              rw [hres]
              exact ⟨_, rfl⟩
          · rw [if_neg hn]
            cases v with
            | none => exact ⟨_, rfl⟩
            | some q =>
              obtain ⟨mm, s⟩ := q
              obtain ⟨hmm, t, e3, hl, ha⟩ := hv mm s rfl
              have hmem : m ∈ bulkMethods := by
                apply Classical.byContradiction
                intro h
                rw [methodOf_text.mpr h] at hmm; cases hmm
              dsimp only
              by_cases hd : m = "DELETE".toList
              · subst hd
                obtain ⟨name, hmemv⟩ := answeredBy_mem ha
                exact absurd (.deleted hc hl (List.ne_nil_of_mem hmemv) hrep (by omega)) hno
              · cases hsr : singleResponse m s n p.response t with
                | error e => exact absurd (.done hc hmem hd hl ha hrep (by omega) ⟨e, hsr⟩) hno
                | ok q =>
                  obtain ⟨resp, is⟩ := q
                  rw [← dumpOp_eq hmm hd] at hsr
                  obtain ⟨name, hmemv⟩ := answeredBy_mem ha
                  obtain ⟨res, hres⟩ := doneOp_total (i := i) (hvs _ hmemv) ho hp.version hsr is'
                  rw [e3, hres]
                  exact ⟨_, rfl⟩
      cases hlt : p.location.truthy with
      | false =>
        unfold validatorFor
        simp only [hlt, Bool.false_eq_true, if_false]
        exact hafter none issues (fun _ _ e => by cases e)
      | true =>
        obtain ⟨t, e3, hl⟩ := hp.location hlt
        rw [e3] at hlt
        cases hmm : methodOf (.str m) with
        | none => exact absurd (.method hc hl (methodOf_text.mp hmm)) hno
        | some mm =>
          obtain ⟨v, is', h1, h2, h3⟩ := validatorFor_some (vs := vs) (i := i) hmm hlt issues
          have := hafter v is' (by
            rintro m' s rfl
            obtain ⟨rfl, ha⟩ := (h3 _ _).mp rfl
            exact ⟨hmm, t, e3, hl, ha⟩)
          rw [e3] at this ⊢
          rw [h1]
          exact this

theorem responsesLoop_iff {vs : List (Str × Schema)} (hvs : ∀ q ∈ vs, ServedSchema q.2) : ∀ (k : Nat) (xs os : List Val) (ps : List Parts)
    (issues : Issues), os.length = xs.length → ps.length = xs.length →
    (∀ (i : Nat) x o p, xs[i]? = some x → os[i]? = some o → ps[i]? = some p → PartsOf x p ∧ o.isCont = true) →
    ((∃ res, responsesLoop vs k os ps issues = .ok res) ↔ ∀ x ∈ xs, ¬ OutcomeRaises vs x)
  | k, [], os, ps, issues, h1, h2, _ => by
    have e1 : os = [] := by simpa using h1
    have e2 : ps = [] := by simpa using h2
    subst e1 e2
    rw [responsesLoop]
    · simp
    · simp
  | k, x :: xs, o :: os, p :: ps, issues, h1, h2, h => by
    obtain ⟨hp, ho⟩ := h 0 x o p rfl rfl rfl
    have one := fun is => responseOne_iff hvs hp ho k is
    have rest := fun is => responsesLoop_iff hvs (k + 1) xs os ps is (by simpa using h1) (by simpa using h2)
      (fun i x' o' p' a b c => h (i + 1) x' o' p' (by simpa using a) (by simpa using b) (by simpa using c))
    rw [responsesLoop]
    constructor
    · rintro ⟨res, hres⟩
      split at hres
      · cases hres
      rename_i o1 s1 b ho1
      split at hres
      · cases hres
      rename_i os1 s2 n hos
      intro y hy
      rcases List.mem_cons.mp hy with rfl | hy
      · exact (one _).mp ⟨_, ho1⟩
      · exact (rest _).mp ⟨_, hos⟩ y hy
    · intro hno
      obtain ⟨⟨⟨o1, s1⟩, b⟩, ho1⟩ := (one issues).mpr (hno x (by simp))
      rw [ho1]
      dsimp only
      obtain ⟨⟨⟨os1, s2⟩, n⟩, hos⟩ := (rest s1).mpr (fun y hy => hno y (List.mem_cons_of_mem _ hy))
      rw [hos]
      exact ⟨_, rfl⟩
  | k, x :: xs, [], ps, issues, h1, _, _ => by simp at h1
  | k, x :: xs, o :: os, [], issues, _, h2, _ => by simp at h2

end V

/-! ### The body -/

namespace BulkA

theorem status_total (z : Val) : ∃ r, statusA.process .dump z = .ok r := by
  by_cases hz : z.isNone = true
  · rw [isNone_iff.mp hz, C25_null]; exact ⟨_, rfl⟩
  · have e : statusA = .simple statusA.info := rfl
    rw [e, single_process rfl (by simpa using hz), one_mode (show AttrType.string ≠ .dateTime by decide)]
    rcases one_string (i := statusA.info) rfl z with ⟨s, rfl, ⟨hc, e⟩ | ⟨hc, hv, e⟩⟩ | ⟨hne, e⟩
    · rw [e]
      simp only [has_empty, Bool.false_eq_true, if_false]
      have hp : statusA.info.procs .dump = [validateStatus] := rfl
      rw [hp]
      simp only [runProcs, validateStatus, Val.pyInt]
      cases hi : parseInt s with
      | none =>
        simp only [PyErr.isValueError, if_true]
        exact ⟨_, rfl⟩
      | some n => exact ⟨_, rfl⟩
    · have : statusA.info.validateCanon = false := rfl
      rw [this] at hv; cases hv
    · rw [e]
      have : (Issues.merge {} (blocking 2)).hasIssues = true := rfl
      simp only [this, if_true]
      exact ⟨_, rfl⟩

theorem checkOutcome_total {i : Nat} {m st l r : Val} {n : Int} (h : st.pyInt = .ok n) (s : Issues) :
    ∃ t, checkOutcome i m st l r s = .ok t := by
  unfold checkOutcome
  rw [h]
  cases l.isNoneOrMissing <;> cases m.truthy <;> cases m.isText postWord <;> cases r.isNoneOrMissing <;> exact ⟨_, rfl⟩

theorem checkResponseOp_total {i : Nat} {o : Val} (hp : o.Plainly)
    (hs : ∀ st, o.getItem { attr := statusWord } = .ok st → st.truthy = true → ∃ n, st.pyInt = .ok n) (s : Issues) :
    ∃ t, checkResponseOp i o s = .ok t := by
  obtain ⟨m, hm⟩ := Plainly.get hp methodWord
  obtain ⟨b, hb⟩ := Plainly.get hp idWord
  obtain ⟨st, hst⟩ := Plainly.get hp statusWord
  obtain ⟨l, hl⟩ := Plainly.get hp locationWord
  obtain ⟨r, hr⟩ := Plainly.get hp responseWord
  unfold checkResponseOp
  rw [hm]; dsimp only
  rw [hb]; dsimp only
  rw [hst]; dsimp only
  unfold checkStatus
  split
  · rename_i ht
    rw [hl]; dsimp only
    rw [hr]; dsimp only
    obtain ⟨n, hn⟩ := hs st hst ht
    exact checkOutcome_total hn _
  · exact ⟨_, rfl⟩

theorem responseLoop_total : ∀ (k : Nat) (os : List Val) (s : Issues), (∀ o ∈ os, o.Plainly ∧
    ∀ st, o.getItem { attr := statusWord } = .ok st → st.truthy = true → ∃ n, st.pyInt = .ok n) → ∃ t, responseLoop k os s = .ok t
  | _, [], s, _ => ⟨s, rfl⟩
  | k, o :: os, s, h => by
    obtain ⟨t, ht⟩ := checkResponseOp_total (i := k) (h o (by simp)).1 (h o (by simp)).2 s
    rw [responseLoop, ht]
    exact responseLoop_total (k + 1) os t (fun o' ho => h o' (List.mem_cons_of_mem _ ho))

theorem parts_at {xs os : List Val} {is1 : Issues}
    (h1 : (Attr.complex (opsInfo responseUrn) responseSubs [] []).process .dump (.list xs) = .ok (.list os, is1)) :
    os.length = xs.length ∧ (∀ o ∈ os, o.Plainly) ∧ ∀ (i : Nat) (x o m st r l v : Val), xs[i]? = some x → os[i]? = some o →
      o.getItem { attr := methodWord } = .ok m → o.getItem { attr := statusWord } = .ok st →
      o.getItem { attr := responseWord } = .ok r → o.getItem { attr := locationWord } = .ok l →
      o.getItem { attr := versionWord } = .ok v → PartsOf x ⟨m, st, r, l, v⟩ := by
  have hk := response_keys h1
  obtain ⟨ys, e, hlen, hbad, hgood, -⟩ := C27_multi .dump (opsInfo responseUrn) _ [] [] (opsInfo_decl _ _) rfl
    responseSubs_plain responseSubs_sane (by simp [Attr.cprocs]) xs _ _ h1
  cases e
  refine ⟨hlen, fun o ho => plainly_of (hk o ho).1 (hk o ho).2.1, ?_⟩
  intro i x o m st r l v hx ho hm hst hr hl hv
  cases hc : x.isCont with
  | true =>
    obtain ⟨y, hy, hsr, -⟩ := hgood i x hx hc
    rw [ho] at hy
    cases hy
    exact parts_item hsr hm hst hr hl hv
  | false =>
    obtain ⟨⟨y, hy, -, hkk⟩, -⟩ := hbad i x hx hc
    rw [ho] at hy
    cases hy
    obtain ⟨r1, r2, -⟩ := hk o (List.mem_of_getElem? ho)
    have hno : ∀ a, o.getItem { attr := a } = .ok .missing := fun a =>
      getItem_undeclared r1 r2 (by intro k hk'; rw [hkk] at hk'; cases hk')
    rw [hno] at hm hst hr hl hv
    cases hm; cases hst; cases hr; cases hl; cases hv
    exact parts_bad hc

/-- The operations of a response are processed without exception. -/
theorem response_ops {xs : List Val} (hx : TameCList xs) : ∃ os j, responseOpsB.process .dump (.list xs) = .ok (.list os, j) := by
  have hsub : ∀ s ∈ responseSubs, ∀ z : Val, z.TameC → ∃ o, s.process .dump z = .ok o := by
    intro s hs z hz
    simp only [responseSubs, List.mem_cons, List.not_mem_nil, or_false] at hs
    rcases hs with rfl | rfl | rfl | rfl | rfl | rfl
    · exact process_total _ (by unfold Attr.Standard; exact .inl rfl) z hz (handles_of_easy _ rfl _)
    · exact process_total _ (by unfold Attr.Standard; exact .inl rfl) z hz (handles_of_easy _ rfl _)
    · exact process_total _ (by unfold Attr.Standard; exact .inl rfl) z hz (handles_of_easy _ rfl _)
    · exact process_total _ (by unfold Attr.Standard; exact .inl rfl) z hz (handles_of_easy _ rfl _)
    · exact status_total z
    · exact ⟨_, response_dump _ _⟩
  obtain ⟨ys, is1, h1, -⟩ := multi_total (m := .dump) (info := opsInfo responseUrn) (opsInfo_decl _ _) rfl responseSubs_plain hx (by
    intro y hy hc s hs
    obtain ⟨z, hz, hzt⟩ := sub_read (tameCList_iff.mp hx y hy) hc s (responseSubs_plain.plain s hs)
    have e : y.toCont = y := by cases y <;> simp [Val.isCont] at hc; rw [Val.toCont]
    rw [e] at hz
    exact ⟨z, hz, hsub s hs z hzt⟩) (fun s hs => hsub s hs _ (by simp [Val.TameC]))
  rw [responseOpsB_eq]
  rcases complex_join [validateSinglePrimary] [validateResponse, validateSinglePrimary] h1 with hj | ⟨hn, -, hj⟩
  · exact ⟨_, _, hj⟩
  · obtain ⟨hlen, hpl, hparts⟩ := parts_at h1
    obtain ⟨t, ht⟩ := responseLoop_total 0 ys {} (by
      intro o ho
      refine ⟨hpl o ho, ?_⟩
      intro st hst
      obtain ⟨i, hi⟩ := List.getElem?_of_mem ho
      have hlt : i < xs.length := by
        rw [← hlen]
        exact (List.getElem?_eq_some_iff.mp hi).1
      obtain ⟨m, hm⟩ := Plainly.get (hpl o ho) methodWord
      obtain ⟨l, hl⟩ := Plainly.get (hpl o ho) locationWord
      obtain ⟨r, hr⟩ := Plainly.get (hpl o ho) responseWord
      obtain ⟨v, hv⟩ := Plainly.get (hpl o ho) versionWord
      exact (hparts i _ o m st r l v (List.getElem?_eq_getElem hlt) hi hm hst hr hl hv).status)
    have hsp : validateSinglePrimary (.list ys) = .ok (.list ys, {}) := by
      simp only [validateSinglePrimary, no_primaries (response_keys h1)]
      rfl
    refine ⟨ys, (is1.merge t).merge {}, ?_⟩
    rw [hj, responseOpsB_cprocs]
    simp only [runProcs, validateResponse, ht, hsp]

theorem response_all_eq : responseSchema.attrs.all = (schemasAttr :: [responseOps]).flatMap (bindWithSubs responseUrn false) := by
  obtain ⟨_, h2⟩ := bind_facts (urn := responseUrn) (ext := false) (declarations_of responseNames_eq (by decide +kernel))
  exact ofList_all (keys_of_lnames h2)

theorem response_owned : responseSchema.Owned := by
  apply owned_of response_wf
  rw [response_all_eq]
  exact owned_bind (named_of responseNames_eq (by decide +kernel))

theorem response_top_read {d : List (Str × Val)} {lc : List (Str × Str)} (hi : CInv d lc) (hn : aget (lower responseUrn) lc = none)
    {a : Attr} (ha : a ∈ responseSchema.attrs.top) : ∃ x, (Val.cont d lc).getItem a.rep = .ok x := by
  have hrep : a.rep.schema = responseUrn ∧ a.rep.sub = [] := by
    rcases response_top a ha with rfl | rfl
    · rw [bindAttr_rep]; exact ⟨rfl, rfl⟩
    · rw [responseOpsB_rep]; exact ⟨rfl, rfl⟩
  rw [getItem_noKey (by rw [hrep.1]; exact hn), hrep.2]
  cases hk : aget (lower a.rep.attr) lc with
  | none => exact ⟨_, rfl⟩
  | some k =>
    obtain ⟨x, hx⟩ := Option.isSome_iff_exists.mp (aget_isSome_iff.mpr (hi.sound _ _ hk).2)
    dsimp only
    rw [hx]
    exact ⟨x, rfl⟩

theorem response_dump_eq (body : Val) : responseSchema.dump body = responseSchema.process .dump body := by
  unfold Schema.dump
  cases responseSchema.process .dump body with
  | error e => rfl
  | ok r => rfl

theorem responseOps_other {x : Val} (hn : x.isNone = false) (hl : x.isList = false) :
    responseOpsB.process .dump x = .ok (.invalid, blocking 2) := by
  rw [responseOpsB_eq, complex_process_eq, info_process_eq, hn]
  have hm : (opsInfo responseUrn).multi = true := rfl
  simp only [Bool.false_eq_true, if_false, AttrInfo.base, hm, if_true]
  have hb : (blocking 2).canProceed = false := rfl
  cases x <;> first | (simp [Val.isList] at hl; done) | simp only [hb, Bool.not_false, Bool.true_or, if_true]

/-- An ordinary body is dumped, and its presence check does not raise. -/
theorem response_body_total {kvs : List (Str × Val)} (hord : Ordinary responseSchema kvs) :
    ∃ b is0 is2, responseSchema.dump (.dict kvs) = .ok (b, is0) ∧ Checker.call {} b responseSchema.attrs .response = .ok is2 := by
  have hobj : ((Val.dict kvs).isCont || (Val.dict kvs).isDict) = true := rfl
  have hrep := responseOpsB_rep
  have hm : responseOpsB.info.multi = true := by rw [responseOpsB_eq]; rfl
  have hcases : ∀ x : Val, x.isNone = true ∨ (∃ xs, x = .list xs) ∨ (x.isNone = false ∧ x.isList = false) := by
    intro x
    cases x with
    | list xs => exact .inr (.inl ⟨xs, rfl⟩)
    | prim p => cases p <;> first | exact .inl rfl | exact .inr (.inr ⟨rfl, rfl⟩)
    | _ => exact .inr (.inr ⟨rfl, rfl⟩)
  have hopst : ∀ x : Val, x.TameC → ∃ o, responseOpsB.process .dump x = .ok o := by
    intro x htx
    rcases hcases x with hn | ⟨xs, rfl⟩ | ⟨hn, hl⟩
    · rw [isNone_iff.mp hn, C25_null]; exact ⟨_, rfl⟩
    · obtain ⟨os, j, h⟩ := response_ops (xs := xs) (by simpa only [Val.TameC] using htx)
      exact ⟨_, h⟩
    · exact ⟨_, responseOps_other hn hl⟩
  obtain ⟨b, is0, h0⟩ : ∃ b is0, responseSchema.process .dump (.dict kvs) = .ok (b, is0) := by
    refine process_total_of (m := .dump) response_wf hord ?_
    intro a ha x hxa htx hbx _
    rcases response_top a ha with rfl | rfl
    · exact process_total _ (bind_standard (by unfold schemasAttr mkAttr Attr.Standard; exact .inl rfl) _) x htx hbx
    · exact hopst x htx
  obtain ⟨htr, ⟨d, lc, rfl, hnk⟩, -⟩ := process_spec response_wf hobj h0
  have hnk' : aget (lower responseUrn) lc = none := hnk
  have hreach := schema_process_reach hobj h0
  have hi : CInv d lc := by
    obtain ⟨d', lc', e, hi⟩ := hreach.inv
    cases e
    exact hi
  obtain ⟨x, hx⟩ := htr.read responseOpsB responseOpsB_mem
  -- what stands at `Operations` after dumping
  obtain ⟨y, hget, hy⟩ : ∃ y, (Val.cont d lc).getItem responseOpsB.rep = .ok y ∧
      (y = .missing ∨ y = .null ∨ y = .invalid ∨ ∃ os, y = .list os ∧ ∀ o ∈ os, o.Plainly) := by
    cases hmx : x.isMissing with
    | true =>
      have := missing_eq hmx
      subst this
      exact ⟨_, htr.absent responseOpsB responseOpsB_mem (by rw [hrep]; rfl) hx, .inl rfl⟩
    | false =>
      obtain ⟨y, j, hp, hy⟩ := htr.present responseOpsB responseOpsB_mem x hx hmx
      refine ⟨y, hy, .inr ?_⟩
      rcases hcases x with hn | ⟨xs, rfl⟩ | ⟨hn, hl⟩
      · rw [isNone_iff.mp hn, C25_null] at hp; cases hp; exact .inl rfl
      · obtain ⟨os, is1, rfl, -, -, -, hbase, -⟩ := response_process hp
        exact .inr (.inr ⟨os, rfl, (parts_at hbase).2.1⟩)
      · rw [responseOps_other hn hl] at hp; cases hp; exact .inr (.inl rfl)
  obtain ⟨is2, hcall⟩ : ∃ is2, Checker.call {} (.cont d lc) responseSchema.attrs .response = .ok is2 := by
    have htop : ∀ t ∈ responseSchema.attrs.top, t.isComplex = true → t = responseOpsB := by
      intro t ht hc
      rcases response_top t ht with rfl | rfl
      · cases hc
      · rfl
    refine checker_total_of response_wf response_owned ?_ ?_ {} .response
    · intro a ha
      by_cases hsub : a.rep.sub = []
      · exact response_top_read hi hnk' (by rw [response_wf.topAll]; exact List.mem_filter.mpr ⟨ha, by simp [hsub]⟩)
      · obtain ⟨t, ht, h1, h2, h3, -⟩ := response_owned.parent response_wf ha hsub
        have := htop t ht h1
        subst this
        rw [hrep] at h2 h3
        have e1 : a.rep.schema = responseUrn := h2.symm
        have e2 : a.rep.attr = opsWord := h3.symm
        have hw := (response_owned.owner a ha hsub).1
        obtain ⟨z, hz⟩ : ∃ z, Val.getX true y { attr := a.rep.sub } = .ok z := by
          rcases hy with rfl | rfl | rfl | ⟨os, rfl, hpl⟩
          · exact ⟨_, rfl⟩
          · exact ⟨_, rfl⟩
          · exact ⟨_, rfl⟩
          · obtain ⟨ys, hy⟩ := getMap_total (q := a.rep.sub) os hpl
            exact ⟨.list ys, by simp only [Val.getX, hw, Bool.not_true, Bool.and_false, Bool.false_eq_true, if_false, hy]⟩
        refine ⟨z, ?_⟩
        have hread : (Val.cont d lc).getItem { schema := responseUrn, attr := opsWord, sub := a.rep.sub } = .ok z := by
          have h' : (Val.cont d lc).getItem { schema := responseUrn, attr := opsWord } = .ok y := by rw [← hget, hrep]; rfl
          rw [V.getItem_sub_noKey hnk' hsub, h']
          exact hz
        refine Eq.trans ?_ hread
        rw [getItem_noKey (r := a.rep) (by rw [e1]; exact hnk'),
          getItem_noKey (r := { schema := responseUrn, attr := opsWord, sub := a.rep.sub }) hnk', e2]
    · intro t ht hc x hxt
      have := htop t ht hc
      subst this
      rw [hget] at hxt
      cases hxt
      rw [hm]
      rcases hy with rfl | rfl | rfl | ⟨os, rfl, hpl⟩
      · exact .inr (.inl rfl)
      · exact .inr (.inr (.inl rfl))
      · exact .inl rfl
      · exact .inr (.inr (.inr (.inr ⟨rfl, os, rfl, hpl⟩)))
  exact ⟨_, is0, is2, by rw [response_dump_eq]; exact h0, hcall⟩

end BulkA
end Scim
