import Std.Data.String.ToInt
import Verif.Model.Assets.ErrorBodies
import Verif.Props.Sendable

/-! # C114: which error responses are accepted, and what becomes of the predefined ones -/

namespace Scim
open Issues V Valid Declared
variable [PyEnv]

theorem ErrorA.all_eq : ErrorA.schema.attrs.all =
    (schemasAttr :: [ErrorA.statusA, ErrorA.scimTypeA, ErrorA.detailA]).flatMap (bindWithSubs ErrorA.urn false) := by
  obtain ⟨_, h2⟩ := bind_facts (urn := ErrorA.urn) (ext := false) (declarations_of ErrorA.names_eq (by decide +kernel))
  exact ofList_all (keys_of_lnames h2)

/-- The attributes of an error. -/
theorem ErrorA.mem_all {a : Attr} : a ∈ ErrorA.schema.attrs.all ↔
    ∃ d ∈ [schemasAttr, ErrorA.statusA, ErrorA.scimTypeA, ErrorA.detailA],
      a = bindAttr d { schema := ErrorA.urn, attr := d.rep.attr } := by
  rw [ErrorA.all_eq, List.mem_flatMap]
  constructor
  · rintro ⟨d, hd, hm⟩
    refine ⟨d, hd, ?_⟩
    rcases mem_bindWithSubs.mp hm with h | ⟨b, hb, -⟩
    · exact h
    · simp only [List.mem_cons, List.not_mem_nil, or_false] at hd
      rcases hd with rfl | rfl | rfl | rfl <;> cases hb
  · rintro ⟨d, hd, rfl⟩
    exact ⟨d, hd, mem_bindWithSubs.mpr (.inl rfl)⟩

theorem ErrorA.mem_top {a : Attr} : a ∈ ErrorA.schema.attrs.top ↔ a ∈ ErrorA.schema.attrs.all := by
  constructor
  · exact ErrorA.wf.top_all a
  · intro ha
    rw [ErrorA.wf.topAll]
    refine List.mem_filter.mpr ⟨ha, ?_⟩
    obtain ⟨d, -, rfl⟩ := ErrorA.mem_all.mp ha
    rw [bindAttr_rep]
    rfl

theorem ErrorA.usual : UsualAll .dump ErrorA.schema.attrs.top := by
  rw [usualAll_iff]
  intro a ha
  obtain ⟨d, hd, rfl⟩ := ErrorA.mem_all.mp (ErrorA.mem_top.mp ha)
  simp only [List.mem_cons, List.not_mem_nil, or_false] at hd
  rcases hd with rfl | rfl | rfl | rfl <;>
    exact ⟨rfl, nofun, .inl rfl, nofun⟩

theorem ErrorA.regular : Regular ErrorA.schema := by
  intro a ha hsub
  obtain ⟨d, -, rfl⟩ := ErrorA.mem_all.mp ha
  rw [bindAttr_rep] at hsub
  exact absurd rfl hsub

theorem ErrorA.noShadow : ErrorA.schema.NoShadow := noShadow_of_noExt ErrorA.wf rfl

/-- What the attributes of an error accept. -/
theorem ErrorA.text_valid {d : Attr} (hd : d ∈ [ErrorA.statusA, ErrorA.scimTypeA, ErrorA.detailA]) {rep : AttrRep} {x : Val} :
    ValidFor .dump (bindAttr d rep) x ↔ x = .null ∨ ∃ t, x = .str t := by
  simp only [List.mem_cons, List.not_mem_nil, or_false] at hd
  rcases hd with rfl | rfl | rfl <;>
  · simp only [bindAttr, ErrorA.statusA, ErrorA.scimTypeA, ErrorA.detailA, mkAttr, ValidFor, OneOk, TypeOk, AttrInfo.procs]
    simp

theorem ErrorA.uses {D : List (Str × Val)} {u : Str} : ¬ Uses ErrorA.schema D u := by
  rintro ⟨a, ha, he, -⟩
  obtain ⟨d, -, rfl⟩ := ErrorA.mem_all.mp (ErrorA.mem_top.mp ha)
  rw [bindAttr_rep] at he
  cases he

/-- The words of the general claims for the body of an error. -/
theorem errorDoc_iff {D : List (Str × Val)} {status : Int} :
    ErrorDoc status D ↔ ValidDoc .dump ErrorA.schema D ∧ Given ErrorA.schema D (bindAttr schemasAttr { schema := ErrorA.urn, attr := "schemas".toList }) ∧
      errorHolds D "status" = some (.str (toString status).toList) := by
  have hsch : ErrorA.schema.schemas = [ErrorA.urn] := rfl
  have hrep : (bindAttr schemasAttr { schema := ErrorA.urn, attr := "schemas".toList }).rep =
    { schema := ErrorA.urn, attr := "schemas".toList } := bindAttr_rep _ _
  have hgiven : Given ErrorA.schema D (bindAttr schemasAttr { schema := ErrorA.urn, attr := "schemas".toList }) ↔
      ∃ x, errorHolds D "schemas" = some x ∧ ¬ x.Empty := by
    unfold Given errorHolds
    constructor
    · intro h
      have := h _ (.top (by rw [hrep]))
      rw [hrep] at this
      exact this
    · rintro h o (_ | ⟨hn, _⟩ | ⟨hn, _⟩ | ⟨hn, _⟩)
      · rw [hrep]; exact h
      all_goals exact absurd (by rw [hrep]) hn
  rw [hgiven]
  unfold ValidDoc
  rw [validIn_iff]
  constructor
  · rintro ⟨⟨strs, hne, hs, hall⟩, hst, hty, hde⟩
    refine ⟨⟨?_, ?_⟩, ⟨_, hs, ?_⟩, hst⟩
    · intro a ha x hx
      obtain ⟨d, hd, rfl⟩ := ErrorA.mem_all.mp (ErrorA.mem_top.mp ha)
      rw [bindAttr_rep] at hx
      rcases List.mem_cons.mp hd with rfl | hd
      · rw [schemas_valid]
        have : errorHolds D "schemas" = some x := hx
        rw [hs] at this
        cases this
        exact .inr ⟨strs, rfl⟩
      · rw [ErrorA.text_valid hd]
        simp only [List.mem_cons, List.not_mem_nil, or_false] at hd
        rcases hd with rfl | rfl | rfl
        · have : errorHolds D "status" = some x := hx
          rw [hst] at this
          cases this
          exact .inr ⟨_, rfl⟩
        · exact hty x hx
        · exact hde x hx
    · intro strs' hne' hs'
      have : errorHolds D "schemas" = some (.list (strs'.map Val.str)) := hs'
      rw [hs] at this
      have e : strs = strs' := by
        have := Val.list.inj (Option.some.inj this)
        exact List.map_inj_right (fun x y e => by simpa [Val.str] using e) |>.mp this
      subst e
      rw [hsch]
      refine ⟨fun t ht => ⟨_, List.mem_singleton.mpr rfl, hall t ht⟩, ?_, fun u hu => absurd hu ErrorA.uses⟩
      obtain ⟨t, ht⟩ := List.exists_mem_of_ne_nil _ hne
      exact ⟨t, ht, hall t ht⟩
    · simp [Val.Empty, hne]
  · rintro ⟨⟨hv, hl⟩, ⟨x, hx, hne⟩, hst⟩
    have hm := fun d (hd : d ∈ [schemasAttr, ErrorA.statusA, ErrorA.scimTypeA, ErrorA.detailA]) =>
      hv _ (ErrorA.mem_top.mpr (ErrorA.mem_all.mpr ⟨d, hd, rfl⟩))
    refine ⟨?_, hst, ?_, ?_⟩
    · have h1 := hm schemasAttr (by simp) x (by rw [bindAttr_rep]; exact hx)
      rw [schemas_valid] at h1
      rcases h1 with rfl | ⟨strs, rfl⟩
      · exact absurd (by simp [Val.Empty]) hne
      · have hs0 : strs ≠ [] := fun e => hne (by simp [Val.Empty, e])
        obtain ⟨h2, -, -⟩ := hl strs hs0 hx
        rw [hsch] at h2
        refine ⟨strs, hs0, hx, fun t ht => ?_⟩
        obtain ⟨u, hu, e⟩ := h2 t ht
        rw [List.mem_singleton.mp hu] at e
        exact e
    · intro y hy
      exact (ErrorA.text_valid (by simp)).mp (hm ErrorA.scimTypeA (by simp) y (by rw [bindAttr_rep]; exact hy))
    · intro y hy
      exact (ErrorA.text_valid (by simp)).mp (hm ErrorA.detailA (by simp) y (by rw [bindAttr_rep]; exact hy))

/-- **C114** an error response is always answered, and accepted exactly when the status is in the range and the body is that of an
error with this status. -/
theorem C114_accepted {status : Int} {body headers : Val} (hb : JsonBody ErrorA.schema body) :
    ∃ resp is, dumpError status body headers = .ok (resp, is) ∧
      (is.hasIssues = false ↔ 200 ≤ status ∧ status < 600 ∧ ∃ D, body = .dict D ∧ ErrorDoc status D) := by
  obtain ⟨resp, is, h⟩ := C97_error status body headers hb
  refine ⟨resp, is, h, ?_⟩
  rw [C74_accepted_iff status body headers resp is h]
  have hdump : ∀ v b i, ErrorA.schema.dump v = .ok (b, i) ↔ ErrorA.schema.process .dump v = .ok (b, i) := by
    intro v b i
    unfold Schema.dump
    rw [show ErrorA.schema.isResource = false from rfl]
    simp only [Bool.not_false, if_true]
    cases ErrorA.schema.process .dump v with
    | error e => simp
    | ok o => obtain ⟨x, y⟩ := o; simp
  have hcomm : ∀ p : Prop, (p ∧ 200 ≤ status ∧ status < 600) ↔ (200 ≤ status ∧ status < 600 ∧ p) :=
    fun p => ⟨fun ⟨a, b, c⟩ => ⟨b, c, a⟩, fun ⟨b, c, a⟩ => ⟨a, b, c⟩⟩
  rw [hcomm]
  refine and_congr_right fun _ => and_congr_right fun _ => ?_
  simp only [hdump]
  cases hd : body.isDict with
  | false =>
    obtain ⟨c, hc⟩ := process_rejects (m := .dump) (s := ErrorA.schema) hb.1 hd
    rw [hc]
    constructor
    · rintro ⟨b, i, e, -⟩
      have := congrArg (fun o : PyM (Val × Issues) => match o with | .ok (_, i) => i.hasIssues | _ => false) e
      exact nomatch (show (true : Bool) = false from this)
    · rintro ⟨D, rfl, -⟩
      cases hd
  | true =>
    obtain ⟨D, rfl⟩ : ∃ D, body = .dict D := by cases body <;> first | exact ⟨_, rfl⟩ | cases hd
    have hD := hb.2 D rfl
    -- the status that is kept
    have hkept : ∀ b i, ErrorA.schema.process .dump (.dict D) = .ok (b, i) → ValidIn .dump ErrorA.schema.attrs.top D →
        (b.getItem { schema := ErrorA.urn, attr := "status".toList } = .ok (.str (toString status).toList) ↔
          errorHolds D "status" = some (.str (toString status).toList)) := by
      intro b i hp hv
      have hrep : ErrorA.status.rep = { schema := ErrorA.urn, attr := "status".toList } := ErrorA.status_rep
      unfold errorHolds
      rw [← hrep]
      rcases top_given ErrorA.wf ErrorA.noShadow ErrorA.sane ErrorA.usual hD hv hp ErrorA.status_mem with
        ⟨hl, hg⟩ | ⟨w, y, i, hl, -, hvf, hy, -, hg⟩
      · rw [hl, hg]; simp [Val.str]
      · rw [hl, hg]
        have hbm : ErrorA.status = .simple _ := rfl
        rw [hbm] at hvf hy
        obtain ⟨rfl, -⟩ := Valid.text_process (.inl rfl) rfl rfl rfl hvf hy
        simp
    have hreq : ∀ a ∈ ErrorA.schema.attrs.all, a.info.returned ≠ .never := by
      intro a ha
      obtain ⟨d, hd, rfl⟩ := ErrorA.mem_all.mp ha
      simp only [List.mem_cons, List.not_mem_nil, or_false] at hd
      rcases hd with rfl | rfl | rfl | rfl <;> exact nofun
    have hlist : ∀ r : AttrRep, Listed r [] ↔ False := fun r => ⟨fun ⟨_, h, _⟩ => (by cases h), False.elim⟩
    constructor
    · rintro ⟨b, i, hp, hc, hn, hg⟩
      have hv := (process_valid ErrorA.wf ErrorA.sane ErrorA.usual hD hp).mp rfl
      have hc' := (checker_ok ErrorA.wf ErrorA.noShadow ErrorA.owned ErrorA.sane ErrorA.usual ErrorA.regular hD hv.1 hp hc).mp hn
      refine ⟨D, rfl, errorDoc_iff.mpr ⟨hv, ?_, (hkept b {} hp hv.1).mp hg⟩⟩
      exact (hc' _ (ErrorA.mem_all.mpr ⟨schemasAttr, by simp, rfl⟩)).1 rfl (by rw [hlist]; exact id) (fun e => by cases e)
    · rintro ⟨D', e, hdoc⟩
      cases e
      obtain ⟨hv, hgs, hst⟩ := errorDoc_iff.mp hdoc
      obtain ⟨b, i, hp, hfine, -⟩ := C97_dump ErrorA.schema ErrorA.wf ErrorA.noShadow ErrorA.owned ErrorA.standard
        (fun h => by cases h) (.dict D) hb
      rw [hdump] at hp
      have hn := (process_valid ErrorA.wf ErrorA.sane ErrorA.usual hD hp).mpr hv
      have hz := eq_empty_of_noIssues (schema_process_wf ErrorA.wf ErrorA.sane hp) hn
      subst hz
      obtain ⟨i2, hc⟩ := checker_total ErrorA.wf ErrorA.owned (hfine rfl) {} .response
      refine ⟨b, i2, hp, hc, ?_, (hkept b {} hp hv.1).mpr hst⟩
      rw [checker_ok ErrorA.wf ErrorA.noShadow ErrorA.owned ErrorA.sane ErrorA.usual ErrorA.regular hD hv.1 hp hc]
      intro a ha
      refine ⟨fun hr _ _ => ?_, fun _ _ _ hbad => ?_⟩
      · obtain ⟨d, hd, rfl⟩ := ErrorA.mem_all.mp ha
        simp only [List.mem_cons, List.not_mem_nil, or_false] at hd
        rcases hd with rfl | rfl | rfl | rfl
        · exact hgs
        · rintro o (_ | ⟨hn, _⟩ | ⟨hn, _⟩ | ⟨hn, _⟩)
          · rw [bindAttr_rep]
            refine ⟨_, hst, ?_⟩
            have := intText_ne_nil status
            simpa [Val.Empty, Val.str, Val.null] using this
          all_goals exact absurd (by rw [bindAttr_rep]) hn
        · cases hr
        · cases hr
      · rcases hbad with hnv | ⟨e, -⟩ | ⟨e, -⟩
        · exact hreq a ha hnv
        · cases e
        · cases e

/-- Names in ASCII are found as in ASCII. -/
theorem found_ascii {n : Str} {D : List (Str × Val)} (hn : asciiStr n = true) (hD : (D.map (·.1)).all asciiStr = true) :
    found n D = @found asciiEnv n D := by
  unfold found
  have : (D.map (·.1)).filter (fun k => lower k = lower n) =
      (D.map (·.1)).filter (fun k => @lower asciiEnv k = @lower asciiEnv n) := by
    apply List.filter_congr
    intro k hk
    rw [lower_asciiStr hn, lower_asciiStr (List.all_eq_true.mp hD k hk)]
    rfl
  rw [this]

/-- The body of an error together with the list of schemas. -/
def withSchemas (e : List (Str × Val)) : List (Str × Val) := ("schemas".toList, .list [.str ErrorA.urn]) :: e

theorem holds_body (st ty de : String) :
    errorHolds (ScimError.body st ty de) "schemas" = none ∧
    (errorHolds (withSchemas (ScimError.body st ty de)) "schemas" = some (.list [.str ErrorA.urn]) ∧
     errorHolds (withSchemas (ScimError.body st ty de)) "status" = some (.str st.toList) ∧
     errorHolds (withSchemas (ScimError.body st ty de)) "scimType" = some (.str ty.toList) ∧
     errorHolds (withSchemas (ScimError.body st ty de)) "detail" = some (.str de.toList)) := by
  have h1 : found ErrorA.urn (ScimError.body st ty de) = none := found_ascii (by decide +kernel) (by rfl)
  have h2 : found ErrorA.urn (withSchemas (ScimError.body st ty de)) = none := found_ascii (by decide +kernel) (by rfl)
  simp only [errorHolds, look, h1, h2]
  refine ⟨found_ascii (by decide +kernel) (by rfl), found_ascii (by decide +kernel) (by rfl),
    found_ascii (by decide +kernel) (by rfl), found_ascii (by decide +kernel) (by rfl), found_ascii (by decide +kernel) (by rfl)⟩

theorem error_json {D : List (Str × Val)} (ht : (Val.dict D).Tame) (hu : found ErrorA.urn D = none)
    (hs : ∀ x, errorHolds D "schemas" = some x → x = .list [.str ErrorA.urn]) : JsonBody ErrorA.schema (.dict D) := by
  refine ⟨ht, fun kvs e => ?_⟩
  cases e
  refine ⟨ht, ?_, ?_, handlesAll_of_easy _ rfl _⟩
  · intro k v hm u hur e
    have hur : u = ErrorA.urn := List.mem_singleton.mp hur
    subst hur
    exfalso
    have hk : k ∈ (D.map (·.1)).filter (fun k => lower k = lower ErrorA.urn) :=
      List.mem_filter.mpr ⟨List.mem_map.mpr ⟨_, hm, rfl⟩, by simpa using e⟩
    unfold found at hu
    cases hl : ((D.map (·.1)).filter (fun k => lower k = lower ErrorA.urn)).getLast? with
    | none => rw [List.getLast?_eq_none_iff] at hl; rw [hl] at hk; cases hk
    | some k' =>
      rw [hl] at hu
      have hk' := List.mem_of_getLast? hl
      have := aget_isSome_iff.mpr (List.mem_filter.mp hk').1
      simp only [Option.bind_some] at hu
      rw [hu] at this
      cases this
  · intro x hx
    rw [getItem_look (.inl hu) rfl] at hx
    intro xs e
    subst e
    cases hl : look { schema := ErrorA.schema.urn, attr := "schemas".toList } D with
    | none => rw [hl] at hx; cases hx
    | some y =>
      rw [hl] at hx
      have := hs y hl
      subst this
      dsimp only at hx
      have e := conv_strs [ErrorA.urn]
      rw [show (Val.list ([ErrorA.urn].map Val.str)) = Val.list [.str ErrorA.urn] from rfl] at e
      rw [e] at hx
      cases hx
      exact ⟨[ErrorA.urn], rfl⟩

theorem predefined_shape {e : List (Str × Val)} (h : e ∈ ScimError.all) : ∃ ty de, e = ScimError.body "400" ty de := by
  simp only [ScimError.all, List.mem_cons, List.not_mem_nil, or_false] at h
  rcases h with rfl | rfl | rfl | rfl | rfl | rfl | rfl | rfl | rfl | rfl <;> exact ⟨_, _, rfl⟩

/-- **C114** the predefined errors are refused as they stand, because they list no schema; with the list of schemas they are
accepted, with status 400 only. -/
theorem C114_predefined {e : List (Str × Val)} (h : e ∈ ScimError.all) (status : Int) (headers : Val) :
    (∃ resp is, dumpError status (.dict e) headers = .ok (resp, is) ∧ is.hasIssues = true) ∧
    (∃ resp is, dumpError status (.dict (withSchemas e)) headers = .ok (resp, is) ∧ (is.hasIssues = false ↔ status = 400)) := by
  obtain ⟨ty, de, rfl⟩ := predefined_shape h
  obtain ⟨n1, s1, s2, s3, s4⟩ := holds_body "400" ty de
  constructor
  · have hj : JsonBody ErrorA.schema (.dict (ScimError.body "400" ty de)) := by
      refine error_json ?_ (found_ascii (by decide +kernel) (by rfl)) (fun x hx => by rw [n1] at hx; cases hx)
      simp only [ScimError.body, Val.Tame, TamePairs, Val.str]
      exact ⟨by simp only [List.map]; decide +kernel, by simp only [List.map]; decide +kernel, trivial, trivial, trivial, trivial⟩
    obtain ⟨resp, is, h, hi⟩ := C114_accepted (status := status) (headers := headers) hj
    refine ⟨resp, is, h, ?_⟩
    cases hn : is.hasIssues with
    | true => rfl
    | false =>
      obtain ⟨-, -, D, e, hd⟩ := hi.mp hn
      cases e
      obtain ⟨strs, -, hs, -⟩ := hd.schemas
      rw [n1] at hs
      cases hs
  · have hj : JsonBody ErrorA.schema (.dict (withSchemas (ScimError.body "400" ty de))) := by
      refine error_json ?_ (found_ascii (by decide +kernel) (by rfl)) (fun x hx => by rw [s1] at hx; cases hx; rfl)
      simp only [withSchemas, ScimError.body, Val.Tame, TamePairs, TameList, Val.str]
      exact ⟨by simp only [List.map]; decide +kernel, by simp only [List.map]; decide +kernel, ⟨trivial, trivial⟩, trivial, trivial, trivial, trivial⟩
    obtain ⟨resp, is, h, hi⟩ := C114_accepted (status := status) (headers := headers) hj
    refine ⟨resp, is, h, ?_⟩
    rw [hi]
    constructor
    · rintro ⟨-, -, D, e, hd⟩
      cases e
      have := hd.status
      rw [s2] at this
      have e : "400".toList = (toString status).toList := by simpa [Val.str] using this
      have e' : toString (400 : Int) = toString status := String.toList_inj.mp e
      exact (Int.repr_inj.mp e').symm
    · rintro rfl
      refine ⟨by decide, by decide, _, rfl, ⟨[ErrorA.urn], by simp, s1, fun t ht => by rw [List.mem_singleton.mp ht]⟩, s2, ?_, ?_⟩
      · intro x hx
        rw [s3] at hx
        cases hx
        exact .inr ⟨_, rfl⟩
      · intro x hx
        rw [s4] at hx
        cases hx
        exact .inr ⟨_, rfl⟩

end Scim

namespace Scim.Examples.ErrorBodies
open Scim V Valid
local instance errorBodiesEnv : PyEnv := asciiEnv

/-- The first predefined error with its schemas: accepted with 400, refused with 404. -/
example : (dumpError 400 (.dict (withSchemas ScimError.invalidFilter)) .null).map (fun p => p.2.hasIssues) = .ok false ∧
    (dumpError 404 (.dict (withSchemas ScimError.invalidFilter)) .null).map (fun p => p.2.hasIssues) = .ok true ∧
    (dumpError 400 (.dict ScimError.invalidFilter) .null).map (fun p => p.2.hasIssues) = .ok true := by
  have hm : ScimError.invalidFilter ∈ ScimError.all := by simp [ScimError.all]
  obtain ⟨⟨r1, i1, h1, e1⟩, r2, i2, h2, e2⟩ := C114_predefined hm 400 .null
  obtain ⟨-, r3, i3, h3, e3⟩ := C114_predefined hm 404 .null
  rw [h1, h2, h3]
  refine ⟨congrArg Except.ok (e2.mpr rfl), congrArg Except.ok ?_, congrArg Except.ok e1⟩
  cases hi : i3.hasIssues with
  | true => exact hi
  | false => exact absurd (e3.mp hi) (by decide)

/-- Any text is accepted as the kind of error, and a status from 200 on: the declared kinds and the range of error
statuses are not enforced. -/
def odd : List (Str × Val) := [("schemas".toList, .list [.str ErrorA.urn]), ("status".toList, .str "200".toList),
  ("scimType".toList, .str "whatever".toList)]

theorem odd_json : JsonBody ErrorA.schema (.dict odd) := by
  refine error_json ?_ (by decide +kernel) (fun x hx => ?_)
  · simp only [odd, Val.Tame, TamePairs, TameList, Val.str]
    decide +kernel
  · have : errorHolds odd "schemas" = some (.list [.str ErrorA.urn]) := by decide +kernel
    rw [this] at hx; cases hx; rfl

example : ErrorDoc 200 odd where
  schemas := ⟨[ErrorA.urn], by simp, by decide +kernel, fun t ht => by rw [List.mem_singleton.mp ht]⟩
  status := by decide +kernel
  scimType := fun x hx => by
    have : errorHolds odd "scimType" = some (.str "whatever".toList) := by decide +kernel
    rw [this] at hx; cases hx; exact .inr ⟨_, rfl⟩
  detail := fun x hx => by
    have : errorHolds odd "detail" = none := by decide +kernel
    rw [this] at hx; cases hx

end Scim.Examples.ErrorBodies
