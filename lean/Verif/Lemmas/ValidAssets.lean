import Verif.Lemmas.ValidPresence
import Verif.Props.ListTotality

/-! The attributes of users and groups are usual. -/

namespace Scim.Valid
variable [PyEnv]
open Declared Issues

/-- Every attribute of a list is usual. -/
def Fair (as : List Attr) : Prop := ∀ a ∈ as, ∀ m, Usual m a

/-- A simple attribute without processors, of a usual type. -/
def simpleB (i : AttrInfo) : Bool :=
  i.rep.sub.isEmpty && i.type != .complex && i.parsers.isEmpty && i.dumpers.isEmpty &&
    (!i.validateCanon || i.type == .string)

theorem normCanonical_idem (ce : Bool) (cs : Option (List Prim)) :
    normCanonical ce (normCanonical ce cs) = normCanonical ce cs := by
  cases cs with
  | none => rfl
  | some cs =>
    simp only [normCanonical, Option.map_some, List.map_map]
    congr 2
    funext p
    cases p <;> cases ce <;> simp [Prim.normCase, PyEnv.lower_idem]

theorem fair_simple {i : AttrInfo} (h : simpleB i = true) : ∀ m, Usual m (mkAttr i) := by
  intro m
  simp only [simpleB, Bool.and_eq_true, List.isEmpty_iff, bne_iff_ne, ne_eq, Bool.or_eq_true, Bool.not_eq_true', beq_iff_eq] at h
  obtain ⟨⟨⟨⟨h1, h3⟩, h4⟩, h5⟩, h6⟩ := h
  unfold mkAttr Usual
  refine ⟨h1, h3, .inl (by cases m; exact h4; exact h5), fun hv => ?_⟩
  rcases h6 with h6 | h6
  · exact absurd hv (by simp only [h6]; simp)
  · exact ⟨h6, normCanonical_idem _ _⟩

theorem fair_id : ∀ m, Usual m idAttr := by
  intro m
  unfold idAttr mkAttr Usual
  refine ⟨rfl, by simp, .inr ⟨rfl, rfl, by cases m <;> rfl⟩, fun hv => by cases hv⟩

/-- A truth value called `primary`, or something not called so. -/
def primaryB (a : Attr) : Bool :=
  asciiStr a.rep.attr && (lowAscii a.rep.attr != "primary".toList ||
    match a with
    | .simple i => i.rep.schema.isEmpty && i.rep.attr == "primary".toList && i.rep.sub.isEmpty && !i.rep.ext && i.type == .boolean && !i.multi &&
        i.parsers.isEmpty && i.dumpers.isEmpty && !i.validateCanon
    | .complex _ _ _ _ => false)

theorem primary_of {a : Attr} (h : primaryB a = true) (hl : lower a.rep.attr = lower "primary".toList) (m : Mode) :
    PlainPrimary m a := by
  unfold primaryB at h
  rw [Bool.and_eq_true, Bool.or_eq_true] at h
  obtain ⟨h1, h2⟩ := h
  rw [lower_asciiStr h1, lower_asciiStr (by decide)] at hl
  rcases h2 with h2 | h2
  · rw [bne_iff_ne] at h2
    exact absurd (hl.trans (by decide)) h2
  · cases a with
    | complex _ _ _ _ => cases h2
    | simple i =>
      simp only [Bool.and_eq_true, List.isEmpty_iff, Bool.not_eq_true', beq_iff_eq] at h2
      obtain ⟨⟨⟨⟨⟨⟨⟨⟨e1, e2⟩, e3⟩, e4⟩, e5⟩, e6⟩, e7⟩, e8⟩, e9⟩ := h2
      refine ⟨?_, i, rfl, e5, e6, by cases m; exact e7; exact e8, e9⟩
      show i.rep = _
      cases hr : i.rep
      rw [hr] at e1 e2 e3 e4
      simp only at e1 e2 e3 e4
      subst e1; subst e2; subst e3; subst e4; rfl

/-- A complex attribute without processors of its own. -/
def complexB (i : AttrInfo) : Bool := i.rep.sub.isEmpty && i.parsers.isEmpty && i.dumpers.isEmpty

theorem fair_complex {i : AttrInfo} {subs : List Attr} (h : complexB i = true) (hp : PlainSubs (mkComplex i subs).subs)
    (hprim : (mkComplex i subs).subs.all primaryB = true) (hall : Fair (mkComplex i subs).subs) :
    ∀ m, Usual m (mkComplex i subs) := by
  intro m
  simp only [complexB, Bool.and_eq_true, List.isEmpty_iff] at h
  obtain ⟨⟨h1, h2⟩, h3⟩ := h
  unfold mkComplex at hp hprim hall ⊢
  simp only [Attr.subs] at hp hprim hall
  unfold Usual
  refine ⟨h1, rfl, rfl, by cases m; exact h2; exact h3, ?_, hp, ?_, usualAll_iff.mpr (fun a ha => hall a ha m)⟩
  · cases m <;> rfl
  · intro s hs hl
    exact primary_of (List.all_eq_true.mp hprim s hs) hl m

theorem fair_nil : Fair [] := fun _ h => by cases h
theorem fair_cons {a : Attr} {as : List Attr} (h : ∀ m, Usual m a) (hs : Fair as) : Fair (a :: as) := by
  intro b hb
  rcases List.mem_cons.mp hb with rfl | hb
  · exact h
  · exact hs b hb

macro "fair_list" : tactic => `(tactic| (repeat (first
  | exact fair_nil
  | (refine fair_cons (fair_simple rfl) ?_)
  | (refine fair_cons fair_id ?_))))

/-- An attribute bound to a schema is as usual as before. -/
theorem bind_usual {m : Mode} {a : Attr} (h : Usual m a) {rep : AttrRep} (hr : rep.sub = []) : Usual m (bindAttr a rep) := by
  cases a with
  | simple i =>
    unfold Usual at h
    unfold bindAttr Usual
    obtain ⟨-, h2, h3, -⟩ := h
    exact ⟨hr, h2, h3, fun hv => by cases hv⟩
  | complex i subs ps ds =>
    unfold Usual at h
    unfold bindAttr Usual
    obtain ⟨-, h⟩ := h
    exact ⟨hr, h⟩

theorem fair_user : Fair (schemasAttr :: idAttr :: externalIdAttr :: metaAttr :: UserA.attrs) := by
  have hp := user_decl.subs
  unfold UserA.attrs at hp ⊢
  simp only [List.mem_cons, forall_eq_or_imp] at hp
  obtain ⟨_, _, _, hmeta, _, hname, _, _, _, _, _, _, _, _, _, _, hemails, hphones, hims, hphotos, haddr, hgroups, hent, hroles, hx509, _⟩ := hp
  refine fair_cons (fair_simple rfl) (fair_cons fair_id (fair_cons (fair_simple rfl)
    (fair_cons (fair_complex rfl hmeta rfl ?_) (fair_cons (fair_simple rfl)
    (fair_cons (fair_complex rfl hname rfl ?_) ?_)))))
  · show Fair metaSubs
    unfold metaSubs
    fair_list
  · show Fair [_, _, _, _, _, _]
    fair_list
  · refine fair_cons (fair_simple rfl) (fair_cons (fair_simple rfl) (fair_cons (fair_simple rfl)
      (fair_cons (fair_simple rfl) (fair_cons (fair_simple rfl) (fair_cons (fair_simple rfl)
      (fair_cons (fair_simple rfl) (fair_cons (fair_simple rfl) (fair_cons (fair_simple rfl)
      (fair_cons (fair_simple rfl)
      (fair_cons (fair_complex rfl hemails rfl ?_) (fair_cons (fair_complex rfl hphones rfl ?_)
      (fair_cons (fair_complex rfl hims rfl ?_) (fair_cons (fair_complex rfl hphotos rfl ?_)
      (fair_cons (fair_complex rfl haddr rfl ?_) (fair_cons (fair_complex rfl hgroups rfl ?_)
      (fair_cons (fair_complex rfl hent rfl ?_) (fair_cons (fair_complex rfl hroles rfl ?_)
      (fair_cons (fair_complex rfl hx509 rfl ?_) fair_nil))))))))))))))))))
    all_goals fair_list

theorem fair_enterprise : Fair UserA.enterprise.attrs.all := by
  have hp := enterprise_decl.subs
  have he : UserA.enterprise.attrs.all = [UserA.employeeNumberA, UserA.costCenterA, UserA.divisionA, UserA.departmentA,
    UserA.organizationA, UserA.managerA] := rfl
  rw [he] at hp ⊢
  simp only [List.mem_cons, forall_eq_or_imp] at hp
  obtain ⟨_, _, _, _, _, hm, _⟩ := hp
  refine fair_cons (fair_simple rfl) (fair_cons (fair_simple rfl) (fair_cons (fair_simple rfl)
    (fair_cons (fair_simple rfl) (fair_cons (fair_simple rfl) (fair_cons (fair_complex rfl hm rfl ?_) fair_nil)))))
  fair_list

theorem fair_group : Fair (schemasAttr :: idAttr :: externalIdAttr :: metaAttr :: [GroupA.displayNameA, GroupA.membersA]) := by
  have hp := group_decl.subs
  simp only [List.mem_cons, forall_eq_or_imp] at hp
  obtain ⟨_, _, _, hmeta, _, hmem, _⟩ := hp
  refine fair_cons (fair_simple rfl) (fair_cons fair_id (fair_cons (fair_simple rfl)
    (fair_cons (fair_complex rfl hmeta rfl ?_) (fair_cons (fair_simple rfl)
    (fair_cons (fair_complex rfl hmem rfl ?_) fair_nil)))))
  all_goals fair_list

/-- The declarations a schema is made of. -/
def MadeOf (s : Schema) (P : Attr → Prop) : Prop :=
  ∀ a ∈ s.attrs.all, ∃ urn ext d, P d ∧ d.rep.sub = [] ∧ a ∈ bindWithSubs urn ext d ∧
    ∀ x ∈ bindWithSubs urn ext d, x ∈ s.attrs.all

theorem user_madeOf : MadeOf userSchema (fun d => ∀ m, Usual m d) := by
  intro a ha
  rw [user_all, user_core_all] at ha ⊢
  rcases List.mem_append.mp ha with h | h
  · obtain ⟨d, hd, hm⟩ := List.mem_flatMap.mp h
    exact ⟨_, _, d, fair_user d hd, (fair_user d hd .parse).sub, hm, fun x hx => List.mem_append_left _ (List.mem_flatMap.mpr ⟨d, hd, hx⟩)⟩
  · obtain ⟨d, hd, hm⟩ := List.mem_flatMap.mp h
    exact ⟨_, _, d, fair_enterprise d hd, (fair_enterprise d hd .parse).sub, hm, fun x hx => List.mem_append_right _ (List.mem_flatMap.mpr ⟨d, hd, hx⟩)⟩

attribute [local irreducible] GroupA.schema in
theorem group_madeOf : MadeOf GroupA.schema (fun d => ∀ m, Usual m d) := by
  intro a ha
  rw [_root_.Scim.group_all] at ha ⊢
  obtain ⟨d, hd, hm⟩ := List.mem_flatMap.mp ha
  exact ⟨_, _, d, fair_group d hd, (fair_group d hd .parse).sub, hm, fun x hx => List.mem_flatMap.mpr ⟨d, hd, hx⟩⟩

theorem usual_of {s : Schema} (hs : s.WF) (h : MadeOf s (fun d => ∀ m, Usual m d)) {m : Mode} : UsualAll m s.attrs.top := by
  refine usualAll_iff.mpr fun a ha => ?_
  obtain ⟨urn, ext, d, hu, hd, hm, -⟩ := h a (hs.top_all a ha)
  rcases mem_bindWithSubs.mp hm with rfl | ⟨b, hb, rfl⟩
  · exact bind_usual (hu m) rfl
  · have := hs.sub _ ha
    rw [bindAttr_rep] at this
    have hplain : b.rep.attr ≠ [] := by
      cases d with
      | simple i => cases hb
      | complex i subs ps ds => exact (hu m).complex.2.1.named b hb
    exact absurd this hplain

theorem bindAttr_subs (a : Attr) (rep : AttrRep) : (bindAttr a rep).subs = a.subs := by
  cases a <;> rfl

theorem regular_of {s : Schema} (hs : s.WF) (h : MadeOf s (fun d => ∀ m, Usual m d)) : Regular s := by
  rintro a ha hsub t ⟨ht, h1, h2⟩
  obtain ⟨urn, ext, d, hu, hd, hm, hin⟩ := h a ha
  rcases mem_bindWithSubs.mp hm with rfl | ⟨b, hb, rfl⟩
  · exact absurd (by rw [bindAttr_rep]) hsub
  · have ht0 := hin (bindAttr d { schema := urn, attr := d.rep.attr, ext := ext }) (mem_bindWithSubs.mpr (.inl rfl))
    rw [bindAttr_rep] at h1 h2
    have e : t = bindAttr d { schema := urn, attr := d.rep.attr, ext := ext } :=
      eq_of_map_nodup hs.names (hs.top_all t ht) ht0 (by
        simp only [bindAttr_rep] at h1 h2 ⊢
        simp only [h1, h2, hs.sub t ht])
    exact ⟨b, by rw [e, bindAttr_subs]; exact hb, by rw [bindAttr_rep]⟩

theorem user_proper : Proper userSchema :=
  ⟨user_wf, user_noShadow, user_owned, user_top_good.sane, fun _ => user_standard, fun _ => usual_of user_wf user_madeOf, regular_of user_wf user_madeOf⟩

attribute [local irreducible] GroupA.schema in
theorem group_proper : Proper GroupA.schema :=
  ⟨group_wf, group_noShadow, group_owned, group_top_good.sane, fun _ => group_standard, fun _ => usual_of group_wf group_madeOf, regular_of group_wf group_madeOf⟩

end Scim.Valid
