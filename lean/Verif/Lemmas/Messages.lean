import Verif.Lemmas.CoreView

/-! The schemas of messages are well-formed. -/

namespace Scim
open Issues
variable [PyEnv]

theorem mkSchema_mem {u : Str} {as : List Attr} {d : Attr} (hd : d ∈ as) :
    bindAttr d { schema := u, attr := d.rep.attr } ∈ (mkSchema u as).attrs.top := by
  have h : (mkSchema u as).attrs.top = (((schemasAttr :: as).flatMap (bindWithSubs u false)).filter
      (fun a => a.rep.sub.isEmpty)) := rfl
  rw [h, List.mem_filter]
  refine ⟨?_, by rw [bindAttr_rep]; rfl⟩
  rw [List.mem_flatMap]
  exact ⟨d, List.mem_cons_of_mem _ hd, List.mem_cons_self⟩

/-- The attributes of a schema of simple attributes. -/
theorem mkSchema_top {u : Str} {as : List Attr} (hs : ∀ d ∈ as, d.isComplex = false) {a : Attr}
    (ha : a ∈ (mkSchema u as).attrs.top) :
    ∃ d ∈ schemasAttr :: as, a = bindAttr d { schema := u, attr := d.rep.attr } := by
  have hm : a ∈ (schemasAttr :: as).flatMap (bindWithSubs u false) ∧ a.rep.sub.isEmpty = true := List.mem_filter.mp ha
  obtain ⟨hm, -⟩ := hm
  rw [List.mem_flatMap] at hm
  obtain ⟨d, hd, hm⟩ := hm
  rcases mem_bindWithSubs.mp hm with rfl | ⟨s, hs', rfl⟩
  · exact ⟨d, hd, rfl⟩
  · exfalso
    have : d.subs = [] := by
      rcases List.mem_cons.mp hd with rfl | hd
      · rfl
      · have := hs d hd
        cases d <;> simp [Attr.isComplex] at this; rfl
    rw [this] at hs'; cases hs'

theorem mkSchema_sane {u : Str} {as : List Attr} (hs : ∀ d ∈ as, d.isComplex = false)
    (hp : ∀ d ∈ as, ∀ p, p ∈ d.info.parsers ∨ p ∈ d.info.dumpers → ProcSane p) : SaneAll (mkSchema u as).attrs.top := by
  rw [saneAll_iff]
  intro a ha
  obtain ⟨d, hd, rfl⟩ := mkSchema_top hs ha
  rcases List.mem_cons.mp hd with rfl | hd
  · intro p hp
    rcases hp with hp | hp <;> exact absurd hp (by simp)
  · have h1 := hs d hd
    cases d with
    | complex => simp [Attr.isComplex] at h1
    | simple i => exact fun p hp' => hp _ hd p hp'

/-! ### Error -/

namespace ErrorA

def names : List (AttrRep × List AttrRep) :=
  @declNames (@schemasAttr asciiEnv :: [@statusA asciiEnv, @scimTypeA asciiEnv, @detailA asciiEnv])

theorem names_eq : declNames (schemasAttr :: [statusA, scimTypeA, detailA]) = names := rfl

theorem wf : schema.WF :=
  mkSchema_wf (declarations_of names_eq (by decide +kernel)) (by decide +kernel)
    (fun d hd => noClash_of names_eq (by decide +kernel) (urns := [urn]) (by decide +kernel) d hd _ (by simp))

theorem sane : SaneAll schema.attrs.top := by
  refine mkSchema_sane ?_ ?_
  · intro d hd
    simp only [List.mem_cons, List.not_mem_nil, or_false] at hd
    rcases hd with rfl | rfl | rfl <;> rfl
  · intro d hd p hp
    simp only [List.mem_cons, List.not_mem_nil, or_false] at hd
    rcases hd with rfl | rfl | rfl
    · simp only [statusA, mkAttr, Attr.info, List.mem_cons, List.not_mem_nil, or_false] at hp
      subst hp
      intro v r is h
      unfold parseStatus at h
      split at h
      · split at h
        · cases h; exact WF.empty.add _ _ _
        · cases h
      · cases h
        split
        · exact WF.empty
        · exact WF.empty.add _ _ _
    · rcases hp with hp | hp <;> simp [scimTypeA, mkAttr, Attr.info] at hp
    · rcases hp with hp | hp <;> simp [detailA, mkAttr, Attr.info] at hp

/-- `status`, bound to the schema. -/
def status : Attr := bindAttr statusA { schema := urn, attr := statusWord }

theorem status_mem : status ∈ schema.attrs.top := mkSchema_mem (d := statusA) (by simp)

theorem status_rep : status.rep = { schema := urn, attr := statusWord } := bindAttr_rep _ _

theorem getTop_status : schema.attrs.getTop statusWord = some status :=
  wf.getTop_of_mem status_mem (by rw [status_rep]) (by rw [status_rep])

end ErrorA

/-! ### ListResponse -/

namespace ListA

def names : List (AttrRep × List AttrRep) :=
  @declNames (@schemasAttr asciiEnv :: [@totalA asciiEnv, @startA asciiEnv, @itemsA asciiEnv, @resourcesA asciiEnv])

theorem names_eq : declNames (schemasAttr :: [totalA, startA, itemsA, resourcesA]) = names := rfl

theorem wf : schema.WF :=
  mkSchema_wf (declarations_of names_eq (by decide +kernel)) (by decide +kernel)
    (fun d hd => noClash_of names_eq (by decide +kernel) (urns := [urn]) (by decide +kernel) d hd _ (by simp))

theorem sane : SaneAll schema.attrs.top := by
  refine mkSchema_sane ?_ ?_
  · intro d hd
    simp only [List.mem_cons, List.not_mem_nil, or_false] at hd
    rcases hd with rfl | rfl | rfl | rfl <;> rfl
  · intro d hd p hp
    simp only [List.mem_cons, List.not_mem_nil, or_false] at hd
    rcases hd with rfl | rfl | rfl | rfl <;> rcases hp with hp | hp <;>
      simp [totalA, startA, itemsA, resourcesA, mkAttr, Attr.info] at hp

/-- `totalResults`, bound to the schema. -/
def total : Attr := bindAttr totalA (rep totalWord)
/-- `startIndex`, bound to the schema. -/
def start : Attr := bindAttr startA (rep startWord)
/-- `itemsPerPage`, bound to the schema. -/
def items : Attr := bindAttr itemsA (rep itemsWord)
/-- `Resources`, bound to the schema. -/
def resources : Attr := bindAttr resourcesA (rep resourcesWord)

theorem total_mem : total ∈ schema.attrs.top := mkSchema_mem (d := totalA) (by simp)
theorem start_mem : start ∈ schema.attrs.top := mkSchema_mem (d := startA) (by simp)
theorem items_mem : items ∈ schema.attrs.top := mkSchema_mem (d := itemsA) (by simp)
theorem resources_mem : resources ∈ schema.attrs.top := mkSchema_mem (d := resourcesA) (by simp)

theorem total_rep : total.rep = rep totalWord := bindAttr_rep _ _
theorem start_rep : start.rep = rep startWord := bindAttr_rep _ _
theorem items_rep : items.rep = rep itemsWord := bindAttr_rep _ _
theorem resources_rep : resources.rep = rep resourcesWord := bindAttr_rep _ _

end ListA
end Scim
