import Verif.Model.Presence
import Verif.Spec.Schemas

/-! Specification vocabulary for presence checks. -/

namespace Scim
variable [PyEnv]

/-- The values a presence check looks at: value `v` of the declared attribute `a`, found in `data` at location
`loc`. -/
inductive Observed (attrs : Attributes) (data : Val) (a : Attr) : Loc → Val → Prop
  /-- a top-level attribute -/
  | top {v} : a.rep.sub = [] → data.getItem a.rep = .ok v → v.isInvalid = false →
      Observed attrs data a [.name a.rep.attr] v
  /-- a sub-attribute of a single-valued attribute -/
  | sub {t v} : a.rep.sub ≠ [] → attrs.get { schema := a.rep.schema, attr := a.rep.attr } = some t →
      t.info.multi = false → data.getItem a.rep = .ok v → v.isInvalid = false →
      Observed attrs data a [.name a.rep.attr, .name a.rep.sub] v
  /-- a sub-attribute of a multi-valued attribute that is `null` -/
  | null {t} : a.rep.sub ≠ [] → attrs.get { schema := a.rep.schema, attr := a.rep.attr } = some t →
      t.info.multi = true → data.getItem { schema := a.rep.schema, attr := a.rep.attr } = .ok .null →
      Observed attrs data a [.name a.rep.attr, .name a.rep.sub] .null
  /-- a sub-attribute of the item number `i` of a multi-valued attribute -/
  | item {t v xs} {i : Nat} {x : Val} : a.rep.sub ≠ [] →
      attrs.get { schema := a.rep.schema, attr := a.rep.attr } = some t → t.info.multi = true →
      data.getItem { schema := a.rep.schema, attr := a.rep.attr } = .ok (.list xs) → xs[i]? = some x →
      x.getItem { attr := a.rep.sub } = .ok v → v.isInvalid = false →
      Observed attrs data a [.name a.rep.attr, .idx i, .name a.rep.sub] v

/-- `None`, `""`, `[]` or absent. -/
def Val.Empty (v : Val) : Prop := v = .null ∨ v = .str [] ∨ v = .list [] ∨ v = .missing

/-- Two names of the same attribute: names equal up to letter case, and the schemas too when both have one. -/
def AttrRep.SameAs (x r : AttrRep) : Prop :=
  (x.schema ≠ [] → r.schema ≠ [] → lower x.schema = lower r.schema) ∧
    lower x.attr = lower r.attr ∧ lower x.sub = lower r.sub

/-- Two names with the same top-level attribute: equal up to letter case, together with the schemas when both
have one. -/
def AttrRep.SameTop (x r : AttrRep) : Prop :=
  if x.schema ≠ [] ∧ r.schema ≠ [] then
    lower (x.schema ++ ':' :: x.attr) = lower (r.schema ++ ':' :: r.attr)
  else lower x.attr = lower r.attr

/-- The attribute is in the list. -/
def Listed (r : AttrRep) (l : List AttrRep) : Prop := ∃ x ∈ l, x.SameAs r

/-- For a sub-attribute: its parent is in the list.  For a top-level attribute: the attribute itself or some
sub-attribute of it is in the list. -/
def RelativeListed (r : AttrRep) (l : List AttrRep) : Prop :=
  ∃ x ∈ l, x.SameTop r ∧ (r.sub = [] ∨ x.sub = [])

end Scim
