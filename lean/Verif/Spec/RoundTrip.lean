import Verif.Model.Schemas
import Verif.Spec.Schemas

/-! Specification vocabulary for reading what was written and writing what was read. -/

namespace Scim
variable [PyEnv]

/-- The other direction. -/
def Mode.flip : Mode → Mode
  | .parse => .dump
  | .dump => .parse

/-- Dates survive being written and read again: the dates that come from texts (when reading first), or all of
them (when writing first). -/
def DatesSurvive : Mode → Prop
  | .parse => ∀ s d, fromIso s = some d → fromIso (isoFormat d) = some d
  | .dump => ∀ d, fromIso (isoFormat d) = some d

/-- A post-processor that changes no value it has nothing to say about. -/
def OnlyChecks (p : Proc) : Prop := ∀ v r is, p v = .ok (r, is) → is.hasIssues = false → r = v

mutual
/-- Reading and writing check the same: the attribute has the same post-processors for both directions, and they
only check; dates, which are different values inside and outside, have no checks.  Complex attributes have
sub-attributes of this kind, with different names, and no post-processor but the one for `primary`. -/
def Attr.Symmetric : Attr → Prop
  | .simple i => i.parsers = i.dumpers ∧ (∀ p ∈ i.parsers, OnlyChecks p) ∧
      (i.type = .dateTime → i.parsers = [] ∧ (i.validateCanon = false ∨ i.canonical = none))
  | .complex i subs ps ds => i.type = .complex ∧ i.parsers = [] ∧ i.dumpers = [] ∧ i.validateCanon = false ∧
      ps = ds ∧ (∀ p ∈ ps, p = validateSinglePrimary) ∧ PlainSubs subs ∧ AllSymmetric subs
/-- The same for every attribute of a list. -/
def AllSymmetric : List Attr → Prop
  | [] => True
  | a :: r => a.Symmetric ∧ AllSymmetric r
end

/-- The attributes of extensions are not called like attributes of the schema itself. -/
def Schema.NoShadow (s : Schema) : Prop :=
  ∀ a ∈ s.attrs.top, ∀ b ∈ s.attrs.top, a.rep.ext = false → b.rep.ext = true → lower a.rep.attr ≠ lower b.rep.attr

/-- The name of `meta.resourceType`. -/
def metaTypeRep (urn : Str) : AttrRep := { schema := urn, attr := "meta".toList, sub := "resourceType".toList }

end Scim
