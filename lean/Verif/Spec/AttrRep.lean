import Verif.Model.AttrRep
import Verif.Spec.Regex

/-! Specification of attribute names. -/

namespace Scim
variable [PyEnv]

/-- A non-empty run of word characters. -/
def WordRun (s : Str) : Prop := s ≠ [] ∧ ∀ c ∈ s, isWord c = true

/-- A URN: non-empty runs of word characters, `.` and `-`, separated by `:`. -/
def IsUrn (s : Str) : Prop :=
  ∃ segs : List Str, segs ≠ [] ∧
    (∀ x ∈ segs, x ≠ [] ∧ ∀ c ∈ x, isWord c = true ∨ c = '.' ∨ c = '-') ∧
    s = joinWith ':' segs

/-- The attribute names a user can write down. -/
structure AttrRep.Proper (r : AttrRep) : Prop where
  attr : WordRun r.attr ∨ r.attr = "$ref".toList
  sub : r.sub = [] ∨ WordRun r.sub
  schema : r.schema = [] ∨ IsUrn r.schema
  ext : r.ext = false

end Scim
