import Verif.Model.Assets.Messages

/-! What an accepted search request says. -/

namespace Scim
variable [PyEnv]

/-- The value of a parameter of a search request. -/
def Val.Says (c : Val) (name : String) (x : Val) : Prop :=
  c.getItem { schema := "urn:ietf:params:scim:api:messages:2.0:SearchRequest".toList, attr := name.toList } = .ok x

/-- Something that was put in by the parser. -/
def Val.Holds (c : Val) (name : String) (x : Val) : Prop := c.getItem { attr := name.toList } = .ok x

/-- The parameter is absent or null. -/
def Val.NotSaid (x : Val) : Prop := x = .missing ∨ x = .null

/-- `x` in the request is the list of names `reps`, which the parser hands on as `y`. -/
def NamesSaid (x y : Val) (reps : List AttrRep) : Prop :=
  (x.NotSaid ∧ y = x ∧ reps = []) ∨
  ∃ names : List Str, x = .list (names.map Val.str) ∧ names.map AttrRep.parse = reps.map some ∧
    y = .list (reps.map (fun r => .obj (.rep r)))

/-- `v` is what an accepted search request `body` is handed on as. -/
structure SearchRead (body v : Val) : Prop where
  /-- the filter is parsed -/
  filter : ∃ x y, body.Says "filter" x ∧ v.Says "filter" y ∧
    ((x.NotSaid ∧ y = x) ∨ ∃ s o, x = .str s ∧ Filter.parse s = .ok (some o, {}) ∧ y = .obj (.filter o))
  /-- numbers are integers -/
  count : ∃ x y, body.Says "count" x ∧ v.Says "count" y ∧ ((x.NotSaid ∧ y = x) ∨ AttrType.integer.parse x = .ok (y, {}))
  start : ∃ x y, body.Says "startIndex" x ∧ v.Says "startIndex" y ∧
    ((x.NotSaid ∧ y = x) ∨ AttrType.integer.parse x = .ok (y, {}))
  /-- the sort order is any text -/
  order : ∃ x, body.Says "sortOrder" x ∧ v.Says "sortOrder" x ∧ (x.NotSaid ∨ ∃ s, x = .str s)
  /-- there is a sorter for the attribute that is named; it is descending -/
  sorter : ∃ x y z, body.Says "sortBy" x ∧ v.Says "sortBy" y ∧ v.Holds "sorter" z ∧
    ((x.NotSaid ∧ y = x ∧ z = .missing) ∨
      ∃ s r, x = .str s ∧ AttrRep.parse s = some r ∧ y = .obj (.rep r) ∧ z = .obj (.sorter { rep := r, asc := false }))
  /-- at most one of the lists of names is given, and there is a presence checker for the names to be included -/
  names : ∃ xi yi xe ye z incl excl, body.Says "attributes" xi ∧ v.Says "attributes" yi ∧ NamesSaid xi yi incl ∧
    body.Says "excludeAttributes" xe ∧ v.Says "excludeAttributes" ye ∧ NamesSaid xe ye excl ∧
    (incl = [] ∨ excl = []) ∧ v.Holds "presence_checker" z ∧
    z = if incl.isEmpty then .missing else .obj (.checker { reps := incl, incl := some true })

end Scim
