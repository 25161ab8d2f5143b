import Verif.Model.Validators
import Verif.Spec.Presence

/-! Specification vocabulary for requests and responses. -/

namespace Scim

/-- The attribute names a query parameter gives: none when it is absent, the parts between commas of a text that is not
empty, or the strings of a list. -/
inductive NamesIn : Option Val → List Str → Prop
  | absent : NamesIn none []
  | text {parts : List Str} : parts ≠ [] → (∀ p ∈ parts, ',' ∉ p) → joinWith ',' parts ≠ [] →
      NamesIn (some (.str (joinWith ',' parts))) parts
  | list (names : List Str) : NamesIn (some (.list (names.map Val.str))) names

/-- The parameter for attributes to include (`true`) or to leave out. -/
def namesParam (incl : Bool) : Str := if incl then "attributes".toList else "excludeAttributes".toList

/-- When `attributes` or `excludeAttributes` is given as a list, it is a list of strings. -/
def QueryOk (query : Val) : Prop :=
  ∀ q, query = .dict q → ∀ incl xs, aget (namesParam incl) q = some (.list xs) → ∀ x ∈ xs, ∃ t, x = Val.str t

/-- Headers as they are in HTTP: none, or a dictionary whose `Location` is a scalar. -/
def HeadersOk (headers : Val) : Prop :=
  headers.truthy = true →
    ∃ kvs, headers = .dict kvs ∧ ∀ v, aget "Location".toList kvs = some v → ∃ p, v = .prim p

/-- A parameter that is not given, or given as `None`. -/
def NotGiven (v : Option Val) : Prop := v = none ∨ v = some .null

variable [PyEnv]

/-- What becomes of a number in a query string. -/
def NumberRead (given read : Option Val) : Prop :=
  (NotGiven given ∧ read = given) ∨ ∃ x i, given = some x ∧ x.pyInt = .ok i ∧ read = some (.int i)

/-- What becomes of a filter in a query string; `Invalid` stands for no filter. -/
def FilterRead (given read : Option Val) : Prop :=
  (NotGiven given ∧ read = some .invalid) ∨
    ∃ s o is, given = some (.str s) ∧ Filter.parse s = .ok (some o, is) ∧ read = some (.obj (.filter o))

/-- What becomes of `sortBy` and `sortOrder`; `Invalid` stands for no sorter. -/
def SorterRead (by_ order read : Option Val) : Prop :=
  (NotGiven by_ ∧ read = some .invalid) ∨
    ∃ s r asc, by_ = some (.str s) ∧ AttrRep.parse s = some r ∧
      (asc = true ↔ order = none ∨ order = some (.str "ascending".toList)) ∧
      read = some (.obj (.sorter { rep := r, asc }))

/-- An integer of the wire format: Python's `bool` is an `int`. -/
inductive Val.IsInt : Val → Int → Prop
  | int (t : Int) : Val.IsInt (.prim (.int t)) t
  | bool (b : Bool) : Val.IsInt (.prim (.bool b)) (if b then 1 else 0)

end Scim
