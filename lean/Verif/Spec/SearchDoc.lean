import Verif.Spec.ListDoc

/-!
# Valid searches

The words of C116: when a document is the body of a search, and when a query string is one for a list of resources.
-/

namespace Scim.Valid
variable [PyEnv]
open Declared

/-- What a search holds for a declared name. -/
def searchHolds (D : List (Str × Val)) (n : String) : Option Val := look { schema := SearchA.urn, attr := n.toList } D

/-- The text is the name of an attribute, properly written. -/
def IsName (t : Str) : Prop := ∃ r : AttrRep, r.Proper ∧ t = r.toStr

/-- The text is read as a filter. -/
def IsFilter (t : Str) : Prop := ∃ o, Filter.parse t = .ok (some o, {})

/-- The document is the body of a search.  All of its parts may be absent or `null`.
* The schemas listed, if any, are the schema of searches.
* The attributes to be included, and those to be left out, are lists of names; one of the lists is empty.
* The filter is a text that is read as a filter.
* The attribute to sort by is a name; the order is any text.
* The position of the first resource and the number of resources are whole numbers; they may be negative. -/
structure SearchDoc (D : List (Str × Val)) : Prop where
  schemas : ∀ x, searchHolds D "schemas" = some x →
    x = .null ∨ ∃ strs : List Str, x = .list (strs.map Val.str) ∧ ∀ t ∈ strs, lower t = lower SearchA.urn
  names : ∀ n ∈ ["attributes", "excludeAttributes"], ∀ x, searchHolds D n = some x →
    x = .null ∨ ∃ ts : List Str, x = .list (ts.map Val.str) ∧ ∀ t ∈ ts, IsName t
  together : ∀ xs ys, searchHolds D "attributes" = some (.list xs) → searchHolds D "excludeAttributes" = some (.list ys) →
    xs = [] ∨ ys = []
  filter : ∀ x, searchHolds D "filter" = some x → x = .null ∨ ∃ t, x = .str t ∧ IsFilter t
  sortBy : ∀ x, searchHolds D "sortBy" = some x → x = .null ∨ ∃ t, x = .str t ∧ IsName t
  sortOrder : ∀ x, searchHolds D "sortOrder" = some x → x = .null ∨ ∃ t, x = .str t
  numbers : ∀ n ∈ ["startIndex", "count"], ∀ x, searchHolds D n = some x → x = .null ∨ ∃ i, Whole x i

/-- The query string asks for a list of resources.  All of its parts may be absent or `null`.
* The filter is a text that is read as a filter.
* The attribute to sort by is a name.
* The names of the attributes to be included and to be left out are fine, as in the query strings of other requests.
* The number of resources and the position of the first one are taken by Python's `int`: texts with the digits of a number,
  whole numbers, booleans, and finite floats. -/
structure ListQuery (q : List (Str × Val)) : Prop where
  filter : ∀ x, aget "filter".toList q = some x → x = .null ∨ ∃ t, x = .str t ∧ IsFilter t
  sortBy : ∀ x, aget "sortBy".toList q = some x → x = .null ∨ ∃ t, x = .str t ∧ IsName t
  names : QueryFine (.dict q)
  numbers : ∀ n ∈ ["count", "startIndex"], ∀ x, aget n.toList q = some x → x = .null ∨ ∃ i, x.pyInt = .ok i

end Scim.Valid
