import Verif.Spec.Bulk
import Verif.Spec.Totality

/-! Specification vocabulary for totality of bulk requests (C104): which operations make the parser raise. -/

namespace Scim
variable [PyEnv]

/-- The methods a bulk request can use. -/
def bulkMethods : List Str := ["GET".toList, "POST".toList, "PUT".toList, "PATCH".toList, "DELETE".toList]

/-- The methods that come with data. -/
def dataMethods : List Str := ["POST".toList, "PUT".toList, "PATCH".toList]

/-- An object whose method (one of the five, in any letter case), `bulkId`, version and path are text or not given. -/
structure TypedOperation (x : Val) : Prop where
  object : x.isCont = true
  texts : ∀ w ∈ keptParts, ∀ v, x.getItem { attr := w } = .ok v → v.isNoneOrMissing = true ∨ ∃ t, v = .str t
  method : ∀ m, x.getItem { attr := "method".toList } = .ok (.str m) →
    lower m ∈ ["get".toList, "post".toList, "patch".toList, "put".toList, "delete".toList]

/-- The name of the resources a path leads to: for `POST` everything after the first slash, otherwise what stands between
the first and the second one. -/
def Addressed (method path name : Str) : Prop :=
  ∃ before rest, path = before ++ '/' :: rest ∧ '/' ∉ before ∧
    name = if method = "POST".toList then rest else rest.takeWhile (· ≠ '/')

/-- The operation `x` of the list `xs` has a path that gets as far as being followed.  When all operations of the list are
well-typed, paths that do not fit the method, and data that is missing, are noticed before. -/
structure Examined (xs : List Val) (x : Val) (path : Str) : Prop where
  object : x.isCont = true
  reads : x.getItem { attr := "path".toList } = .ok (.str path)
  given : path ≠ []
  fits : (∀ y ∈ xs, TypedOperation y) → ∀ m, x.getItem { attr := "method".toList } = .ok (.str m) → m ∈ bulkMethods →
    (∃ name, BulkTarget m path name) ∧
    (m ∈ dataMethods → ∃ d, x.getItem { attr := "data".toList } = .ok d ∧ d.isNoneOrMissing = false)

/-- The operation `x` of the list `xs` makes the parser raise. -/
inductive BulkRaises (vs : List (Str × Schema)) (xs : List Val) (x : Val) : Prop
  /-- its method is not one of the five (in these very letters) -/
  | method {path : Str} {v : Val} : Examined xs x path → x.getItem { attr := "method".toList } = .ok v →
      (∀ m ∈ bulkMethods, v ≠ .str m) → BulkRaises vs xs x
  /-- its path has no slash -/
  | path {path m : Str} : Examined xs x path → x.getItem { attr := "method".toList } = .ok (.str m) → m ∈ bulkMethods →
      m ≠ "DELETE".toList → '/' ∉ path → BulkRaises vs xs x
  /-- its data makes the parser of single requests raise -/
  | request {path m name : Str} {s : Schema} {d : Val} : Examined xs x path →
      x.getItem { attr := "method".toList } = .ok (.str m) → m ∈ dataMethods → Addressed m path name →
      aget name vs = some s → x.getItem { attr := "data".toList } = .ok d → (∃ e, singleRequest m s d = .error e) →
      BulkRaises vs xs x

/-- An operation that is written as it should be: one of the five methods, a path with a slash, and, when the path leads
to a known kind of resources, data that a single request can be made with. -/
structure SoundOperation (vs : List (Str × Schema)) (x : Val) : Prop where
  method : ∃ m, m ∈ bulkMethods ∧ x.getItem { attr := "method".toList } = .ok (.str m)
  path : ∃ t, '/' ∈ t ∧ x.getItem { attr := "path".toList } = .ok (.str t)
  data : ∀ m t name s d, x.getItem { attr := "method".toList } = .ok (.str m) → m ∈ dataMethods →
    x.getItem { attr := "path".toList } = .ok (.str t) → Addressed m t name → aget name vs = some s →
    x.getItem { attr := "data".toList } = .ok d → ∃ req is, singleRequest m s d = .ok (req, is)

end Scim
