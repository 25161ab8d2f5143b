import Verif.Model.Bulk
import Verif.Spec.Validators
import Verif.Spec.Schemas

/-! Specification vocabulary for bulk operations. -/

namespace Scim
variable [PyEnv]

/-- `BulkTarget method path name`: the path is a possible one for the method and leads to the resources called `name`.
New resources are posted to `/name`; the other methods act on one resource, `/name/…`. -/
inductive BulkTarget : Str → Str → Str → Prop
  | collection {name : Str} : isWordRun name = true → BulkTarget "POST".toList ('/' :: name) name
  | member {method name rest : Str} :
      method ∈ ["GET".toList, "PUT".toList, "PATCH".toList, "DELETE".toList] → isWordRun name = true → '\n' ∉ rest →
      BulkTarget method ('/' :: name ++ '/' :: rest) name

/-- A single request with the method and this body, about resources of the schema. -/
def singleRequest (method : Str) (s : Schema) (body : Val) : PyM (Request × Issues) :=
  if method = "POST".toList then V.parsePost s body .null .null
  else if method = "PUT".toList then V.parsePut s body .null .null
  else V.parsePatch s body .null .null

/-- The parts of an operation that are kept. -/
def keptParts : List Str := ["method".toList, "bulkId".toList, "version".toList, "path".toList]

/-- Whether the operation of a bulk response stands for a failed one: it has one of the five methods (in any letter
case), a status of 300 or more and a response that is not empty. -/
def failedOperation (x : Val) : Bool :=
  match x.getItem { attr := "method".toList }, x.getItem { attr := "status".toList }, x.getItem { attr := "response".toList } with
  | .ok (.prim (.str method)), .ok (.prim (.str status)), .ok response =>
    ["get".toList, "post".toList, "patch".toList, "put".toList, "delete".toList].contains (lower method) &&
      status != [] && (match parseInt status with | some n => decide (n ≥ 300) | none => false) && response.truthy
  | _, _, _ => false

/-- What the resources of a server need: well-formed schemas that declare `meta` as usual. -/
structure ResourceSchema (s : Schema) : Prop where
  wf : s.WF
  sane : SaneAll s.attrs.top
  hasMeta : ∀ a ∈ bindWithSubs s.urn false metaAttr, a ∈ s.attrs.all

/-- The first of the registered names that the location contains as a part of the path. -/
def LeadsTo (vs : List (Str × Schema)) (location : Str) (name : Str) (s : Schema) : Prop :=
  ∃ before after, vs = before ++ (name, s) :: after ∧ Contains ('/' :: name ++ ['/']) location ∧
    ∀ q ∈ before, ¬ Contains ('/' :: q.1 ++ ['/']) location

/-- The response to a single request with the method, about a resource of the schema at this location. -/
def singleResponse (method : Str) (s : Schema) (status : Int) (body : Val) (location : Str) : PyM (Response × Issues) :=
  if method = "POST".toList then V.dumpPost s status body (.dict [("Location".toList, .str location)]) none
  else if method = "PATCH".toList then V.dumpPatch s status body (.dict [("Location".toList, .str location)]) none
  else V.dumpGet s status body (.dict [("Location".toList, .str location)]) none

/-- The status a successful request with the method has. -/
def SuccessStatus (method : Str) (n : Int) : Prop :=
  if method = "POST".toList then n = 201 else n = 200 ∨ (method = "PATCH".toList ∧ n = 204)

/-- The parts of an operation of a response that are kept. -/
def keptOutcomeParts : List Str :=
  ["method".toList, "bulkId".toList, "version".toList, "location".toList, "status".toList]

/-- What is said about an operation `x` of an accepted bulk response that is returned as `o`. -/
structure OutcomeOk (vs : List (Str × Schema)) (x o : Val) (method status : Str) (n : Int) (r : Val) : Prop where
  isMethod : x.getItem { attr := "method".toList } = .ok (.str method)
  known : method ∈ ["GET".toList, "POST".toList, "PUT".toList, "PATCH".toList, "DELETE".toList]
  isStatus : x.getItem { attr := "status".toList } = .ok (.str status)
  number : parseInt status = some n
  isResponse : x.getItem { attr := "response".toList } = .ok r
  /-- new resources are identified -/
  bulkId : method = "POST".toList → ∃ id, x.getItem { attr := "bulkId".toList } = .ok (.str id)
  /-- the resource is named, unless it was not created -/
  location : (∃ t name s, x.getItem { attr := "location".toList } = .ok (.str t) ∧ LeadsTo vs t name s) ∨
    (method = "POST".toList ∧ n ≥ 300 ∧ ∃ l, x.getItem { attr := "location".toList } = .ok l ∧ l.isNoneOrMissing = true)
  /-- a failure is explained by an error that fits the status -/
  failure : n ≥ 300 → r.isNoneOrMissing = false ∧ (r.truthy = true → ∃ e is, V.dumpError n r .null = .ok (e, is) ∧
    is.hasIssues = false ∧ o.getItem { attr := "response".toList } = .ok e.body)
  /-- a success carries what the single request would have been answered with -/
  success : n < 300 → r.truthy = true → ∃ t name s e is, x.getItem { attr := "location".toList } = .ok (.str t) ∧
    LeadsTo vs t name s ∧ method ≠ "DELETE".toList ∧ singleResponse method s n r t = .ok (e, is) ∧
    (∀ l, l ≠ [.name "status".toList] → is.errorsAt l = []) ∧
    (SuccessStatus method n → is.hasIssues = false) ∧
    o.getItem { attr := "response".toList } = .ok (if e.body.isNone then .null else e.body.toCont) ∧
    (e.body.isNone = false → ∀ v w, x.getItem { attr := "version".toList } = .ok (.str v) → v ≠ [] →
      e.body.toCont.getName "meta.version".toList = .ok (.str w) → w ≠ [] → v = w)
  /-- an empty response is returned as it is -/
  empty : r.truthy = false → o.getItem { attr := "response".toList } = .ok r
  kept : ∀ w ∈ keptOutcomeParts, o.getItem { attr := w } = x.getItem { attr := w }

end Scim
