import Verif.Spec.BulkTotality
import Verif.Spec.RoundTrip

/-! Specification vocabulary for totality of bulk responses (C105): which operations make the dumper raise. -/

namespace Scim
variable [PyEnv]

/-- What the resources of a server need: well-formed schemas whose attributes are processed as usual, that declare `meta`
as usual and whose extensions do not take names of the core schema. -/
structure ServedSchema (s : Schema) : Prop where
  wf : s.WF
  noShadow : s.NoShadow
  owned : s.Owned
  sane : SaneAll s.attrs.top
  standard : StandardAll .dump s.attrs.top
  hasMeta : ∀ a ∈ bindWithSubs s.urn false metaAttr, a ∈ s.attrs.all

/-- The operation has a method: one of the five, in any letter case. -/
def Considered (x : Val) (method : Str) : Prop :=
  x.getItem { attr := "method".toList } = .ok (.str method) ∧
    lower method ∈ ["get".toList, "post".toList, "patch".toList, "put".toList, "delete".toList]

/-- The operation has a location, and it is a URL. -/
def PlacedAt (x : Val) (location : Str) : Prop :=
  x.getItem { attr := "location".toList } = .ok (.str location) ∧ urlOk location = true

/-- The operation has a status that is a number, and a response. -/
def Reported (x : Val) (n : Int) (r : Val) : Prop :=
  ∃ status, x.getItem { attr := "status".toList } = .ok (.str status) ∧ parseInt status = some n ∧
    x.getItem { attr := "response".toList } = .ok r ∧ r.truthy = true

/-- The schema of the resources at a location: the first one whose name is a part of the path, otherwise the last one. -/
def AnsweredBy (vs : List (Str × Schema)) (location : Str) (s : Schema) : Prop :=
  (∃ name, LeadsTo vs location name s) ∨
    ((∀ q ∈ vs, ¬ Contains ('/' :: q.1 ++ ['/']) location) ∧ ∃ before name, vs = before ++ [(name, s)])

/-- The operation `x` makes the dumper raise. -/
inductive OutcomeRaises (vs : List (Str × Schema)) (x : Val) : Prop
  /-- it has a location, but its method is not one of the five in these very letters -/
  | method {m t : Str} : Considered x m → PlacedAt x t → m ∉ bulkMethods → OutcomeRaises vs x
  /-- it failed, and its response makes the dumper of error responses raise -/
  | failed {m : Str} {n : Int} {r : Val} : Considered x m → Reported x n r → n ≥ 300 →
      (∃ e, V.dumpError n r .null = .error e) → OutcomeRaises vs x
  /-- it deleted a resource, but has a response -/
  | deleted {t : Str} {n : Int} {r : Val} : Considered x "DELETE".toList → PlacedAt x t → vs ≠ [] → Reported x n r →
      n < 300 → OutcomeRaises vs x
  /-- it succeeded, and its response makes the dumper of single responses raise -/
  | done {m t : Str} {n : Int} {r : Val} {s : Schema} : Considered x m → m ∈ bulkMethods → m ≠ "DELETE".toList →
      PlacedAt x t → AnsweredBy vs t s → Reported x n r → n < 300 → (∃ e, singleResponse m s n r t = .error e) →
      OutcomeRaises vs x

/-- An outcome written as it should be: a known method, no response to a deletion, an ordinary error as response to what
failed, and an ordinary resource of the right kind as response to what succeeded. -/
structure SoundOutcome (vs : List (Str × Schema)) (x : Val) : Prop where
  method : ∃ m ∈ bulkMethods, x.getItem { attr := "method".toList } = .ok (.str m)
  deleted : x.getItem { attr := "method".toList } = .ok (.str "DELETE".toList) → ∀ n r, Reported x n r → n ≥ 300
  failed : ∀ n r, Reported x n r → n ≥ 300 → ∃ kvs, r = (Val.dict kvs).toCont ∧ JsonBody ErrorA.schema (.dict kvs)
  done : ∀ n r t s, Reported x n r → n < 300 → PlacedAt x t → AnsweredBy vs t s →
    ∃ kvs, r = (Val.dict kvs).toCont ∧ JsonBody s (.dict kvs)

end Scim
