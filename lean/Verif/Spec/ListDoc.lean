import Verif.Spec.Valid
import Verif.Spec.ListTotality
import Verif.Spec.FilterTypes

/-!
# Valid list responses

The words of C115: when a JSON document is the body of a list response, said about the document itself.
-/

namespace Scim.Valid
variable [PyEnv]
open Declared

/-- What a list response holds for a declared name. -/
def listHolds (D : List (Str × Val)) (n : String) : Option Val := look { schema := ListA.urn, attr := n.toList } D

/-- A whole number as it may be written: an integer, a float without fraction, or a truth value, which counts as 1 or 0. -/
inductive Whole : Val → Int → Prop
  | int (i : Int) : Whole (.int i) i
  | bool (b : Bool) : Whole (.bool b) (if b then 1 else 0)
  | flt (q : Rat) : q.den = 1 → Whole (.prim (.flt (.fin q))) q.num

/-- The schema knows all of the URNs; letter case does not matter. -/
def Knows (s : Schema) (strs : List Str) : Prop := ∀ t ∈ strs, ∃ u ∈ s.schemas, lower t = lower u

/-- The schema an object in a list is taken for: the only one there is, or else the first one that knows all the URNs the
object lists. -/
inductive TakenFor (schemas : List Schema) (R : List (Str × Val)) (s : Schema) : Prop
  | only : schemas = [s] → TakenFor schemas R s
  | first {strs : List Str} {before after : List Schema} : schemas.length ≠ 1 →
      found "schemas".toList R = some (.list (strs.map Val.str)) → strs ≠ [] → schemas = before ++ s :: after → Knows s strs →
      (∀ s' ∈ before, ¬ Knows s' strs) → TakenFor schemas R s

/-- The document is the body of a list response with the resources, as an answer to a request for resources from the position
`start` and at most `count` of them.
* It lists the schema of list responses and no other.
* The resources stand in a list; if there is none, there are no resources.
* There are no more resources than the total, and no more than were asked for; if no number was asked for, the total is the
  number of the resources.
* If a positive number was asked for and there are more resources in total, the position of the first one and the number of
  resources are given.
* The position of the first resource, if it is given and not zero, is not after the one asked for.
* The number of resources, if it is given along with a list, is right.
* Every resource is an object that may be sent for a resource of the schema it is taken for. -/
structure ListDoc (schemas : List Schema) (start : Int) (count : Option Int) (c : Checker) (D : List (Str × Val))
    (xs : List Val) : Prop where
  lists : ∃ strs : List Str, strs ≠ [] ∧ listHolds D "schemas" = some (.list (strs.map Val.str)) ∧
    ∀ t ∈ strs, lower t = lower ListA.urn
  resources : (listHolds D "Resources" = none ∧ xs = []) ∨ listHolds D "Resources" = some (.list xs)
  total : ∃ x t, listHolds D "totalResults" = some x ∧ Whole x t ∧ xs.length ≤ t ∧ (count = none → t = xs.length) ∧
    (∀ n, count = some n → 0 < n → xs.length < t →
      (∃ y i, listHolds D "startIndex" = some y ∧ Whole y i) ∧ ∃ y i, listHolds D "itemsPerPage" = some y ∧ Whole y i)
  few : ∀ n, count = some n → xs.length ≤ n
  position : ∀ x, listHolds D "startIndex" = some x → x = .null ∨ ∃ i, Whole x i ∧ (i = 0 ∨ i ≤ start)
  number : ∀ x, listHolds D "itemsPerPage" = some x →
    x = .null ∨ ∃ i, Whole x i ∧ (listHolds D "Resources" ≠ none → i = xs.length)
  each : ∀ x ∈ xs, ∃ R s, x = .dict R ∧ TakenFor schemas R s ∧ Sendable s c R

/-- Every value is written without issues, as a resource of the schema at the given position. -/
def WrittenEach (schemas : List Schema) (xs ys : List Val) (ids : List (Option Nat)) : Prop :=
  ∀ (k : Nat) x t, xs[k]? = some x → ids[k]? = some t →
    ∃ n s y, t = some n ∧ schemas[n]? = some s ∧ s.dump x = .ok (y, {}) ∧ ys[k]? = some y

/-- The resources `xs` are written as `ys`, each by the schema at the position the library finds for it. -/
structure Written (schemas : List Schema) (xs ys : List Val) (ids : List (Option Nat)) : Prop where
  chosen : ListA.schemasFor schemas (xs.map asItem) = .ok ids
  len : ys.length = xs.length
  each : WrittenEach schemas xs ys ids

/-- The resource, as it is written by the schema it is taken for, passes the filter. -/
def Passes (schemas : List Schema) (o : Op) (x : Val) : Prop :=
  ∃ R s y, x = .dict R ∧ TakenFor schemas R s ∧ s.dump x = .ok (y, {}) ∧ Filter.call o y s.attrs.all false = .ok .passed

/-- The dates in the resources of the list, as they are written, are of the kind `P`. -/
def ListDated (P : DateTime → Prop) (schemas : List Schema) (D : List (Str × Val)) : Prop :=
  ∀ xs, listHolds D "Resources" = some (.list xs) → ∀ x ∈ xs, ∀ s ∈ schemas, ∀ y, s.dump x = .ok (y, {}) → Dated P s.attrs.all y

end Scim.Valid
