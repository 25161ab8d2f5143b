import Verif.Spec.Totality
import Verif.Spec.RoundTrip
import Verif.Model.Assets.Messages

/-! Specification vocabulary for totality of list responses (C98): which schemas and which bodies are considered. -/

namespace Scim

mutual
/-- The attribute converts its values by a type of its own, at any depth. -/
def Attr.typed : Attr → Bool
  | .simple i => i.type != .unknown && i.type != .complex
  | .complex _ subs _ _ => typedAll subs
/-- all attributes are typed -/
def typedAll : List Attr → Bool
  | [] => true
  | a :: r => a.typed && typedAll r
end

variable [PyEnv]

/-- A schema of the resources in a list: declarations as in the library's schemas, and nothing is declared under the URN of
list responses. -/
structure Schema.Listable (s : Schema) : Prop where
  wf : s.WF
  noShadow : s.NoShadow
  owned : s.Owned
  standard : StandardAll .dump s.attrs.top
  typed : typedAll s.attrs.top = true
  metas : s.isResource = true → ∀ a ∈ bindWithSubs s.urn false metaAttr, a ∈ s.attrs.all
  apartUrns : ∀ u ∈ s.schemas, lower u ≠ lower ListA.urn
  apartNames : ∀ a ∈ s.attrs.top, lower a.rep.attr ≠ lower ListA.urn

/-- A body for a list response with resources of the given schemas: an ordinary object; nothing is nested under the URN of
list responses; what stands in a list under `Resources`, however spelled, is a JSON body for every schema.  If there are
several schemas to choose from, the objects have no keys spelled like the URN of list responses or the main URN of one of the
schemas. -/
structure ListBody (schemas : List Schema) (kvs : List (Str × Val)) : Prop where
  ordinary : Ordinary ListA.schema kvs
  noUrn : ∀ k ∈ kvs.map (·.1), lower k ≠ lower ListA.urn
  resources : ∀ k xs, (k, Val.list xs) ∈ kvs → lower k = lower ListA.resourcesWord → ∀ r ∈ xs, ∀ s ∈ schemas, JsonBody s r
  several : schemas.length ≠ 1 → ∀ k xs, (k, Val.list xs) ∈ kvs → lower k = lower ListA.resourcesWord →
    ∀ rk, .dict rk ∈ xs → ∀ key ∈ rk.map (·.1), lower key ≠ lower ListA.urn ∧ ∀ s ∈ schemas, lower key ≠ lower s.urn

/-- What a JSON value is once it is in a container. -/
def asItem : Val → Val
  | .dict kvs => (Val.dict kvs).toCont
  | v => v

end Scim
