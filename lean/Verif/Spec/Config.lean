import Verif.Model.Config

/-!
# What a configuration may be made from (C101)
-/

namespace Scim.Config

/-- the setting `name` of an option, or its default; an option that is left out, `None` or empty has no settings -/
def setting (option : Val) (name : String) (default : Val) : Val :=
  match option with
  | .dict kvs => (aget name.toList kvs).getD default
  | _ => default

/-- an option is left out (or `None`, or empty), or is a dictionary with known settings only -/
def KnownSettings (names : List String) (option : Val) : Prop :=
  option.truthy = false ∨ ∃ kvs, option = .dict kvs ∧ ∀ k v, (k, v) ∈ kvs → ∃ n ∈ names, k = n.toList

/-- one authentication scheme: a dictionary with the five fields and nothing else -/
def IsScheme (item : Val) (s : Scheme) : Prop :=
  ∃ kvs, item = .dict kvs ∧
    (∀ k v, (k, v) ∈ kvs → ∃ n ∈ ["name", "description", "spec_uri", "documentation_uri", "type"], k = String.toList n) ∧
    aget "name".toList kvs = some s.name ∧ aget "description".toList kvs = some s.description ∧
    aget "spec_uri".toList kvs = some s.specUri ∧ aget "documentation_uri".toList kvs = some s.documentationUri ∧
    aget "type".toList kvs = some s.type

/-- the authentication schemes: none, or a list of them in their order -/
def AreSchemes (v : Val) (ss : List Scheme) : Prop :=
  (v.truthy = false ∧ ss = []) ∨
    ∃ items, v = .list items ∧ items ≠ [] ∧ items.length = ss.length ∧
      ∀ (i : Nat) item s, items[i]? = some item → ss[i]? = some s → IsScheme item s

/-- no option has an unknown setting, and the authentication schemes are `ss` -/
structure WellFormed (a : Args) (ss : List Scheme) : Prop where
  patch : KnownSettings ["supported"] a.patch
  bulk : KnownSettings ["supported", "max_operations", "max_payload_size"] a.bulk
  filter : KnownSettings ["supported", "max_results"] a.filter
  changePassword : KnownSettings ["supported"] a.changePassword
  sort : KnownSettings ["supported"] a.sort
  etag : KnownSettings ["supported"] a.etag
  schemes : AreSchemes a.schemes ss

/-- bulk operations are supported but one of the limits is missing or zero -/
def BulkUnlimited (a : Args) : Prop :=
  (setting a.bulk "supported" (.bool false)).truthy = true ∧
    ((setting a.bulk "max_operations" .null).truthy = false ∨ (setting a.bulk "max_payload_size" .null).truthy = false)

/-- filtering is supported but the limit is missing or zero -/
def FilterUnlimited (a : Args) : Prop :=
  (setting a.filter "supported" (.bool false)).truthy = true ∧ (setting a.filter "max_results" .null).truthy = false

/-- the configuration with the given settings, and `False` and `None` for the others -/
def configured (a : Args) (ss : List Scheme) : Provider where
  documentationUri := a.documentationUri
  patch := { supported := setting a.patch "supported" (.bool false) }
  bulk :=
    { supported := setting a.bulk "supported" (.bool false)
      maxOperations := setting a.bulk "max_operations" .null
      maxPayloadSize := setting a.bulk "max_payload_size" .null }
  filter :=
    { supported := setting a.filter "supported" (.bool false)
      maxResults := setting a.filter "max_results" .null }
  changePassword := { supported := setting a.changePassword "supported" (.bool false) }
  sort := { supported := setting a.sort "supported" (.bool false) }
  etag := { supported := setting a.etag "supported" (.bool false) }
  schemes := ss

end Scim.Config
