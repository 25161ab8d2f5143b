import Verif.Model.Value

/-!
# The configuration of a service provider (src/assets/config.py)

Values are not restricted: the annotations of the dataclasses are not checked when the program runs.  Keyword arguments
come from a dictionary.
-/

namespace Scim.Config

/-- keyword arguments -/
abbrev Kw := List (Str × Val)

/-- `supported` -/
def supportedWord : Str := "supported".toList
/-- `max_operations` -/
def maxOperationsWord : Str := "max_operations".toList
/-- `max_payload_size` -/
def maxPayloadSizeWord : Str := "max_payload_size".toList
/-- `max_results` -/
def maxResultsWord : Str := "max_results".toList

/-- `_GenericOption` (src/assets/config.py:5-7). -/
structure Generic where
  supported : Val
deriving Repr

/-- `_BulkOption` (src/assets/config.py:10-14). -/
structure Bulk where
  supported : Val
  maxOperations : Val
  maxPayloadSize : Val
deriving Repr

/-- `_FilterOption` (src/assets/config.py:24-27). -/
structure Filtering where
  supported : Val
  maxResults : Val
deriving Repr

/-- `_AuthenticationScheme` (src/assets/config.py:34-40). -/
structure Scheme where
  name : Val
  description : Val
  specUri : Val
  documentationUri : Val
  type : Val
deriving Repr

/-- `ServiceProviderConfig` (src/assets/config.py:43-52). -/
structure Provider where
  documentationUri : Val
  patch : Generic
  bulk : Bulk
  filter : Filtering
  changePassword : Generic
  sort : Generic
  etag : Generic
  schemes : List Scheme
deriving Repr

/-- The names of the fields of an authentication scheme, in their order (src/assets/config.py:36-40). -/
def schemeFields : List Str :=
  ["name".toList, "description".toList, "spec_uri".toList, "documentation_uri".toList, "type".toList]

/-- `**value` where a mapping is needed: only dictionaries are mappings. -/
def unpack : Val → PyM Kw
  | .dict kvs => .ok kvs
  | _ => .error .typeError

/-- `**(value or {})` (src/assets/config.py:67-72). -/
def unpackOr (v : Val) : PyM Kw := if v.truthy then unpack v else .ok []

/-- The call of a generated `__init__` refuses keywords that are not names of fields. -/
def onlyFields (fields : List Str) (kw : Kw) : PyM Unit :=
  if kw.all (fun p => decide (p.1 ∈ fields)) then .ok () else .error .typeError

/-- `_GenericOption(**kw)` (src/assets/config.py:5-7). -/
def mkGeneric (kw : Kw) : PyM Generic :=
  match onlyFields [supportedWord] kw with
  | .error e => .error e
  | .ok _ => .ok { supported := (aget supportedWord kw).getD (.bool false) }

/-- `_BulkOption(**kw)` with `__post_init__` (src/assets/config.py:10-21). -/
def mkBulk (kw : Kw) : PyM Bulk :=
  match onlyFields [supportedWord, maxOperationsWord, maxPayloadSizeWord] kw with
  | .error e => .error e
  | .ok _ =>
    let b : Bulk :=
      { supported := (aget supportedWord kw).getD (.bool false)
        maxOperations := (aget maxOperationsWord kw).getD .null
        maxPayloadSize := (aget maxPayloadSizeWord kw).getD .null }
    if b.supported.truthy && !([b.maxPayloadSize, b.maxOperations].all Val.truthy) then .error .valueError else .ok b

/-- `_FilterOption(**kw)` with `__post_init__` (src/assets/config.py:24-31). -/
def mkFiltering (kw : Kw) : PyM Filtering :=
  match onlyFields [supportedWord, maxResultsWord] kw with
  | .error e => .error e
  | .ok _ =>
    let f : Filtering :=
      { supported := (aget supportedWord kw).getD (.bool false)
        maxResults := (aget maxResultsWord kw).getD .null }
    if f.supported.truthy && !f.maxResults.truthy then .error .valueError else .ok f

/-- `_AuthenticationScheme(**item)` (src/assets/config.py:34-40): no field has a default. -/
def mkScheme (item : Val) : PyM Scheme :=
  match unpack item with
  | .error e => .error e
  | .ok kw => match onlyFields schemeFields kw with
    | .error e => .error e
    | .ok _ =>
      match aget "name".toList kw, aget "description".toList kw, aget "spec_uri".toList kw,
          aget "documentation_uri".toList kw, aget "type".toList kw with
      | some n, some d, some s, some u, some t =>
        .ok { name := n, description := d, specUri := s, documentationUri := u, type := t }
      | _, _, _, _, _ => .error .typeError

/-- The list comprehension over the schemes (src/assets/config.py:74). -/
def mkSchemes : List Val → PyM (List Scheme)
  | [] => .ok []
  | v :: vs => match mkScheme v with
    | .error e => .error e
    | .ok s => match mkSchemes vs with
      | .error e => .error e
      | .ok ss => .ok (s :: ss)

/-- The arguments of `create_service_provider_config` (src/assets/config.py:55-64) with their defaults. -/
structure Args where
  documentationUri : Val := .str []
  patch : Val := .null
  bulk : Val := .null
  filter : Val := .null
  changePassword : Val := .null
  sort : Val := .null
  etag : Val := .null
  schemes : Val := .null

/-- The items of `authentication_schemes or []` (src/assets/config.py:74).  A truthy value other than a list has no items
that can be unpacked (the characters of a text, the keys of a dictionary) or cannot be iterated over: `TypeError` in each
case. -/
def schemeItems (v : Val) : PyM (List Val) :=
  if v.truthy then match v with
    | .list xs => .ok xs
    | _ => .error .typeError
  else .ok []

/-- `create_service_provider_config` (src/assets/config.py:55-76); the options are made in this order. -/
def create (a : Args) : PyM Provider :=
  match (unpackOr a.patch).bind mkGeneric with
  | .error e => .error e
  | .ok patch => match (unpackOr a.bulk).bind mkBulk with
    | .error e => .error e
    | .ok bulk => match (unpackOr a.filter).bind mkFiltering with
      | .error e => .error e
      | .ok filter => match (unpackOr a.changePassword).bind mkGeneric with
        | .error e => .error e
        | .ok changePassword => match (unpackOr a.sort).bind mkGeneric with
          | .error e => .error e
          | .ok sort => match (unpackOr a.etag).bind mkGeneric with
            | .error e => .error e
            | .ok etag => match (schemeItems a.schemes).bind mkSchemes with
              | .error e => .error e
              | .ok schemes =>
                .ok { documentationUri := a.documentationUri, patch, bulk, filter, changePassword, sort, etag, schemes }

/-- `config.bulk.max_operations` as the bulk validator compares with it (src/request_validators.py:1022).  Simplified:
a float, with which Python also compares, counts as `None` here. -/
def Provider.maxOps (c : Provider) : Option Int :=
  match c.bulk.maxOperations with
  | .prim (.int n) => some n
  | .prim (.bool b) => some (if b then 1 else 0)
  | _ => none

end Scim.Config
