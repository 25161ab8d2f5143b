import Verif.Model.Schemas

/-!
# Representations of attributes and schemas

`Attribute.to_dict`, `ComplexAttribute.to_dict` (src/data/attributes.py:264-280, 389-392), `get_schema_rep` and
`SchemaExtension.to_dict` (src/data/schemas.py:421-431, 463-469).
-/

namespace Scim

/-- `cls.SCIM_NAME` (src/data/type.py:63-233); `Unknown` has none. -/
def AttrType.scimName : AttrType → PyM Str
  | .unknown => .error .attributeError
  | .boolean => .ok "boolean".toList
  | .decimal => .ok "decimal".toList
  | .integer => .ok "integer".toList
  | .string => .ok "string".toList
  | .binary => .ok "binary".toList
  | .extRef | .uriRef | .scimRef => .ok "reference".toList
  | .dateTime => .ok "dateTime".toList
  | .complex => .ok "complex".toList

/-- `self.mutability.value` (src/data/attributes.py:30-34). -/
def Mutability.value : Mutability → Str
  | .readWrite => "readWrite".toList
  | .readOnly => "readOnly".toList
  | .writeOnly => "writeOnly".toList
  | .immutable => "immutable".toList

/-- `self.returned.value` (src/data/attributes.py:37-41). -/
def Returned.value : Returned → Str
  | .default => "default".toList
  | .always => "always".toList
  | .never => "never".toList
  | .request => "request".toList

/-- `self.uniqueness.value` (src/data/attributes.py:44-47). -/
def Uniqueness.value : Uniqueness → Str
  | .none => "none".toList
  | .server => "server".toList
  | .global => "global".toList

/-- The entry for the canonical values, when there are any (src/data/attributes.py:276-277). -/
def canonicalEntry (cs : Option (List Prim)) : List (Str × Val) :=
  match cs with
  | none | some [] => []
  | some (c :: r) => [("canonicalValues".toList, .list ((c :: r).map .prim))]

/-- The entry for the reference types, when there are any (src/data/attributes.py:278-279). -/
def refTypesEntry (rs : List Str) : List (Str × Val) :=
  match rs with
  | [] => []
  | r :: rest => [("referenceTypes".toList, .list ((r :: rest).map .str))]

/-- `Attribute.to_dict` (src/data/attributes.py:264-280), as the items of the dictionary. -/
def AttrInfo.toEntries (i : AttrInfo) : PyM (List (Str × Val)) :=
  match i.type.scimName with
  | .error e => .error e
  | .ok t => .ok
    ([("name".toList, .str i.rep.attr), ("type".toList, .str t), ("multiValued".toList, .bool i.multi),
      ("description".toList, .str i.description), ("required".toList, .bool i.required),
      ("caseExact".toList, .bool i.caseExact), ("mutability".toList, .str i.mutability.value),
      ("returned".toList, .str i.returned.value), ("uniqueness".toList, .str i.uniqueness.value)]
     ++ canonicalEntry i.canonical ++ refTypesEntry i.refTypes)

mutual
/-- `Attribute.to_dict` and `ComplexAttribute.to_dict` (src/data/attributes.py:264-280, 389-392). -/
def Attr.toDict : Attr → PyM Val
  | .simple i =>
    match i.toEntries with
    | .error e => .error e
    | .ok es => .ok (.dict es)
  | .complex i subs _ _ =>
    match i.toEntries with
    | .error e => .error e
    | .ok es =>
      match attrDicts subs with
      | .error e => .error e
      | .ok ds => .ok (.dict (es ++ [("subAttributes".toList, .list ds)]))
/-- `[attr.to_dict() for attr in attrs]` (src/data/attributes.py:391, src/data/schemas.py:427, 468). -/
def attrDicts : List Attr → PyM (List Val)
  | [] => .ok []
  | a :: r =>
    match a.toDict with
    | .error e => .error e
    | .ok d =>
      match attrDicts r with
      | .error e => .error e
      | .ok ds => .ok (d :: ds)
end

/-- The URN of `Schema` (src/data/schemas.py:424, src/assets/schemas/schema.py:199). -/
def schemaUrn : Str := "urn:ietf:params:scim:schemas:core:2.0:Schema".toList

/-- `get_schema_rep` (src/data/schemas.py:421-431). -/
def getSchemaRep (s : Schema) : PyM Val :=
  match attrDicts s.attrs.top with
  | .error e => .error e
  | .ok ds => .ok (.dict
      [("id".toList, .str s.urn), ("schemas".toList, .list [.str schemaUrn]), ("name".toList, .str s.name),
       ("description".toList, .str s.description), ("attributes".toList, .list ds),
       ("meta".toList, .dict [("resourceType".toList, .str "Schema".toList)])])

/-- `SchemaExtension.to_dict` (src/data/schemas.py:463-469). -/
def Extension.toDict (e : Extension) : PyM Val :=
  match attrDicts e.attrs.all with
  | .error e => .error e
  | .ok ds => .ok (.dict
      [("id".toList, .str e.urn), ("name".toList, .str e.name), ("description".toList, .str e.description),
       ("attributes".toList, .list ds)])

end Scim
