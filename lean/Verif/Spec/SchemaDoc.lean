import Verif.Model.Assets.SchemaDef
import Verif.Spec.Container

/-! Specification vocabulary for documents that describe schemas. -/

namespace Scim
variable [PyEnv]

/-- What `v["name"]` reads. -/
def Val.Has (v : Val) (name : Str) (x : Val) : Prop := v.getItem { attr := name } = .ok x

/-- The names of attribute types in documents. -/
def documentTypes : List Str :=
  ["string".toList, "integer".toList, "boolean".toList, "reference".toList, "dateTime".toList, "binary".toList,
   "complex".toList]

/-- The name of a type in documents; `Unknown` has none, and documents have no word for decimals. -/
def AttrType.documentName : AttrType → Option Str
  | .unknown | .decimal => none
  | .boolean => some "boolean".toList
  | .integer => some "integer".toList
  | .string => some "string".toList
  | .binary => some "binary".toList
  | .extRef | .uriRef | .scimRef => some "reference".toList
  | .dateTime => some "dateTime".toList
  | .complex => some "complex".toList

/-- The words documents use for the mutability of attributes. -/
def Mutability.documentName : Mutability → Str
  | .readOnly => "readOnly".toList
  | .readWrite => "readWrite".toList
  | .immutable => "immutable".toList
  | .writeOnly => "writeOnly".toList

/-- The words documents use for when attributes are returned. -/
def Returned.documentName : Returned → Str
  | .always => "always".toList
  | .never => "never".toList
  | .default => "default".toList
  | .request => "request".toList

/-- The words documents use for the uniqueness of values. -/
def Uniqueness.documentName : Uniqueness → Str
  | .none => "none".toList
  | .server => "server".toList
  | .global => "global".toList

mutual
/-- Every attribute, at every depth, has a type documents can name; an attribute with sub-attributes has the
type its constructor gives it. -/
def Attr.Documentable : Attr → Prop
  | .simple i => i.type.documentName.isSome = true
  | .complex i subs _ _ => i.type = .complex ∧ DocumentableAll subs
/-- The same for every attribute of a list. -/
def DocumentableAll : List Attr → Prop
  | [] => True
  | a :: r => a.Documentable ∧ DocumentableAll r
end

mutual
/-- The attribute, or one below it, has no type at all. -/
def Attr.untyped : Attr → Bool
  | .simple i => decide (i.type = .unknown)
  | .complex i subs _ _ => decide (i.type = .unknown) || untypedAny subs
/-- The same for some attribute of a list. -/
def untypedAny : List Attr → Bool
  | [] => false
  | a :: r => a.untyped || untypedAny r
end

mutual
/-- How deep sub-attributes are nested. -/
def Attr.nesting : Attr → Nat
  | .simple _ => 0
  | .complex _ subs _ _ => nestingAll subs + 1
/-- The largest nesting of a list of attributes. -/
def nestingAll : List Attr → Nat
  | [] => 0
  | a :: r => max a.nesting (nestingAll r)
end

/-- What a document says about an attribute apart from its sub-attributes. -/
structure AttrInfo.DescribedBy (i : AttrInfo) (v : Val) : Prop where
  object : v.isCont = true
  name : v.Has "name".toList (.str i.rep.attr)
  type : ∃ t, i.type.documentName = some t ∧ v.Has "type".toList (.str t)
  multi : v.Has "multiValued".toList (.bool i.multi)
  description : v.Has "description".toList (.str i.description)
  required : v.Has "required".toList (.bool i.required)
  canonical : v.Has "canonicalValues".toList
    (match i.canonical with | none | some [] => .missing | some cs => .list (cs.map .prim))
  caseExact : v.Has "caseExact".toList (if i.type = .string then .bool i.caseExact else .missing)
  mutability : v.Has "mutability".toList (.str i.mutability.documentName)
  returned : v.Has "returned".toList (.str i.returned.documentName)
  uniqueness : v.Has "uniqueness".toList (.str i.uniqueness.documentName)
  refTypes : v.Has "referenceTypes".toList (if i.refTypes = [] then .missing else .list (i.refTypes.map .str))

mutual
/-- The document says exactly what the attribute is, including its sub-attributes in order. -/
def Attr.DescribedBy : Attr → Val → Prop
  | .simple i, v => i.DescribedBy v ∧ v.Has "subAttributes".toList .missing
  | .complex i subs _ _, v =>
    i.DescribedBy v ∧ ∃ ys, v.Has "subAttributes".toList (.list ys) ∧ AllDescribedBy subs ys
/-- The documents describe the attributes one by one. -/
def AllDescribedBy : List Attr → List Val → Prop
  | [], vs => vs = []
  | a :: r, vs => ∃ w ws, vs = w :: ws ∧ a.DescribedBy w ∧ AllDescribedBy r ws
end

/-- Absent, or null. -/
def Val.Unset (v : Val) : Prop := v = .missing ∨ v = .null

/-- One of the words, in any letter case. -/
def Val.OneOf (v : Val) (words : List Str) : Prop := ∃ t, v = .str t ∧ ∃ w ∈ words, lower t = lower w

/-- What holds of a consistent description of an attribute with type `ty`, apart from its sub-attributes. -/
structure ConsistentFields (v ty : Val) : Prop where
  object : v.isCont = true
  name : ∃ x, v.Has "name".toList x ∧ (x.Unset ∨ ∃ s, x = .str s)
  type : v.Has "type".toList ty
  typeKnown : ty.Unset ∨ ty.OneOf documentTypes
  multi : ∃ x, v.Has "multiValued".toList x ∧ (x.Unset ∨ ∃ b, x = .bool b)
  description : ∃ x, v.Has "description".toList x ∧ (x.Unset ∨ ∃ s, x = .str s)
  required : ∃ x, v.Has "required".toList x ∧ (x.Unset ∨ ∃ b, x = .bool b)
  caseExact : ∃ x, v.Has "caseExact".toList x ∧
    if ty = .str "string".toList then ∃ b, x = .bool b else x = .missing
  mutability : ∃ x, v.Has "mutability".toList x ∧
    (x.Unset ∨ x.OneOf ["readOnly".toList, "readWrite".toList, "immutable".toList, "writeOnly".toList])
  returned : ∃ x, v.Has "returned".toList x ∧
    (x.Unset ∨ x.OneOf ["always".toList, "never".toList, "default".toList, "request".toList])
  uniqueness : ∃ x, v.Has "uniqueness".toList x ∧
    (x.Unset ∨ x.OneOf ["none".toList, "server".toList, "global".toList])

/-- A consistent description of an attribute, at every depth: sub-attributes occur with the type `complex` only,
and are consistent themselves. -/
inductive ConsistentDoc : Val → Prop
  | leaf (v ty subs : Val) (fields : ConsistentFields v ty) (hasSubs : v.Has "subAttributes".toList subs)
      (unset : subs.Unset) : ConsistentDoc v
  | nested (v : Val) (ys : List Val) (fields : ConsistentFields v (.str "complex".toList))
      (hasSubs : v.Has "subAttributes".toList (.list ys)) (all : ∀ y ∈ ys, ConsistentDoc y) : ConsistentDoc v

end Scim
