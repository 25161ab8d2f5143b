import Verif.Model.SchemaDoc
import Verif.Model.Assets.PatchOp

/-!
# The Schema resource (src/assets/schemas/schema.py)
-/

namespace Scim.SchemaA
variable [PyEnv]

/-- `id_` (src/assets/schemas/schema.py:14-19) -/
def idA : Attr := mkAttr { rep := { attr := "id".toList }, type := .string, mutability := .readOnly, issuer := .server }

/-- `name` (src/assets/schemas/schema.py:22-27) -/
def nameA : Attr := mkAttr { rep := { attr := "name".toList }, type := .string, mutability := .readOnly, issuer := .server }

/-- `description` (src/assets/schemas/schema.py:30-35) -/
def descriptionA : Attr := mkAttr { rep := { attr := "description".toList }, type := .string, mutability := .readOnly, issuer := .server }

/-- `_attributes__name` (src/assets/schemas/schema.py:38-44) -/
def attributesNameA : Attr := mkAttr { rep := { attr := "name".toList }, type := .string, required := true, mutability := .readOnly, issuer := .server }

/-- `_attributes__type` (src/assets/schemas/schema.py:46-54) -/
def attributesTypeA : Attr := mkAttr { rep := { attr := "type".toList }, type := .string, canonical := some [.str "string".toList, .str "integer".toList, .str "boolean".toList, .str "reference".toList, .str "dateTime".toList, .str "binary".toList, .str "complex".toList], validateCanon := true, required := true, mutability := .readOnly, issuer := .server }

/-- `_attributes__sub_attributes` (src/assets/schemas/schema.py:56-62) -/
def attributesSubAttributesA : Attr := mkAttr { rep := { attr := "subAttributes".toList }, type := .unknown, mutability := .readOnly, issuer := .server }

/-- `_attributes__multi_valued` (src/assets/schemas/schema.py:64-70) -/
def attributesMultiValuedA : Attr := mkAttr { rep := { attr := "multiValued".toList }, type := .boolean, required := true, mutability := .readOnly, issuer := .server }

/-- `_attributes__description` (src/assets/schemas/schema.py:72-78) -/
def attributesDescriptionA : Attr := mkAttr { rep := { attr := "description".toList }, type := .string, mutability := .readOnly, issuer := .server }

/-- `_attributes__required` (src/assets/schemas/schema.py:80-86) -/
def attributesRequiredA : Attr := mkAttr { rep := { attr := "required".toList }, type := .boolean, required := true, mutability := .readOnly, issuer := .server }

/-- `_attributes__canonical_values` (src/assets/schemas/schema.py:88-95) -/
def attributesCanonicalValuesA : Attr := mkAttr { rep := { attr := "canonicalValues".toList }, type := .unknown, multi := true, mutability := .readOnly, issuer := .server }

/-- `_attributes__case_exact` (src/assets/schemas/schema.py:97-103) -/
def attributesCaseExactA : Attr := mkAttr { rep := { attr := "caseExact".toList }, type := .boolean, mutability := .readOnly, issuer := .server }

/-- `_attributes__mutability` (src/assets/schemas/schema.py:105-113) -/
def attributesMutabilityA : Attr := mkAttr { rep := { attr := "mutability".toList }, type := .string, canonical := some [.str "readOnly".toList, .str "readWrite".toList, .str "immutable".toList, .str "writeOnly".toList], validateCanon := true, required := true, mutability := .readOnly, issuer := .server }

/-- `_attributes__returned` (src/assets/schemas/schema.py:115-123) -/
def attributesReturnedA : Attr := mkAttr { rep := { attr := "returned".toList }, type := .string, canonical := some [.str "always".toList, .str "never".toList, .str "default".toList, .str "request".toList], validateCanon := true, required := true, mutability := .readOnly, issuer := .server }

/-- `_attributes__uniqueness` (src/assets/schemas/schema.py:125-133) -/
def attributesUniquenessA : Attr := mkAttr { rep := { attr := "uniqueness".toList }, type := .string, canonical := some [.str "none".toList, .str "server".toList, .str "global".toList], validateCanon := true, required := true, mutability := .readOnly, issuer := .server }

/-- `_attributes__reference_types` (src/assets/schemas/schema.py:135-142) -/
def attributesReferenceTypesA : Attr := mkAttr { rep := { attr := "referenceTypes".toList }, type := .string, multi := true, mutability := .readOnly, issuer := .server }

/-- The sub-attributes of `attributes` (src/assets/schemas/schema.py:175-188). -/
def attributesSubs : List Attr :=
  [attributesNameA, attributesTypeA, attributesSubAttributesA, attributesMultiValuedA, attributesDescriptionA,
   attributesRequiredA, attributesCanonicalValuesA, attributesCaseExactA, attributesMutabilityA, attributesReturnedA,
   attributesUniquenessA, attributesReferenceTypesA]

/-- The treatment of the sub-attributes of an item with type `ty` (src/assets/schemas/schema.py:151-161): deleted
unless the type is `"complex"`, otherwise dumped by `nested` (`attributes.dump`). -/
def dumpSubAttributes (nested : Val → PyM (Val × Issues)) (i : Nat) (ty : Val) (item : Val) (issues : Issues) :
    PyM (Val × Issues) :=
  match item.getItem attributesSubAttributesA.rep with
  | .error e => .error e
  | .ok subs =>
    if subs.isNoneOrMissing then .ok (item, issues)
    else if !ty.isText "complex".toList then
      match item.delItem attributesSubAttributesA.rep with
      | .error e => .error e
      | .ok item' => .ok (item', issues)
    else
      match nested subs with
      | .error e => .error e
      | .ok (dumped, is) =>
        match item.setItem attributesSubAttributesA.rep dumped with
        | .error e => .error e
        | .ok item' => .ok (item', issues.merge is [.idx i, .name "subAttributes".toList])

/-- The treatment of `caseExact` (src/assets/schemas/schema.py:162-170).  Reporting the missing value fails: the
location contains the `AttrRep` itself, which defines `__eq__` without `__hash__` (src/data/container.py:9-52)
and hence cannot be part of a dictionary key (src/error.py:324). -/
def dumpCaseExact (ty : Val) (item : Val) : PyM Val :=
  if ty.isText "string".toList then
    match item.getItem attributesCaseExactA.rep with
    | .error e => .error e
    | .ok ce => if ce.isNoneOrMissing then .error .typeError else .ok item
  else item.delItem attributesCaseExactA.rep

/-- The loop of `dump_attributes` (src/assets/schemas/schema.py:149-170).  The items are containers made by the
caller, so updating them in place is the same as replacing them in the list. -/
def dumpItems (nested : Val → PyM (Val × Issues)) : Nat → List Val → Issues → PyM (List Val × Issues)
  | _, [], issues => .ok ([], issues)
  | i, item :: rest, issues =>
    match item.getItem attributesTypeA.rep with
    | .error e => .error e
    | .ok ty =>
      match dumpSubAttributes nested i ty item issues with
      | .error e => .error e
      | .ok (item, issues) =>
        match dumpCaseExact ty item with
        | .error e => .error e
        | .ok item =>
          match dumpItems nested (i + 1) rest issues with
          | .error e => .error e
          | .ok (items, issues) => .ok (item :: items, issues)

/-- `dump_attributes` (src/assets/schemas/schema.py:145-171). -/
def dumpAttributes (nested : Val → PyM (Val × Issues)) : Proc := fun v =>
  match v with
  | .list xs =>
    match dumpItems nested 0 xs {} with
    | .error e => .error e
    | .ok (ys, issues) => .ok (.list ys, issues)
  | _ => .error .typeError

/-- `attributes` (src/assets/schemas/schema.py:174-193), given what its post-processor does with nested
sub-attributes. -/
def attributesWith (nested : Val → PyM (Val × Issues)) : Attr :=
  mkComplex { rep := { attr := "attributes".toList }, type := .complex, multi := true, mutability := .readOnly }
    attributesSubs [] [dumpAttributes nested]

/-- `attributes.dump` called for nested sub-attributes (src/assets/schemas/schema.py:156).  Python bounds the
depth of calls; the bound is the parameter. -/
def nestedDump : Nat → Val → PyM (Val × Issues)
  | 0, _ => .error .recursion
  | d + 1, v => (attributesWith (nestedDump d)).process .dump v

/-- `attributes` (src/assets/schemas/schema.py:174-193). -/
def attributesA (depth : Nat) : Attr := attributesWith (nestedDump depth)

/-- `Schema()` (src/assets/schemas/schema.py:196-203). -/
def schema (depth : Nat) : Schema :=
  mkResource schemaUrn [nameA, descriptionA, attributesA depth] "Schema".toList (idA := idA)

end Scim.SchemaA
