import Verif.Model.Schemas

/-!
# The ResourceType schema (src/assets/schemas/resource_type.py)

Generated by tools/gen_assets.py from src/assets/schemas/resource_type.py.
-/

namespace Scim.ResourceTypeA
variable [PyEnv]

/-- `id_` (src/assets/schemas/resource_type.py:10-15) -/
def idA : Attr := mkAttr { rep := { attr := "id".toList }, type := .string, mutability := .readOnly, issuer := .server }

/-- `name` (src/assets/schemas/resource_type.py:18-24) -/
def nameA : Attr := mkAttr { rep := { attr := "name".toList }, type := .string, mutability := .readOnly, issuer := .server, required := true }

/-- `description` (src/assets/schemas/resource_type.py:27-32) -/
def descriptionA : Attr := mkAttr { rep := { attr := "description".toList }, type := .string, mutability := .readOnly, issuer := .server }

/-- `endpoint` (src/assets/schemas/resource_type.py:35-41) -/
def endpointA : Attr := mkAttr { rep := { attr := "endpoint".toList }, type := .uriRef, mutability := .readOnly, issuer := .server, required := true }

/-- `schema` (src/assets/schemas/resource_type.py:44-50) -/
def schemaA : Attr := mkAttr { rep := { attr := "schema".toList }, type := .string, mutability := .readOnly, issuer := .server, required := true }

/-- `_schema_extensions__schema` (src/assets/schemas/resource_type.py:53-53) -/
def schemaExtensionsSchemaA : Attr := schemaA

/-- `_schema_extensions__required` (src/assets/schemas/resource_type.py:55-61) -/
def schemaExtensionsRequiredA : Attr := mkAttr { rep := { attr := "required".toList }, type := .boolean, mutability := .readOnly, issuer := .server, required := true }

/-- `schema_extensions` (src/assets/schemas/resource_type.py:63-67) -/
def schemaExtensionsA : Attr :=
  mkComplex { rep := { attr := "schemaExtensions".toList }, type := .complex, multi := true }
    [schemaExtensionsSchemaA, schemaExtensionsRequiredA]

/-- The URN of `ResourceType` (src/assets/schemas/resource_type.py:73). -/
def urn : Str := "urn:ietf:params:scim:schemas:core:2.0:ResourceType".toList

/-- `ResourceType()` (src/assets/schemas/resource_type.py:70-77). -/
def schema : Schema :=
  mkResource urn [nameA, descriptionA, endpointA, schemaA, schemaExtensionsA] "ResourceType".toList (idA := idA)

end Scim.ResourceTypeA
