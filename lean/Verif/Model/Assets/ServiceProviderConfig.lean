import Verif.Model.Schemas

/-!
# The ServiceProviderConfig schema (src/assets/schemas/service_provider_config.py)

Generated by tools/gen_assets.py from src/assets/schemas/service_provider_config.py.
-/

namespace Scim.ConfigA
variable [PyEnv]

/-- `documentation_uri` (src/assets/schemas/service_provider_config.py:10-14) -/
def documentationUriA : Attr := mkAttr { rep := { attr := "documentationUri".toList }, type := .extRef, mutability := .readOnly }

/-- `_supported` (src/assets/schemas/service_provider_config.py:16-21) -/
def supportedA : Attr := mkAttr { rep := { attr := "supported".toList }, type := .boolean, required := true, mutability := .readOnly }

/-- `patch` (src/assets/schemas/service_provider_config.py:23-28) -/
def patchA : Attr :=
  mkComplex { rep := { attr := "patch".toList }, type := .complex, required := true, mutability := .readOnly }
    [supportedA]

/-- `_bulk_max_operations` (src/assets/schemas/service_provider_config.py:31-36) -/
def bulkMaxOperationsA : Attr := mkAttr { rep := { attr := "maxOperations".toList }, type := .integer, required := true, mutability := .readOnly }

/-- `_bulk_max_payload_size` (src/assets/schemas/service_provider_config.py:38-43) -/
def bulkMaxPayloadSizeA : Attr := mkAttr { rep := { attr := "maxPayloadSize".toList }, type := .integer, required := true, mutability := .readOnly }

/-- `bulk` (src/assets/schemas/service_provider_config.py:45-50) -/
def bulkA : Attr :=
  mkComplex { rep := { attr := "bulk".toList }, type := .complex, required := true, mutability := .readOnly }
    [supportedA, bulkMaxOperationsA, bulkMaxPayloadSizeA]

/-- `_filter_max_results` (src/assets/schemas/service_provider_config.py:53-58) -/
def filterMaxResultsA : Attr := mkAttr { rep := { attr := "maxResults".toList }, type := .integer, required := true, mutability := .readOnly }

/-- `filter_` (src/assets/schemas/service_provider_config.py:60-65) -/
def filterA : Attr :=
  mkComplex { rep := { attr := "filter".toList }, type := .complex, required := true, mutability := .readOnly }
    [supportedA, filterMaxResultsA]

/-- `change_password` (src/assets/schemas/service_provider_config.py:68-73) -/
def changePasswordA : Attr :=
  mkComplex { rep := { attr := "changePassword".toList }, type := .complex, required := true, mutability := .readOnly }
    [supportedA]

/-- `sort` (src/assets/schemas/service_provider_config.py:76-81) -/
def sortA : Attr :=
  mkComplex { rep := { attr := "sort".toList }, type := .complex, required := true, mutability := .readOnly }
    [supportedA]

/-- `etag` (src/assets/schemas/service_provider_config.py:84-89) -/
def etagA : Attr :=
  mkComplex { rep := { attr := "etag".toList }, type := .complex, required := true, mutability := .readOnly }
    [supportedA]

/-- `_authentication_schemes_type` (src/assets/schemas/service_provider_config.py:92-98) -/
def authenticationSchemesTypeA : Attr := mkAttr { rep := { attr := "type".toList }, type := .string, required := true, canonical := some [.str "oauth".toList, .str "oauth2".toList, .str "oauthbearertoken".toList, .str "httpbasic".toList, .str "httpdigest".toList], mutability := .readOnly }

/-- `_authentication_schemes_name` (src/assets/schemas/service_provider_config.py:100-105) -/
def authenticationSchemesNameA : Attr := mkAttr { rep := { attr := "name".toList }, type := .string, required := true, mutability := .readOnly }

/-- `_authentication_schemes_description` (src/assets/schemas/service_provider_config.py:107-112) -/
def authenticationSchemesDescriptionA : Attr := mkAttr { rep := { attr := "description".toList }, type := .string, required := true, mutability := .readOnly }

/-- `_authentication_schemes_spec_uri` (src/assets/schemas/service_provider_config.py:114-118) -/
def authenticationSchemesSpecUriA : Attr := mkAttr { rep := { attr := "specUri".toList }, type := .extRef, mutability := .readOnly }

/-- `_authentication_schemes_documentation_uri` (src/assets/schemas/service_provider_config.py:120-124) -/
def authenticationSchemesDocumentationUriA : Attr := mkAttr { rep := { attr := "specUri".toList }, type := .extRef, mutability := .readOnly }

/-- `authentication_schemes` (src/assets/schemas/service_provider_config.py:126-138) -/
def authenticationSchemesA : Attr :=
  mkComplex { rep := { attr := "authenticationSchemes".toList }, type := .complex, multi := true, mutability := .readOnly, required := true }
    [authenticationSchemesTypeA, authenticationSchemesNameA, authenticationSchemesDescriptionA, authenticationSchemesSpecUriA, authenticationSchemesDocumentationUriA]

/-- `id_` without `required` (src/assets/schemas/service_provider_config.py:7-8). -/
def idA : Attr :=
  mkAttr { rep := { attr := "id".toList }, type := .string, required := false, issuer := .server,
           caseExact := true, mutability := .readOnly, returned := .always, uniqueness := .server,
           parsers := [bulkIdValidator], dumpers := [bulkIdValidator] }

/-- The URN of `ServiceProviderConfig` (src/assets/schemas/service_provider_config.py:144). -/
def urn : Str := "urn:ietf:params:scim:schemas:core:2.0:ServiceProviderConfig".toList

/-- `ServiceProviderConfig()` (src/assets/schemas/service_provider_config.py:141-157). -/
def schema : Schema :=
  mkResource urn [documentationUriA, patchA, bulkA, filterA, changePasswordA, sortA, etagA, authenticationSchemesA]
    "ServiceProviderConfig".toList (idA := idA)

end Scim.ConfigA
