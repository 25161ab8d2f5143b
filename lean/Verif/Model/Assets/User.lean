import Verif.Model.Schemas

/-!
# The User schema (src/assets/schemas/user.py)

Generated by tools/gen_assets.py from src/assets/schemas/user.py.
-/

namespace Scim.UserA
variable [PyEnv]

/-- `user_name` (src/assets/schemas/user.py:11-20) -/
def userNameA : Attr := mkAttr { rep := { attr := "userName".toList }, type := .string, required := true, uniqueness := .server }

/-- `_name__formatted` (src/assets/schemas/user.py:22-31) -/
def nameFormattedA : Attr := mkAttr { rep := { attr := "formatted".toList }, type := .string }

/-- `_name__family_name` (src/assets/schemas/user.py:33-42) -/
def nameFamilyNameA : Attr := mkAttr { rep := { attr := "familyName".toList }, type := .string }

/-- `_name__given_name` (src/assets/schemas/user.py:44-53) -/
def nameGivenNameA : Attr := mkAttr { rep := { attr := "givenName".toList }, type := .string }

/-- `_name__middle_name` (src/assets/schemas/user.py:55-64) -/
def nameMiddleNameA : Attr := mkAttr { rep := { attr := "middleName".toList }, type := .string }

/-- `_name__honorific_prefix` (src/assets/schemas/user.py:66-75) -/
def nameHonorificPrefixA : Attr := mkAttr { rep := { attr := "honorificPrefix".toList }, type := .string }

/-- `_name__honorific_suffix` (src/assets/schemas/user.py:77-86) -/
def nameHonorificSuffixA : Attr := mkAttr { rep := { attr := "honorificSuffix".toList }, type := .string }

/-- `name` (src/assets/schemas/user.py:89-103) -/
def nameA : Attr :=
  mkComplex { rep := { attr := "name".toList }, type := .complex }
    [nameFormattedA, nameFamilyNameA, nameGivenNameA, nameMiddleNameA, nameHonorificPrefixA, nameHonorificSuffixA]

/-- `display_name` (src/assets/schemas/user.py:106-115) -/
def displayNameA : Attr := mkAttr { rep := { attr := "displayName".toList }, type := .string }

/-- `nick_name` (src/assets/schemas/user.py:118-127) -/
def nickNameA : Attr := mkAttr { rep := { attr := "nickName".toList }, type := .string }

/-- `profile_url` (src/assets/schemas/user.py:129-138) -/
def profileUrlA : Attr := mkAttr { rep := { attr := "profileUrl".toList }, type := .extRef }

/-- `title` (src/assets/schemas/user.py:140-149) -/
def titleA : Attr := mkAttr { rep := { attr := "title".toList }, type := .string }

/-- `user_type` (src/assets/schemas/user.py:151-160) -/
def userTypeA : Attr := mkAttr { rep := { attr := "userType".toList }, type := .string }

/-- `preferred_language` (src/assets/schemas/user.py:163-172) -/
def preferredLanguageA : Attr := mkAttr { rep := { attr := "preferredLanguage".toList }, type := .string }

/-- `locale` (src/assets/schemas/user.py:175-184) -/
def localeA : Attr := mkAttr { rep := { attr := "locale".toList }, type := .string }

/-- `timezone` (src/assets/schemas/user.py:187-196) -/
def timezoneA : Attr := mkAttr { rep := { attr := "timezone".toList }, type := .string }

/-- `active` (src/assets/schemas/user.py:198-207) -/
def activeA : Attr := mkAttr { rep := { attr := "active".toList }, type := .boolean }

/-- `password` (src/assets/schemas/user.py:210-219) -/
def passwordA : Attr := mkAttr { rep := { attr := "password".toList }, type := .string, mutability := .writeOnly, returned := .never }

/-- `_email_value` (src/assets/schemas/user.py:221-230) -/
def emailValueA : Attr := mkAttr { rep := { attr := "value".toList }, type := .string }

/-- `_email_display` (src/assets/schemas/user.py:232-241) -/
def emailDisplayA : Attr := mkAttr { rep := { attr := "display".toList }, type := .string }

/-- `_email_type` (src/assets/schemas/user.py:243-253) -/
def emailTypeA : Attr := mkAttr { rep := { attr := "type".toList }, type := .string, canonical := some [.str "work".toList, .str "home".toList, .str "other".toList] }

/-- `_email_primary` (src/assets/schemas/user.py:255-264) -/
def emailPrimaryA : Attr := mkAttr { rep := { attr := "primary".toList }, type := .boolean }

/-- `emails` (src/assets/schemas/user.py:266-279) -/
def emailsA : Attr :=
  mkComplex { rep := { attr := "emails".toList }, type := .complex, multi := true }
    [emailValueA, emailTypeA, emailDisplayA, emailPrimaryA]

/-- `_phone_number_value` (src/assets/schemas/user.py:282-291) -/
def phoneNumberValueA : Attr := mkAttr { rep := { attr := "value".toList }, type := .string }

/-- `_phone_number_display` (src/assets/schemas/user.py:293-302) -/
def phoneNumberDisplayA : Attr := mkAttr { rep := { attr := "display".toList }, type := .string }

/-- `_phone_number_type` (src/assets/schemas/user.py:304-314) -/
def phoneNumberTypeA : Attr := mkAttr { rep := { attr := "type".toList }, type := .string, canonical := some [.str "work".toList, .str "home".toList, .str "mobile".toList, .str "fax".toList, .str "pager".toList, .str "other".toList] }

/-- `_phone_number_primary` (src/assets/schemas/user.py:316-325) -/
def phoneNumberPrimaryA : Attr := mkAttr { rep := { attr := "primary".toList }, type := .boolean }

/-- `phone_numbers` (src/assets/schemas/user.py:327-340) -/
def phoneNumbersA : Attr :=
  mkComplex { rep := { attr := "phoneNumbers".toList }, type := .complex, multi := true }
    [phoneNumberValueA, phoneNumberTypeA, phoneNumberDisplayA, phoneNumberPrimaryA]

/-- `_ims_value` (src/assets/schemas/user.py:343-352) -/
def imsValueA : Attr := mkAttr { rep := { attr := "value".toList }, type := .string }

/-- `_ims_display` (src/assets/schemas/user.py:354-363) -/
def imsDisplayA : Attr := mkAttr { rep := { attr := "display".toList }, type := .string }

/-- `_ims_type` (src/assets/schemas/user.py:367-376) -/
def imsTypeA : Attr := mkAttr { rep := { attr := "type".toList }, type := .string }

/-- `_ims_primary` (src/assets/schemas/user.py:378-387) -/
def imsPrimaryA : Attr := mkAttr { rep := { attr := "primary".toList }, type := .boolean }

/-- `ims` (src/assets/schemas/user.py:389-402) -/
def imsA : Attr :=
  mkComplex { rep := { attr := "ims".toList }, type := .complex, multi := true }
    [imsValueA, imsTypeA, imsDisplayA, imsPrimaryA]

/-- `_photos_value` (src/assets/schemas/user.py:404-413) -/
def photosValueA : Attr := mkAttr { rep := { attr := "value".toList }, type := .extRef }

/-- `_photos_display` (src/assets/schemas/user.py:415-424) -/
def photosDisplayA : Attr := mkAttr { rep := { attr := "display".toList }, type := .string }

/-- `_photos_type` (src/assets/schemas/user.py:426-436) -/
def photosTypeA : Attr := mkAttr { rep := { attr := "type".toList }, type := .string, canonical := some [.str "photo".toList, .str "thumbnail".toList] }

/-- `_photos_primary` (src/assets/schemas/user.py:438-447) -/
def photosPrimaryA : Attr := mkAttr { rep := { attr := "primary".toList }, type := .boolean }

/-- `photos` (src/assets/schemas/user.py:449-462) -/
def photosA : Attr :=
  mkComplex { rep := { attr := "photos".toList }, type := .complex, multi := true }
    [photosValueA, photosTypeA, photosDisplayA, photosPrimaryA]

/-- `_addresses_formatted` (src/assets/schemas/user.py:464-473) -/
def addressesFormattedA : Attr := mkAttr { rep := { attr := "formatted".toList }, type := .string }

/-- `_addresses_street_address` (src/assets/schemas/user.py:475-484) -/
def addressesStreetAddressA : Attr := mkAttr { rep := { attr := "streetAddress".toList }, type := .string }

/-- `_addresses_locality` (src/assets/schemas/user.py:486-495) -/
def addressesLocalityA : Attr := mkAttr { rep := { attr := "locality".toList }, type := .string }

/-- `_addresses_region` (src/assets/schemas/user.py:497-506) -/
def addressesRegionA : Attr := mkAttr { rep := { attr := "region".toList }, type := .string }

/-- `_addresses_postal_code` (src/assets/schemas/user.py:508-517) -/
def addressesPostalCodeA : Attr := mkAttr { rep := { attr := "postalCode".toList }, type := .string }

/-- `_addresses_country` (src/assets/schemas/user.py:520-529) -/
def addressesCountryA : Attr := mkAttr { rep := { attr := "country".toList }, type := .string }

/-- `_addresses_type` (src/assets/schemas/user.py:531-541) -/
def addressesTypeA : Attr := mkAttr { rep := { attr := "type".toList }, type := .string, canonical := some [.str "work".toList, .str "home".toList, .str "other".toList] }

/-- `addresses` (src/assets/schemas/user.py:543-559) -/
def addressesA : Attr :=
  mkComplex { rep := { attr := "addresses".toList }, type := .complex, multi := true }
    [addressesFormattedA, addressesLocalityA, addressesStreetAddressA, addressesRegionA, addressesPostalCodeA, addressesCountryA, addressesTypeA]

/-- `_groups_value` (src/assets/schemas/user.py:562-571) -/
def groupsValueA : Attr := mkAttr { rep := { attr := "value".toList }, type := .string, mutability := .readOnly }

/-- `_groups_ref` (src/assets/schemas/user.py:573-582) -/
def groupsRefA : Attr := mkAttr { rep := { attr := "$ref".toList }, type := .uriRef, mutability := .readOnly }

/-- `_groups_display` (src/assets/schemas/user.py:584-593) -/
def groupsDisplayA : Attr := mkAttr { rep := { attr := "display".toList }, type := .string, mutability := .readOnly }

/-- `_groups_type` (src/assets/schemas/user.py:595-605) -/
def groupsTypeA : Attr := mkAttr { rep := { attr := "type".toList }, type := .string, canonical := some [.str "direct".toList, .str "indirect".toList], mutability := .readOnly }

/-- `groups` (src/assets/schemas/user.py:607-620) -/
def groupsA : Attr :=
  mkComplex { rep := { attr := "groups".toList }, type := .complex, multi := true, mutability := .readOnly }
    [groupsValueA, groupsRefA, groupsDisplayA, groupsTypeA]

/-- `_entitlements_value` (src/assets/schemas/user.py:622-631) -/
def entitlementsValueA : Attr := mkAttr { rep := { attr := "value".toList }, type := .string }

/-- `_entitlements_display` (src/assets/schemas/user.py:633-642) -/
def entitlementsDisplayA : Attr := mkAttr { rep := { attr := "display".toList }, type := .string }

/-- `_entitlements_type` (src/assets/schemas/user.py:644-653) -/
def entitlementsTypeA : Attr := mkAttr { rep := { attr := "type".toList }, type := .string }

/-- `_entitlements_primary` (src/assets/schemas/user.py:655-664) -/
def entitlementsPrimaryA : Attr := mkAttr { rep := { attr := "primary".toList }, type := .boolean }

/-- `entitlements` (src/assets/schemas/user.py:666-679) -/
def entitlementsA : Attr :=
  mkComplex { rep := { attr := "entitlements".toList }, type := .complex, multi := true }
    [entitlementsValueA, entitlementsDisplayA, entitlementsTypeA, entitlementsPrimaryA]

/-- `_roles_value` (src/assets/schemas/user.py:681-690) -/
def rolesValueA : Attr := mkAttr { rep := { attr := "value".toList }, type := .string }

/-- `_roles_display` (src/assets/schemas/user.py:692-701) -/
def rolesDisplayA : Attr := mkAttr { rep := { attr := "display".toList }, type := .string }

/-- `_roles_type` (src/assets/schemas/user.py:703-712) -/
def rolesTypeA : Attr := mkAttr { rep := { attr := "type".toList }, type := .string }

/-- `_roles_primary` (src/assets/schemas/user.py:714-723) -/
def rolesPrimaryA : Attr := mkAttr { rep := { attr := "primary".toList }, type := .boolean }

/-- `roles` (src/assets/schemas/user.py:725-738) -/
def rolesA : Attr :=
  mkComplex { rep := { attr := "roles".toList }, type := .complex, multi := true }
    [rolesValueA, rolesDisplayA, rolesTypeA, rolesPrimaryA]

/-- `_x509_certificates_value` (src/assets/schemas/user.py:740-749) -/
def x509CertificatesValueA : Attr := mkAttr { rep := { attr := "value".toList }, type := .binary }

/-- `_x509_certificates_display` (src/assets/schemas/user.py:751-760) -/
def x509CertificatesDisplayA : Attr := mkAttr { rep := { attr := "display".toList }, type := .string }

/-- `_x509_certificates_type` (src/assets/schemas/user.py:762-771) -/
def x509CertificatesTypeA : Attr := mkAttr { rep := { attr := "type".toList }, type := .string }

/-- `_x509_certificates_primary` (src/assets/schemas/user.py:773-782) -/
def x509CertificatesPrimaryA : Attr := mkAttr { rep := { attr := "primary".toList }, type := .boolean }

/-- `x509_certificates` (src/assets/schemas/user.py:784-797) -/
def x509CertificatesA : Attr :=
  mkComplex { rep := { attr := "x509Certificates".toList }, type := .complex, multi := true }
    [x509CertificatesValueA, x509CertificatesDisplayA, x509CertificatesTypeA, x509CertificatesPrimaryA]

/-- `employee_number` (src/assets/schemas/user.py:803-812) -/
def employeeNumberA : Attr := mkAttr { rep := { attr := "employeeNumber".toList }, type := .string }

/-- `cost_center` (src/assets/schemas/user.py:814-823) -/
def costCenterA : Attr := mkAttr { rep := { attr := "costCenter".toList }, type := .string }

/-- `organization` (src/assets/schemas/user.py:825-834) -/
def organizationA : Attr := mkAttr { rep := { attr := "organization".toList }, type := .string }

/-- `division` (src/assets/schemas/user.py:836-845) -/
def divisionA : Attr := mkAttr { rep := { attr := "division".toList }, type := .string }

/-- `department` (src/assets/schemas/user.py:847-856) -/
def departmentA : Attr := mkAttr { rep := { attr := "department".toList }, type := .string }

/-- `_manager__value` (src/assets/schemas/user.py:859-868) -/
def managerValueA : Attr := mkAttr { rep := { attr := "value".toList }, type := .string }

/-- `_manager__ref` (src/assets/schemas/user.py:870-880) -/
def managerRefA : Attr := mkAttr { rep := { attr := "$ref".toList }, type := .scimRef, refTypes := ["User".toList] }

/-- `_manager__display_name` (src/assets/schemas/user.py:882-891) -/
def managerDisplayNameA : Attr := mkAttr { rep := { attr := "displayName".toList }, type := .string, mutability := .readOnly }

/-- `manager` (src/assets/schemas/user.py:893-904) -/
def managerA : Attr :=
  mkComplex { rep := { attr := "manager".toList }, type := .complex }
    [managerValueA, managerRefA, managerDisplayNameA]

/-- The URN of `User` (src/assets/schemas/user.py:910). -/
def urn : Str := "urn:ietf:params:scim:schemas:core:2.0:User".toList

/-- The URN of the enterprise extension (src/assets/schemas/user.py:939). -/
def enterpriseUrn : Str := "urn:ietf:params:scim:schemas:extension:enterprise:2.0:User".toList

/-- The attributes of `User` (src/assets/schemas/user.py:911-933). -/
def attrs : List Attr :=
  [userNameA, nameA, displayNameA, nickNameA, profileUrlA, titleA, userTypeA, preferredLanguageA, localeA, timezoneA,
   activeA, passwordA, emailsA, phoneNumbersA, imsA, photosA, addressesA, groupsA, entitlementsA, rolesA,
   x509CertificatesA]

/-- `User` before the extension is added (src/assets/schemas/user.py:907-936). -/
def core : Schema := mkResource urn attrs "User".toList

/-- The enterprise extension (src/assets/schemas/user.py:938-949). -/
def enterprise : Extension :=
  { urn := enterpriseUrn, name := "Enterprise User".toList,
    attrs := Attributes.ofList [employeeNumberA, costCenterA, divisionA, departmentA, organizationA, managerA] }

/-- `User()` (src/assets/schemas/user.py:907-950). -/
def schema : PyM Schema := core.withExtension enterprise

end Scim.UserA
