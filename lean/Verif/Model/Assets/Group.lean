import Verif.Model.Schemas

/-!
# The Group schema (src/assets/schemas/group.py)

Generated by tools/gen_assets.py from src/assets/schemas/group.py.
-/

namespace Scim.GroupA
variable [PyEnv]

/-- `display_name` (src/assets/schemas/group.py:5-9) -/
def displayNameA : Attr := mkAttr { rep := { attr := "displayName".toList }, type := .string, required := true }

/-- `_members_value` (src/assets/schemas/group.py:11-15) -/
def membersValueA : Attr := mkAttr { rep := { attr := "value".toList }, type := .string, mutability := .immutable }

/-- `_members_ref` (src/assets/schemas/group.py:17-21) -/
def membersRefA : Attr := mkAttr { rep := { attr := "$ref".toList }, type := .uriRef, mutability := .immutable }

/-- `_members_display` (src/assets/schemas/group.py:23-27) -/
def membersDisplayA : Attr := mkAttr { rep := { attr := "display".toList }, type := .string, mutability := .immutable }

/-- `members` (src/assets/schemas/group.py:29-34) -/
def membersA : Attr :=
  mkComplex { rep := { attr := "members".toList }, type := .complex, multi := true }
    [membersValueA, membersRefA, membersDisplayA]

/-- The URN of `Group` (src/assets/schemas/group.py:40). -/
def urn : Str := "urn:ietf:params:scim:schemas:core:2.0:Group".toList

/-- `Group()` (src/assets/schemas/group.py:37-44). -/
def schema : Schema := mkResource urn [displayNameA, membersA] "Group".toList

end Scim.GroupA
