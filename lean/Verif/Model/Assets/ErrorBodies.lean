import Verif.Model.Assets.Messages

/-!
# Bodies of errors

The ten constants of src/assets/scim_error.py.  Nothing in the library uses them; they are there for applications to send with
`Error.dump_response`.
-/

namespace Scim.ScimError

/-- The shape of all ten: a status, a type and a text (src/assets/scim_error.py:1-88). -/
def body (status scimType detail : String) : List (Str × Val) :=
  [("status".toList, .str status.toList), ("scimType".toList, .str scimType.toList), ("detail".toList, .str detail.toList)]

/-- `INVALID_FILTER` (src/assets/scim_error.py:1-8). -/
def invalidFilter : List (Str × Val) :=
  body "400" "invalidFilter"
    "The specified filter syntax is invalid, or the specified attribute and filter comparison combination is not supported."

/-- `TOO_MANY` (src/assets/scim_error.py:11-18). -/
def tooMany : List (Str × Val) :=
  body "400" "tooMany"
    "The specified filter yields many more results than the server is willing to calculateor process."

/-- `UNIQUENESS` (src/assets/scim_error.py:21-25). -/
def uniqueness : List (Str × Val) :=
  body "400" "uniqueness"
    "One or more of the attribute values are already in use or are reserved."

/-- `MUTABILITY` (src/assets/scim_error.py:28-35). -/
def mutability : List (Str × Val) :=
  body "400" "mutability"
    "The attempted modification is not compatible with the target attribute's mutability or current state."

/-- `INVALID_SYNTAX` (src/assets/scim_error.py:38-44). -/
def invalidSyntax : List (Str × Val) :=
  body "400" "invalidSyntax"
    "The request body message structure was invalid or did not conform to the request schema."

/-- `INVALID_PATH` (src/assets/scim_error.py:47-51). -/
def invalidPath : List (Str × Val) :=
  body "400" "invalidPath"
    "The 'path' attribute was invalid or malformed."

/-- `NO_TARGET` (src/assets/scim_error.py:54-61). -/
def noTarget : List (Str × Val) :=
  body "400" "noTarget"
    "The specified 'path' did not yield an attribute or attribute value that could be operated on."

/-- `INVALID_VALUE` (src/assets/scim_error.py:64-71). -/
def invalidValue : List (Str × Val) :=
  body "400" "invalidValue"
    "A required value was missing, or the value specified was not compatible with the operation or attribute type, or resource schema."

/-- `INVALID_VERS` (src/assets/scim_error.py:74-78). -/
def invalidVers : List (Str × Val) :=
  body "400" "invalidVers"
    "The specified SCIM protocol version is not supported."

/-- `SENSITIVE` (src/assets/scim_error.py:81-88). -/
def sensitive : List (Str × Val) :=
  body "400" "sensitive"
    "The specified request cannot be completed, due to the passing of sensitive information in a request URI."

/-- All of them, in the order of the file. -/
def all : List (List (Str × Val)) :=
  [invalidFilter, tooMany, uniqueness, mutability, invalidSyntax, invalidPath, noTarget, invalidValue, invalidVers, sensitive]

end Scim.ScimError
