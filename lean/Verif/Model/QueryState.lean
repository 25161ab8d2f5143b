import Verif.Model.Validators

/-!
# The caller's query string as an object

The request validators put what they make of the query string into the very dictionary they were given.  `Validators` has
the changed dictionary in the result; here the dictionary is a state that is changed in place, also when the call raises
half-way, and that the caller can hand over again.
-/

namespace Scim
namespace V
variable [PyEnv]

/-- A dictionary in its present state. -/
abbrev Dict := List (Str × Val)

/-- What GET, PUT, POST and PATCH of a resource do with the query string before anything else
(src/request_validators.py:243-248, 278-283, 324-329, 821-827): the dictionary afterwards, and the issues or the exception. -/
def touchQuery (q : Dict) : Dict × PyM Issues :=
  match parseRequested q with
  | .error e => (q, .error e)
  | .ok (c, is) => (if is.hasIssues then q else aset checkerWord c q, .ok (Issues.empty.merge is queryLoc))

/-- `query_string[name] = int(value)` (src/request_validators.py:595-617). -/
def touchNumber (name : Str) (q : Dict) (issues : Issues) : Dict × PyM Issues :=
  match (aget name q).getD .null with
  | .prim .none => (q, .ok issues)
  | v => match v.pyInt with
    | .ok i => (aset name (.int i) q, .ok issues)
    | .error e =>
      if e.isValueError then (q, .ok (issues.add ⟨2, []⟩ false (queryLoc ++ [.name name]))) else (q, .error e)

/-- `_parse_resources_get_request` on a dictionary (src/request_validators.py:573-618). -/
def touchList (q : Dict) : Dict × PyM Issues :=
  match parseFiltering q with
  | .error e => (q, .error e)
  | .ok (f, is) =>
    let q := aset filterWord f q
    let issues := Issues.empty.merge is (queryLoc ++ [.name filterWord])
    let (srt, is) := parseSorting q
    let q := aset sorterWord srt q
    let issues := issues.merge is (queryLoc ++ [.name "sortby".toList])
    match parseRequested q with
    | .error e => (q, .error e)
    | .ok (c, is) =>
      let q := if is.hasIssues then q else aset checkerWord c q
      let issues := issues.merge is queryLoc
      match touchNumber countWord q issues with
      | (q, .error e) => (q, .error e)
      | (q, .ok issues) => touchNumber startWord q issues

/-- The kinds of requests by what they do with the query string. -/
inductive QueryUse where
  /-- a list of resources (src/request_validators.py:552-618) -/
  | list
  /-- one resource: GET, PUT, POST or PATCH -/
  | resource
  /-- the list of schemas or of resource types (src/request_validators.py:1176-1186) -/
  | config
  /-- a search or a bulk request (src/request_validators.py:777-785, 973-1031): the query string is passed on -/
  | other
deriving DecidableEq, Repr

/-- One request with the dictionary: the dictionary afterwards, and the issues about the query string or the exception. -/
def QueryUse.on : QueryUse → Dict → Dict × PyM Issues
  | .list, q => touchList q
  | .resource, q => touchQuery q
  | .config, q => (q, .ok (parseConfigQuery .null (.dict q)).2)
  | .other, q => (q, .ok {})

/-- A history of requests with the same dictionary: its state at the end. -/
def reuse : List QueryUse → Dict → Dict
  | [], q => q
  | u :: us, q => reuse us (u.on q).1

end V
end Scim
