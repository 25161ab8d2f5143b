import Verif.Model.Presence
import Verif.Model.Filter
import Verif.Model.Sorter
import Verif.Model.Assets.PatchOp

/-!
# Messages: errors, list responses, search requests (src/assets/schemas/{error,list_response,search_request}.py)
-/

namespace Scim

/-- `int(v)`: strings, numbers and booleans; `TypeError` for everything else. -/
def Val.pyInt [PyEnv] : Val → PyM Int
  | .prim (.str s) => match PyEnv.parseInt s with
    | some i => .ok i
    | none => .error .valueError
  | .prim (.int i) => .ok i
  | .prim (.bool b) => .ok (if b then 1 else 0)
  | .prim (.flt f) => intOfFloat f
  | _ => .error .typeError

/-! ## Error -/

namespace ErrorA
variable [PyEnv]

/-- The URN (src/assets/schemas/error.py:85). -/
def urn : Str := "urn:ietf:params:scim:api:messages:2.0:Error".toList

/-- `"status"` -/
def statusWord : Str := "status".toList

/-- `parse_error_status` (src/assets/schemas/error.py:15-30). -/
def parseStatus : Proc := fun v =>
  match v.pyInt with
  | .error e => if e.isValueError then .ok (.invalid, Issues.empty.add ⟨12, []⟩ false) else .error e
  | .ok i => .ok (.int i, if 300 ≤ i ∧ i < 600 then {} else Issues.empty.add ⟨12, []⟩ true)

/-- `status` (src/assets/schemas/error.py:33-43). -/
def statusA : Attr :=
  mkAttr { rep := { attr := statusWord }, type := .string, required := true, returned := .always, parsers := [parseStatus] }

/-- `scim_type` (src/assets/schemas/error.py:46-68). -/
def scimTypeA : Attr :=
  mkAttr { rep := { attr := "scimType".toList }, type := .string, returned := .always, validateCanon := true
           canonical := some [.str "invalidFilter".toList, .str "tooMany".toList, .str "uniqueness".toList,
             .str "mutability".toList, .str "invalidSyntax".toList, .str "invalidPath".toList, .str "noTarget".toList,
             .str "invalidValue".toList, .str "invalidVers".toList, .str "sensitive".toList] }

/-- `detail` (src/assets/schemas/error.py:70-79). -/
def detailA : Attr := mkAttr { rep := { attr := "detail".toList }, type := .string, returned := .always }

/-- `Error` (src/assets/schemas/error.py:82-91). -/
def schema : Schema := mkSchema urn [statusA, scimTypeA, detailA]

end ErrorA

/-! ## ListResponse -/

namespace ListA

/-- The URN (src/assets/schemas/list_response.py:35). -/
def urn : Str := "urn:ietf:params:scim:api:messages:2.0:ListResponse".toList

/-- `"totalResults"` -/
def totalWord : Str := "totalResults".toList
/-- `"startIndex"` -/
def startWord : Str := "startIndex".toList
/-- `"itemsPerPage"` -/
def itemsWord : Str := "itemsPerPage".toList
/-- `"Resources"` -/
def resourcesWord : Str := "Resources".toList

variable [PyEnv]

/-- `total_results` (src/assets/schemas/list_response.py:10-14). -/
def totalA : Attr := mkAttr { rep := { attr := totalWord }, type := .integer, required := true }
/-- `start_index` (src/assets/schemas/list_response.py:16-19). -/
def startA : Attr := mkAttr { rep := { attr := startWord }, type := .integer }
/-- `items_per_page` (src/assets/schemas/list_response.py:21-24). -/
def itemsA : Attr := mkAttr { rep := { attr := itemsWord }, type := .integer }
/-- `resources` (src/assets/schemas/list_response.py:26-29). -/
def resourcesA : Attr := mkAttr { rep := { attr := resourcesWord }, type := .unknown }

/-- `ListResponse` (src/assets/schemas/list_response.py:32-43), the attributes. -/
def schema : Schema := mkSchema urn [totalA, startA, itemsA, resourcesA]

/-- The name of an attribute of the list response. -/
def rep (name : Str) : AttrRep := { schema := urn, attr := name }

/-- `validate_items_per_page_consistency` (src/assets/schemas/list_response.py:117-136): `isinstance(x, int)` holds for
booleans. -/
def validateItems (n : Nat) (v : Val) : Issues :=
  let bad : Issues := (Issues.empty.add ⟨11, []⟩ true [.name itemsWord]).add ⟨11, []⟩ true [.name resourcesWord]
  match v with
  | .prim (.int i) => if i = n then {} else bad
  | .prim (.bool b) => if (if b then 1 else 0) = n then {} else bad
  | _ => {}

/-- Whether a value can be an element of a set: lists, dictionaries and containers are unhashable, as are the objects
of the library that define `__eq__` (`AttrRep`, and so on). -/
def hashable : Val → Bool
  | .prim _ | .missing | .invalid | .dt _ => true
  | _ => false

/-- `item.lower()` is among the given names, for an item that is a string. -/
def itemIn (known : List Str) : Val → Bool
  | .prim (.str s) => known.contains (lower s)
  | _ => false

/-- The position of the first schema whose URNs include all the items. -/
def firstCover (xs : List Val) (schemas : List Schema) : Option Nat :=
  schemas.findIdx? (fun s => xs.all (itemIn (s.schemas.map lower)))

/-- `_infer_schema_from_data` (src/assets/schemas/list_response.py:102-114): the position of the schema. -/
def infer (schemas : List Schema) (data : Val) : PyM (Option Nat) :=
  if !data.isCont then .ok none
  else match data.getItem (rep "schemas".toList) with
    | .error e => .error e
    | .ok (.list []) => .ok none
    | .ok (.list (x :: xs)) =>
      if (x :: xs).all hashable then .ok (firstCover (x :: xs) schemas) else .error .typeError
    | .ok _ => .ok none

/-- The loop of `get_schemas_for_resources` (src/assets/schemas/list_response.py:95-99). -/
def inferAll (schemas : List Schema) : List Val → PyM (List (Option Nat))
  | [] => .ok []
  | r :: rs => match infer schemas r with
    | .error e => .error e
    | .ok t => match inferAll schemas rs with
      | .error e => .error e
      | .ok ts => .ok (t :: ts)

/-- `get_schemas_for_resources` (src/assets/schemas/list_response.py:92-100), as positions. -/
def schemasFor (schemas : List Schema) (resources : List Val) : PyM (List (Option Nat)) :=
  if schemas.length = 1 then .ok (resources.map (fun _ => some 0)) else inferAll schemas resources

/-- The loop over the resources (src/assets/schemas/list_response.py:75-87). -/
def dumpLoop (schemas : List Schema) : Nat → List Val → List (Option Nat) → Issues → PyM (List Val × Issues)
  | i, r :: rs, t :: ts, issues =>
    match t.bind (fun t => schemas[t]?) with
    | none =>
      match dumpLoop schemas (i + 1) rs ts (issues.add ⟨27, []⟩ false [.name resourcesWord, .idx i]) with
      | .error e => .error e
      | .ok (ys, issues) => .ok (.invalid :: ys, issues)
    | some s => match s.dump r with
      | .error e => .error e
      | .ok (y, is) =>
        match dumpLoop schemas (i + 1) rs ts (issues.merge is [.name resourcesWord, .idx i]) with
        | .error e => .error e
        | .ok (ys, issues) => .ok (y :: ys, issues)
  | _, _, _, issues => .ok ([], issues)

/-- The check of `itemsPerPage` (src/assets/schemas/list_response.py:64-71). -/
def checkItems (data : Val) (n : Nat) (issues : Issues) : PyM Issues :=
  if issues.canProceed [[.name itemsWord]] then
    match data.getItem (rep itemsWord) with
    | .error e => .error e
    | .ok items => .ok (issues.merge (validateItems n items))
  else .ok issues

/-- The treatment of a list of resources (src/assets/schemas/list_response.py:64-90). -/
def dumpList (schemas : List Schema) (data : Val) (xs : List Val) (issues : Issues) : PyM (Val × Issues) :=
  match checkItems data xs.length issues with
  | .error e => .error e
  | .ok issues => match schemasFor schemas xs with
    | .error e => .error e
    | .ok ids => match dumpLoop schemas 0 xs ids issues with
      | .error e => .error e
      | .ok (ys, issues) => match data.setItem (rep resourcesWord) (.list ys) with
        | .error e => .error e
        | .ok data => .ok (data, issues)

/-- `ListResponse.dump` (src/assets/schemas/list_response.py:45-90). -/
def dump (schemas : List Schema) (data : Val) : PyM (Val × Issues) :=
  match schema.dump data with
  | .error e => .error e
  | .ok (data, issues) =>
    if !issues.canProceed then .ok (data, issues)
    else match data.getItem (rep resourcesWord) with
      | .error e => .error e
      | .ok .missing => .ok (data, issues)
      | .ok (.list xs) => dumpList schemas data xs issues
      | .ok _ => .ok (data, issues.add ⟨2, []⟩ false [.name resourcesWord])

end ListA

/-! ## SearchRequest -/

namespace SearchA

/-- The URN (src/assets/schemas/search_request.py:98). -/
def urn : Str := "urn:ietf:params:scim:api:messages:2.0:SearchRequest".toList

/-- `"attributes"` -/
def attributesWord : Str := "attributes".toList
/-- `"excludeAttributes"` -/
def excludeWord : Str := "excludeAttributes".toList
/-- `"sortBy"` -/
def sortByWord : Str := "sortBy".toList
/-- `"presence_checker"` -/
def checkerWord : Str := "presence_checker".toList
/-- `"sorter"` -/
def sorterWord : Str := "sorter".toList

variable [PyEnv]

/-- `parse_attr_rep` (src/assets/schemas/search_request.py:13-21); `fullmatch` on anything but a string raises
`TypeError`. -/
def parseRep : Proc := fun v =>
  match v with
  | .prim (.str s) => match AttrRep.parse s with
    | some r => .ok (.obj (.rep r), {})
    | none => .ok (.invalid, Issues.empty.add ⟨111, s⟩ false)
  | _ => .error .typeError

/-- The loop of `parse_attr_rep_multi` (src/assets/schemas/search_request.py:27-32). -/
def parseRepsLoop : Nat → List Val → Issues → PyM (List Val × Issues)
  | _, [], issues => .ok ([], issues)
  | i, x :: xs, issues => match parseRep x with
    | .error e => .error e
    | .ok (y, is) => match parseRepsLoop (i + 1) xs (issues.merge is [.idx i]) with
      | .error e => .error e
      | .ok (ys, issues) => .ok (y :: ys, issues)

/-- `parse_attr_rep_multi` (src/assets/schemas/search_request.py:24-33); the attribute hands over lists only. -/
def parseReps : Proc := fun v =>
  match v with
  | .list xs => match parseRepsLoop 0 xs {} with
    | .error e => .error e
    | .ok (ys, issues) => .ok (.list ys, issues)
  | _ => .error .typeError

/-- `Filter.parse` as a parser of an attribute. -/
def filterProc : Proc := fun v =>
  match v with
  | .prim (.str s) => match Filter.parse s with
    | .error e => .error e
    | .ok (some o, issues) => .ok (.obj (.filter o), issues)
    | .ok (none, issues) => .ok (.invalid, issues)
  | _ => .error .typeError

/-- `attributes` (src/assets/schemas/search_request.py:36-43). -/
def attributesA : Attr :=
  mkAttr { rep := { attr := attributesWord }, type := .string, multi := true, parsers := [parseReps] }
/-- `exclude_attributes` (src/assets/schemas/search_request.py:46-53). -/
def excludeA : Attr :=
  mkAttr { rep := { attr := excludeWord }, type := .string, multi := true, parsers := [parseReps] }
/-- `filter_` (src/assets/schemas/search_request.py:56-61). -/
def filterA : Attr := mkAttr { rep := { attr := "filter".toList }, type := .string, parsers := [filterProc] }
/-- `sort_by` (src/assets/schemas/search_request.py:64-69). -/
def sortByA : Attr := mkAttr { rep := { attr := sortByWord }, type := .string, parsers := [parseRep] }
/-- `sort_order` (src/assets/schemas/search_request.py:72-78). -/
def sortOrderA : Attr :=
  mkAttr { rep := { attr := "sortOrder".toList }, type := .string
           canonical := some [.str "ascending".toList, .str "descending".toList] }
/-- `start_index` (src/assets/schemas/search_request.py:81-85). -/
def startA : Attr := mkAttr { rep := { attr := "startIndex".toList }, type := .integer }
/-- `count` (src/assets/schemas/search_request.py:88-92). -/
def countA : Attr := mkAttr { rep := { attr := "count".toList }, type := .integer }

/-- `SearchRequest` (src/assets/schemas/search_request.py:95-108), the attributes. -/
def schema : Schema := mkSchema urn [attributesA, excludeA, filterA, sortByA, sortOrderA, startA, countA]

/-- The name of an attribute of the search request. -/
def rep (name : Str) : AttrRep := { schema := urn, attr := name }

/-- The names in a value. -/
def repsOf : Val → List AttrRep
  | .list xs => xs.filterMap (fun v => match v with
    | .obj (.rep r) => some r
    | _ => none)
  | _ => []

/-- The treatment of the requested attributes (src/assets/schemas/search_request.py:118-136).  A checker is made only
when `attributes` is given. -/
def addChecker (data : Val) (issues : Issues) : PyM (Val × Issues) :=
  match data.getItem (rep attributesWord) with
  | .error e => .error e
  | .ok incl => match data.getItem (rep excludeWord) with
    | .error e => .error e
    | .ok excl =>
      let issues := if incl.truthy && excl.truthy then
          (issues.add ⟨30, []⟩ false [.name attributesWord]).add ⟨30, []⟩ false [.name excludeWord]
        else issues
      if incl.truthy then
        match data.setItem { attr := checkerWord } (.obj (.checker { reps := repsOf incl, incl := some true })) with
        | .error e => .error e
        | .ok data => .ok (data, issues)
      else .ok (data, issues)

/-- The treatment of `sortBy` (src/assets/schemas/search_request.py:139-143): the sorter is descending, since a name is
never equal to `"ascending"`.  A truthy value that is no name cannot occur, the parser of the attribute yields names. -/
def addSorter (data : Val) : PyM Val :=
  match data.getItem (rep sortByWord) with
  | .error e => .error e
  | .ok by_ =>
    if by_.truthy then
      match by_ with
      | .obj (.rep r) => data.setItem { attr := sorterWord } (.obj (.sorter { rep := r, asc := false }))
      | _ => .error .typeError
    else .ok data

/-- `SearchRequest.parse` (src/assets/schemas/search_request.py:110-145). -/
def parse (data : Val) : PyM (Val × Issues) :=
  match schema.parse data with
  | .error e => .error e
  | .ok (data, issues) =>
    if !issues.canProceed then .ok (data, issues)
    else
      match if issues.canProceed [[.name attributesWord], [.name excludeWord]] then addChecker data issues
        else .ok (data, issues) with
      | .error e => .error e
      | .ok (data, issues) =>
        if issues.canProceed [[.name sortByWord]] then
          match addSorter data with
          | .error e => .error e
          | .ok data => .ok (data, issues)
        else .ok (data, issues)

end SearchA
end Scim
