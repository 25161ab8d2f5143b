import Verif.Model.ListChecks
import Verif.Model.Assets.Messages

/-!
# Request and response validators (src/request_validators.py)

Headers and query strings are plain Python values; the caller's query string is not modified, the modified one is part
of the result.  A validator is given by the schema it was made for.
-/

namespace Scim

/-- `RequestData` (src/request_validators.py:25-29). -/
structure Request where
  headers : Val
  query : Val
  body : Val

/-- `ResponseData` (src/request_validators.py:32-35). -/
structure Response where
  headers : Val
  body : Val

namespace V

/-- The location `("body",)`. -/
def bodyLoc : Loc := [.name "body".toList]
/-- The location `("headers",)`. -/
def headersLoc : Loc := [.name "headers".toList]
/-- The location `("status",)`. -/
def statusLoc : Loc := [.name "status".toList]
/-- The location `("query_string",)`. -/
def queryLoc : Loc := [.name "query_string".toList]
/-- `"Location"` -/
def locationWord : Str := "Location".toList
/-- `("headers", "Location")` -/
def headerLocationLoc : Loc := [.name "headers".toList, .name "Location".toList]
/-- `("body", "meta", "location")` -/
def metaLocationLoc : Loc := [.name "body".toList, .name "meta".toList, .name "location".toList]
/-- `"attributes"` -/
def attributesWord : Str := "attributes".toList
/-- `"excludeAttributes"` -/
def excludeWord : Str := "excludeAttributes".toList
/-- `"presence_checker"` -/
def checkerWord : Str := "presence_checker".toList
/-- `"filter"` -/
def filterWord : Str := "filter".toList
/-- `"sorter"` -/
def sorterWord : Str := "sorter".toList
/-- `"sortBy"` -/
def sortByWord : Str := "sortBy".toList
/-- `"sortOrder"` -/
def sortOrderWord : Str := "sortOrder".toList
/-- `"ascending"` -/
def ascendingWord : Str := "ascending".toList
/-- `"count"` -/
def countWord : Str := "count".toList
/-- `"startIndex"` -/
def startWord : Str := "startIndex".toList

variable [PyEnv]

/-- `str(n)` for an integer (Python's limit on the number of digits is not modelled). -/
def intText (n : Int) : Str := (toString n).toList

/-! ## Small checks -/

/-- `validate_error_status_code_consistency` (src/request_validators.py:82-99). -/
def errorStatusMatches (name : Str) (inBody : Val) (status : Int) : PyM Issues :=
  match (Val.str (intText status)).pyEq inBody with
  | .error e => .error e
  | .ok b => .ok (if b then {} else
      (Issues.empty.add ⟨13, []⟩ true (bodyLoc ++ [.name name])).add ⟨13, []⟩ true statusLoc)

/-- `validate_error_status_code` (src/request_validators.py:102-110). -/
def errorStatusRange (status : Int) : Issues :=
  if 200 ≤ status ∧ status < 600 then {} else Issues.empty.add ⟨12, []⟩ true statusLoc

/-- `headers or {}` -/
def orDict (v : Val) : Val := if v.truthy then v else .dict []

/-- `"Location" in headers` for a dictionary. -/
def hasLocation : Val → Bool
  | .dict kvs => (aget locationWord kvs).isSome
  | _ => false

/-- `validate_resource_location_in_header` (src/request_validators.py:113-126). -/
def locationInHeader (headers : Val) (required : Bool) : Issues :=
  if !hasLocation (orDict headers) && required then Issues.empty.add ⟨10, []⟩ false [.name locationWord] else {}

/-- `validate_resource_location_consistency` (src/request_validators.py:129-145). -/
def locationsMatch (inMeta inHeader : Val) : PyM Issues :=
  match inMeta.pyEq inHeader with
  | .error e => .error e
  | .ok b => .ok (if b then {} else
      (Issues.empty.add ⟨11, []⟩ true metaLocationLoc).add ⟨11, []⟩ true headerLocationLoc)

/-- `validate_status_code` (src/request_validators.py:148-155). -/
def statusIs (expected actual : Int) : Issues :=
  if expected = actual then {} else Issues.empty.add ⟨16, []⟩ true

/-! ## Bodies -/

/-- The presence check merged at the body, when it can proceed (src/request_validators.py:61-65, 167-173, 200-208). -/
def checkBody (c : Checker) (attrs : Attributes) (d : Direction) (body : Val) (issues : Issues) : PyM Issues :=
  if issues.canProceed [bodyLoc] then
    match c.call body attrs d with
    | .error e => .error e
    | .ok is => .ok (issues.merge is bodyLoc)
  else .ok issues

/-- The end of a response: `body.to_dict() if not issues.has_issues() else None`. -/
def finish (headers body : Val) (issues : Issues) : Response × Issues :=
  ({ headers, body := if issues.hasIssues then .null else body.toDict }, issues)

/-- The status of an error compared to that of the response (src/request_validators.py:66-74). -/
def errorStatus (body : Val) (status : Int) (issues : Issues) : PyM Issues :=
  match ErrorA.schema.attrs.getTop ErrorA.statusWord with
  | none => .error .attributeError
  | some a =>
    if issues.canProceed [bodyLoc ++ a.rep.loc] then
      match body.getItem a.rep with
      | .error e => .error e
      | .ok v => match errorStatusMatches a.rep.attr v status with
        | .error e => .error e
        | .ok is => .ok (issues.merge is)
    else .ok issues

/-- `Error.dump_response` (src/request_validators.py:49-79). -/
def dumpError (status : Int) (body headers : Val) : PyM (Response × Issues) :=
  match ErrorA.schema.dump body with
  | .error e => .error e
  | .ok (body, is) => match checkBody {} ErrorA.schema.attrs .response body (Issues.empty.merge is bodyLoc) with
    | .error e => .error e
    | .ok issues => match errorStatus body status issues with
      | .error e => .error e
      | .ok issues => .ok (finish headers body (issues.merge (errorStatusRange status)))

/-- `_parse_body` (src/request_validators.py:158-174), for a schema given by its `parse` and its attributes. -/
def parseBody (parse : Val → PyM (Val × Issues)) (attrs : Attributes) (body : Val) (ignore : List AttrRep := []) :
    PyM (Val × Issues) :=
  match parse body with
  | .error e => .error e
  | .ok (body, is) => match checkBody { ignore } attrs .request body (Issues.empty.merge is bodyLoc) with
    | .error e => .error e
    | .ok issues => .ok (body, issues)

/-- `headers.get("Location")`; only dictionaries have `get`. -/
def getLocation : Val → PyM Val
  | .dict kvs => .ok ((aget locationWord kvs).getD .null)
  | _ => .error .attributeError

/-- The comparison of locations (src/request_validators.py:209-220). -/
def checkLocations (s : Schema) (headers body : Val) (issues : Issues) : PyM Issues :=
  match s.attrs.getSub "meta".toList "location".toList with
  | none => .error .attributeError
  | some a => match getLocation headers with
    | .error e => .error e
    | .ok loc =>
      if issues.canProceed [bodyLoc ++ a.rep.loc, headerLocationLoc] && !loc.isNone then
        match body.getItem a.rep with
        | .error e => .error e
        | .ok v => match locationsMatch v loc with
          | .error e => .error e
          | .ok is => .ok (issues.merge is)
      else .ok issues

/-- `_dump_resource_output_body` (src/request_validators.py:177-223). -/
def dumpResource (s : Schema) (locRequired : Bool) (expected status : Int) (body headers : Val) (c : Option Checker) :
    PyM (Response × Issues) :=
  match s.dump body with
  | .error e => .error e
  | .ok (body, is) =>
    let issues := Issues.empty.merge is bodyLoc
    let issues := issues.merge (locationInHeader (orDict headers) locRequired) headersLoc
    let issues := issues.merge (statusIs expected status) statusLoc
    match checkBody (c.getD {}) s.attrs .response body issues with
    | .error e => .error e
    | .ok issues => match checkLocations s (orDict headers) body issues with
      | .error e => .error e
      | .ok issues => .ok (finish (orDict headers) body issues)

/-! ## Query strings -/

/-- The names given by a value of `attributes` or `excludeAttributes`: a non-empty string is split at the commas
(src/request_validators.py:401-406). -/
def splitNames : Val → Val
  | .prim (.str (c :: cs)) => .list ((splitChar ',' (c :: cs)).map Val.str)
  | v => v

/-- The strings of a list; `fullmatch` on anything else raises `TypeError`. -/
def strings : List Val → PyM (List Str)
  | [] => .ok []
  | .prim (.str s) :: r => match strings r with
    | .error e => .error e
    | .ok t => .ok (s :: t)
  | _ :: _ => .error .typeError

/-- `AttributePresenceChecker.parse` of requested attributes (src/request_validators.py:429-431). -/
def parseNamesAs (names : List Val) (incl : Bool) : PyM (Val × Issues) :=
  match strings names with
  | .error e => .error e
  | .ok ss => match Checker.parse ss (some incl) with
    | (c, is) =>
      .ok (match c with
        | some c => .obj (.checker c)
        | none => .invalid,
      Issues.empty.merge is [.name (if incl then attributesWord else excludeWord)])

/-- `parse_requested_attributes` (src/request_validators.py:400-431) on the two lists. -/
def requested (incl excl : Val) : PyM (Val × Issues) :=
  match incl, excl with
  | .list [], .list [] => .ok (.null, {})
  | .list (x :: xs), .list [] => parseNamesAs (x :: xs) true
  | .list [], .list (x :: xs) => parseNamesAs (x :: xs) false
  | .list (_ :: _), .list (_ :: _) =>
    .ok (.invalid, (Issues.empty.add ⟨30, []⟩ false [.name attributesWord]).add ⟨30, []⟩ false [.name excludeWord])
  | _, _ => .ok (.invalid, {})

/-- `parse_requested_attributes` (src/request_validators.py:400-431). -/
def parseRequested (q : List (Str × Val)) : PyM (Val × Issues) :=
  requested (splitNames ((aget attributesWord q).getD (.list []))) (splitNames ((aget excludeWord q).getD (.list [])))

/-- The treatment of the query string common to GET, PUT, POST and PATCH of a resource
(src/request_validators.py:243-248, 278-283, 324-329, 821-827). -/
def parseQuery (query : Val) : PyM (Val × Issues) :=
  match query with
  | .dict q => match parseRequested q with
    | .error e => .error e
    | .ok (c, is) =>
      .ok (.dict (if is.hasIssues then q else aset checkerWord c q), Issues.empty.merge is queryLoc)
  | v => .ok (v, {})

/-- `parse_request_sorting` (src/request_validators.py:365-381). -/
def parseSorting (q : List (Str × Val)) : Val × Issues :=
  match (aget sortByWord q).getD .null with
  | .prim (.str s) =>
    match SorterCfg.parse s (((aget sortOrderWord q).getD (.str ascendingWord)).isText ascendingWord) with
    | (some c, is) => (.obj (.sorter c), is)
    | (none, is) => (.invalid, is)
  | .prim .none => (.invalid, {})
  | _ => (.invalid, Issues.empty.add ⟨2, []⟩ false)

/-- `parse_request_filtering` (src/request_validators.py:384-394). -/
def parseFiltering (q : List (Str × Val)) : PyM (Val × Issues) :=
  match (aget filterWord q).getD .null with
  | .prim (.str s) => match Filter.parse s with
    | .error e => .error e
    | .ok (some o, is) => .ok (.obj (.filter o), is)
    | .ok (none, is) => .ok (.invalid, is)
  | .prim .none => .ok (.invalid, {})
  | _ => .ok (.invalid, Issues.empty.add ⟨2, []⟩ false)

/-- `query_string[name] = int(value)` for a value that is there (src/request_validators.py:595-617). -/
def parseNumber (name : Str) (q : List (Str × Val)) (issues : Issues) : PyM (List (Str × Val) × Issues) :=
  match (aget name q).getD .null with
  | .prim .none => .ok (q, issues)
  | v => match v.pyInt with
    | .ok i => .ok (aset name (.int i) q, issues)
    | .error e =>
      if e.isValueError then .ok (q, issues.add ⟨2, []⟩ false (queryLoc ++ [.name name])) else .error e

/-- The part of `_parse_resources_get_request` for dictionaries (src/request_validators.py:573-618). -/
def parseListQuery (q : List (Str × Val)) : PyM (List (Str × Val) × Issues) :=
  match parseFiltering q with
  | .error e => .error e
  | .ok (f, is) =>
    let q := aset filterWord f q
    let issues := Issues.empty.merge is (queryLoc ++ [.name filterWord])
    let (srt, is) := parseSorting q
    let q := aset sorterWord srt q
    let issues := issues.merge is (queryLoc ++ [.name "sortby".toList])
    match parseRequested q with
    | .error e => .error e
    | .ok (c, is) =>
      let q := if is.hasIssues then q else aset checkerWord c q
      let issues := issues.merge is queryLoc
      match parseNumber countWord q issues with
      | .error e => .error e
      | .ok (q, issues) => parseNumber startWord q issues

/-- `_parse_resources_get_request` (src/request_validators.py:552-618). -/
def parseListRequest (body headers query : Val) : PyM (Request × Issues) :=
  match query with
  | .dict q => match parseListQuery q with
    | .error e => .error e
    | .ok (q, issues) => .ok ({ headers, query := .dict q, body }, issues)
  | .prim .none => .ok ({ headers, query, body }, Issues.empty.add ⟨15, []⟩ false queryLoc)
  | _ => .ok ({ headers, query, body }, Issues.empty.add ⟨2, []⟩ false queryLoc)

/-! ## Resources -/

/-- `ResourceObjectGET.parse_request` (src/request_validators.py:240-249). -/
def parseGet (body headers query : Val) : PyM (Request × Issues) :=
  match parseQuery query with
  | .error e => .error e
  | .ok (query, issues) => .ok ({ headers, query, body }, issues)

/-- The loop deleting read-only attributes (src/request_validators.py:291-293). -/
def dropReadOnly : List Attr → Val → PyM Val
  | [], body => .ok body
  | a :: as, body =>
    if a.info.mutability == .readOnly then
      match body.delItem a.rep with
      | .error e => .error e
      | .ok body => dropReadOnly as body
    else dropReadOnly as body

/-- `ResourceObjectPUT.parse_request` (src/request_validators.py:275-295). -/
def parsePut (s : Schema) (body headers query : Val) : PyM (Request × Issues) :=
  match parseQuery query with
  | .error e => .error e
  | .ok (query, issues) => match parseBody s.parse s.attrs body with
    | .error e => .error e
    | .ok (body, is) =>
      let issues := issues.merge is
      if issues.hasIssues then .ok ({ headers, query, body := .null }, issues)
      else match dropReadOnly s.attrs.all body with
        | .error e => .error e
        | .ok body => .ok ({ headers, query, body }, issues)

/-- The required attributes the server issues (src/request_validators.py:331-334, 881-884). -/
def serverRequired (as : List Attr) : List AttrRep :=
  (as.filter (fun a => a.info.required && a.info.issuer == .server)).map Attr.rep

/-- `ResourcesPOST.parse_request` (src/request_validators.py:321-340). -/
def parsePost (s : Schema) (body headers query : Val) : PyM (Request × Issues) :=
  match parseQuery query with
  | .error e => .error e
  | .ok (query, issues) => match parseBody s.parse s.attrs body (serverRequired s.attrs.all) with
    | .error e => .error e
    | .ok (body, is) =>
      let issues := issues.merge is
      .ok ({ headers, query, body := if issues.hasIssues then .null else body }, issues)

/-- `ResourceObjectGET.dump_response` and `ResourceObjectPUT.dump_response` (src/request_validators.py:251-267,
297-313). -/
def dumpGet (s : Schema) (status : Int) (body headers : Val) (c : Option Checker) : PyM (Response × Issues) :=
  dumpResource s false 200 status body headers c

/-- `ResourcesPOST.dump_response` (src/request_validators.py:342-362). -/
def dumpPost (s : Schema) (status : Int) (body headers : Val) (c : Option Checker) : PyM (Response × Issues) :=
  if body.truthy then dumpResource s true 201 status body headers c
  else .ok ({ headers, body := .null }, {})

/-! ## PATCH and DELETE -/

/-- `path.complex_filter.operator.attr_rep`; logical operators have no name. -/
def filterRep (p : PatchPath) : PyM (Option AttrRep) :=
  match p.filter with
  | none => .ok none
  | some (.cplx r _) => .ok (some r)
  | some (.pr r) => .ok (some r)
  | some (.cmp _ r _) => .ok (some r)
  | some _ => .error .attributeError

/-- The loop over the items of a new value (src/request_validators.py:886-896). -/
def itemsLoop (c : Checker) (attrs : Attributes) (loc : Loc) : Nat → List Val → Issues → PyM Issues
  | _, [], issues => .ok issues
  | j, x :: xs, issues =>
    if issues.hasIssues [loc ++ [.idx j]] then itemsLoop c attrs loc (j + 1) xs issues
    else match c.call x attrs .request with
      | .error e => .error e
      | .ok is => itemsLoop c attrs loc (j + 1) xs (issues.merge is (loc ++ [.idx j]))

/-- `_check_complex_sub_attrs_presence` (src/request_validators.py:870-896).  Iterating over a
container raises `AttributeError` (its `__getitem__` is asked for 0); the values of multi-valued complex attributes
are neither strings nor dictionaries, iterating over anything else raises `TypeError`. -/
def checkNewItems (a : Option Attr) (value : Val) (loc : Loc) (issues : Issues) : PyM Issues :=
  match a with
  | none => .ok issues
  | some a =>
    if !(a.isComplex && a.info.multi) || value.isMissing then .ok issues
    else match value with
      | .list xs => itemsLoop { ignore := serverRequired a.subs } (Attributes.ofList a.subs) loc 0 xs issues
      | .cont _ _ => .error .attributeError
      | _ => .error .typeError

/-- The loop over the attributes of a value without path (src/request_validators.py:849-855). -/
def newItemsLoop (value : Val) (loc : Loc) : List Attr → Issues → PyM Issues
  | [], issues => .ok issues
  | a :: as, issues => match value.getItem a.rep with
    | .error e => .error e
    | .ok v => match checkNewItems (some a) v (loc ++ a.rep.loc) issues with
      | .error e => .error e
      | .ok issues => newItemsLoop value loc as issues

/-- One operation (src/request_validators.py:840-864). -/
def patchOne (r : Schema) (i : Nat) (op value path : Val) (issues : Issues) : PyM Issues :=
  if op.isText PatchA.removeWord then .ok issues
  else
    let loc : Loc := bodyLoc ++ [.name PatchA.opsWord, .idx i, .name PatchA.valWord]
    if path.isNoneOrMissing then newItemsLoop value loc r.attrs.all issues
    else match path with
      | .obj (.path p) => match filterRep p with
        | .error e => .error e
        | .ok fr => checkNewItems (r.attrs.getByPath p.rep fr p.subRep) value loc issues
      | _ => .error .attributeError

/-- The loop over the operations (src/request_validators.py:840-864). -/
def patchLoop (r : Schema) : Nat → List Val → List Val → List Val → Issues → PyM Issues
  | i, op :: ops, v :: vs, p :: ps, issues => match patchOne r i op v p issues with
    | .error e => .error e
    | .ok issues => patchLoop r (i + 1) ops vs ps issues
  | _, _, _, _, issues => .ok issues

/-- `ResourceObjectPATCH.parse_request` after the query string (src/request_validators.py:829-868). -/
def parsePatchBody (r : Schema) (body : Val) (issues : Issues) : PyM (Val × Issues) :=
  match parseBody (PatchA.parse r) PatchA.schema.attrs body with
  | .error e => .error e
  | .ok (body, is) =>
    let issues := issues.merge is
    if !issues.canProceed [bodyLoc ++ [.name PatchA.opsWord]] then .ok (.null, issues)
    else match body.getItem (PatchA.subRep PatchA.valWord), body.getItem (PatchA.subRep PatchA.pathWord),
        body.getItem (PatchA.subRep PatchA.opWord) with
      | .ok (.list vs), .ok (.list ps), .ok (.list ops) => match patchLoop r 0 ops vs ps issues with
        | .error e => .error e
        | .ok issues => .ok (if issues.hasIssues then .null else body, issues)
      | .error e, _, _ => .error e
      | _, .error e, _ => .error e
      | _, _, .error e => .error e
      | _, _, _ => .error .typeError

/-- `ResourceObjectPATCH.parse_request` (src/request_validators.py:818-868). -/
def parsePatch (r : Schema) (body headers query : Val) : PyM (Request × Issues) :=
  match parseQuery query with
  | .error e => .error e
  | .ok (query, issues) => match parsePatchBody r body issues with
    | .error e => .error e
    | .ok (body, issues) => .ok ({ headers, query, body }, issues)

/-- `ResourceObjectPATCH.dump_response` (src/request_validators.py:898-923). -/
def dumpPatch (s : Schema) (status : Int) (body headers : Val) (c : Option Checker) : PyM (Response × Issues) :=
  if status = 204 then
    .ok ({ headers, body := .null },
      if c.any (fun c => !c.reps.isEmpty) then Issues.empty.add ⟨16, []⟩ true statusLoc else {})
  else dumpResource s false 200 status body headers c

/-- `ResourceObjectDELETE.dump_response` (src/request_validators.py:926-940). -/
def dumpDelete (status : Int) (headers : Val) : Response × Issues :=
  ({ headers, body := .null }, if status = 204 then {} else Issues.empty.add ⟨16, []⟩ true statusLoc)

/-! ## Lists of resources -/

/-- The check of `startIndex` (src/request_validators.py:652-658). -/
def checkStart (start : Int) (body : Val) (issues : Issues) : PyM Issues :=
  if issues.canProceed [bodyLoc ++ [.name ListA.startWord]] then
    match body.getItem (ListA.rep ListA.startWord) with
    | .error e => .error e
    | .ok v =>
      if v.truthy then
        match validateStartIndex start v with
        | .error e => .error e
        | .ok is => .ok (issues.merge is (bodyLoc ++ [.name ListA.startWord]))
      else .ok issues
  else .ok issues

/-- The check of the pages (src/request_validators.py:683-696). -/
def checkPages (count : Option Int) (total : Val) (n : Nat) (body : Val) (issues : Issues) : PyM Issues :=
  if issues.canProceed [bodyLoc ++ [.name ListA.startWord], bodyLoc ++ [.name ListA.itemsWord]] then
    match body.getItem (ListA.rep ListA.startWord) with
    | .error e => .error e
    | .ok s => match body.getItem (ListA.rep ListA.itemsWord) with
      | .error e => .error e
      | .ok p => match validatePagination count total n s p with
        | .error e => .error e
        | .ok is => .ok (issues.merge is bodyLoc)
  else .ok issues

/-- The checks of the numbers (src/request_validators.py:673-696). -/
def checkNumbers (count : Option Int) (n : Nat) (body : Val) (issues : Issues) : PyM Issues :=
  if issues.canProceed [bodyLoc ++ [.name ListA.totalWord]] then
    match body.getItem (ListA.rep ListA.totalWord) with
    | .error e => .error e
    | .ok total => match validateNumber count total n with
      | .error e => .error e
      | .ok is => checkPages count total n body (issues.merge is (bodyLoc ++ [.name ListA.resourcesWord]))
  else .ok issues

/-- The check against a filter, if there is one (src/request_validators.py:702-706). -/
def filteredIf (schemas : List Schema) (ids : List (Option Nat)) (filter_ : Option Op) (xs : List Val) : PyM Issues :=
  match filter_ with
  | none => .ok {}
  | some o => validateFiltered xs o schemas ids false

/-- The check of the order, if a sorter is given (src/request_validators.py:707-711). -/
def sortedIf (schemas : List Schema) (ids : List (Option Nat)) (sorter : Option SorterCfg) (xs : List Val) :
    PyM Issues :=
  match sorter with
  | none => .ok {}
  | some s => validateSorted s xs (.many schemas ids)

/-- The checks of the resources (src/request_validators.py:701-719). -/
def checkResources (schemas : List Schema) (filter_ : Option Op) (sorter : Option SorterCfg) (c : Option Checker)
    (xs : List Val) (issues : Issues) : PyM Issues :=
  match ListA.schemasFor schemas xs with
  | .error e => .error e
  | .ok ids =>
    match filteredIf schemas ids filter_ xs with
    | .error e => .error e
    | .ok is =>
      let issues := issues.merge is (bodyLoc ++ [.name ListA.resourcesWord])
      match sortedIf schemas ids sorter xs with
      | .error e => .error e
      | .ok is =>
        let issues := issues.merge is (bodyLoc ++ [.name ListA.resourcesWord])
        match validateResourcesPresence (c.getD {}) xs schemas ids with
        | .error e => .error e
        | .ok is => .ok (issues.merge is (bodyLoc ++ [.name ListA.resourcesWord]))

/-- The rest of `_dump_resources_get_response`, once the resources are known (src/request_validators.py:672-724).
Resources that are neither missing nor a list have been reported before; `len` of them is modelled as `TypeError`. -/
def dumpListRest (schemas : List Schema) (headers : Val) (count : Option Int) (filter_ : Option Op)
    (sorter : Option SorterCfg) (c : Option Checker) (body : Val) (xs : List Val) (issues : Issues) :
    PyM (Response × Issues) :=
  match checkNumbers count xs.length body issues with
  | .error e => .error e
  | .ok issues =>
    if issues.hasIssues [bodyLoc ++ [.name ListA.resourcesWord]] then .ok ({ headers, body := .null }, issues)
    else match checkResources schemas filter_ sorter c xs issues with
      | .error e => .error e
      | .ok issues => .ok (finish headers body issues)

/-- `_dump_resources_get_response` (src/request_validators.py:621-724), hence the responses of
`ServerRootResourceGET`, `ResourcesGET` and `SearchRequestPOST`. -/
def dumpList (schemas : List Schema) (status : Int) (body headers : Val) (start : Int) (count : Option Int)
    (filter_ : Option Op) (sorter : Option SorterCfg) (c : Option Checker) : PyM (Response × Issues) :=
  match ListA.dump schemas body with
  | .error e => .error e
  | .ok (body, is) =>
    let issues := Issues.empty.merge is bodyLoc
    if !issues.canProceed [bodyLoc] then .ok ({ headers, body := .null }, issues)
    else match Checker.call {} body ListA.schema.attrs .response with
      | .error e => .error e
      | .ok is =>
        let issues := issues.merge is bodyLoc
        let issues := issues.merge (statusIs 200 status) statusLoc
        match checkStart start body issues with
        | .error e => .error e
        | .ok issues =>
          if !issues.canProceed [bodyLoc ++ [.name ListA.resourcesWord]] then .ok ({ headers, body := .null }, issues)
          else match body.getItem (ListA.rep ListA.resourcesWord) with
            | .error e => .error e
            | .ok .missing => dumpListRest schemas headers count filter_ sorter c body [] issues
            | .ok (.list xs) => dumpListRest schemas headers count filter_ sorter c body xs issues
            | .ok _ => .error .typeError

/-- `SearchRequestPOST.parse_request` (src/request_validators.py:777-785). -/
def parseSearch (body headers query : Val) : PyM (Request × Issues) :=
  match SearchA.parse body with
  | .error e => .error e
  | .ok (body, is) =>
    .ok ({ headers, query, body := if is.hasIssues then .null else body }, Issues.empty.merge is bodyLoc)

/-- `_ServiceProviderConfig.parse_request` (src/request_validators.py:1176-1186). -/
def parseConfigQuery (headers query : Val) : Request × Issues :=
  ({ headers, query := .null, body := .null },
    match query with
    | .dict q => if (aget filterWord q).isSome then Issues.empty.add ⟨39, []⟩ false (queryLoc ++ [.name filterWord]) else {}
    | _ => {})

end V
end Scim
