import Verif.Model.Assets.Messages

/-!
# Bulk messages (src/assets/schemas/bulk_ops.py)
-/

namespace Scim.BulkA

/-- The URN of requests (src/assets/schemas/bulk_ops.py:132). -/
def requestUrn : Str := "urn:ietf:params:scim:api:messages:2.0:BulkRequest".toList
/-- The URN of responses (src/assets/schemas/bulk_ops.py:230). -/
def responseUrn : Str := "urn:ietf:params:scim:api:messages:2.0:BulkResponse".toList

/-- `"Operations"` -/
def opsWord : Str := "Operations".toList
/-- `"method"` -/
def methodWord : Str := "method".toList
/-- `"bulkId"` -/
def idWord : Str := "bulkId".toList
/-- `"version"` -/
def versionWord : Str := "version".toList
/-- `"path"` -/
def pathWord : Str := "path".toList
/-- `"data"` -/
def dataWord : Str := "data".toList
/-- `"location"` -/
def locationWord : Str := "location".toList
/-- `"status"` -/
def statusWord : Str := "status".toList
/-- `"response"` -/
def responseWord : Str := "response".toList
/-- `"GET"` -/
def getWord : Str := "GET".toList
/-- `"POST"` -/
def postWord : Str := "POST".toList
/-- `"PATCH"` -/
def patchWord : Str := "PATCH".toList
/-- `"PUT"` -/
def putWord : Str := "PUT".toList
/-- `"DELETE"` -/
def deleteWord : Str := "DELETE".toList

variable [PyEnv]

/-- `_RESOURCE_TYPE_REGEX.fullmatch(path)`: `/\w+` (src/assets/schemas/bulk_ops.py:10). -/
def isTypePath : Str → Bool
  | '/' :: s => isWordRun s
  | _ => false

/-- What may follow the name of the resource type in `_RESOURCE_OBJECT_REGEX`: a slash and no line break. -/
def isObjectRest : Str → Bool
  | '/' :: t => t.all (· ≠ '\n')
  | _ => false

/-- `_RESOURCE_OBJECT_REGEX.fullmatch(path)`: `/\w+/.*` (src/assets/schemas/bulk_ops.py:11). -/
def isObjectPath : Str → Bool
  | '/' :: s => !(s.takeWhile isWord).isEmpty && isObjectRest (s.dropWhile isWord)
  | _ => false

/-- `issues.add(issue=ValidationError.missing(), proceed=False, location=(i, name))` -/
def missingAt (i : Nat) (name : Str) (b : Bool) (issues : Issues) : Issues :=
  if b then issues.add ⟨15, []⟩ false [.idx i, .name name] else issues

/-- `_validate_operation_method_existence` merged at its location (src/assets/schemas/bulk_ops.py:14-22, 31-34,
143-146). -/
def methodExists (i : Nat) (method : Val) (issues : Issues) : Issues :=
  issues.merge (if method.isNoneOrMissing then Issues.empty.add ⟨15, []⟩ false else {}) [.idx i, .name methodWord]

/-- The check of the form of a path (src/assets/schemas/bulk_ops.py:52-68); `fullmatch` of anything but a string
raises `TypeError`. -/
def checkPath (i : Nat) (method path : Val) (issues : Issues) : PyM Issues :=
  if method.isText postWord then
    match path with
    | .prim (.str p) =>
      .ok (if isTypePath p then issues else issues.add ⟨34, []⟩ false [.idx i, .name pathWord])
    | _ => .error .typeError
  else if method.isText getWord || method.isText patchWord || method.isText putWord || method.isText deleteWord then
    match path with
    | .prim (.str p) =>
      .ok (if isObjectPath p then issues else issues.add ⟨35, []⟩ false [.idx i, .name pathWord])
    | _ => .error .typeError
  else .ok issues

/-- `method in ["GET", "DELETE"]`: the data is removed (src/assets/schemas/bulk_ops.py:42-43). -/
def dropData (method o : Val) : PyM Val :=
  if method.isText getWord || method.isText deleteWord then o.delItem { attr := dataWord } else .ok o

/-- The path of an operation (src/assets/schemas/bulk_ops.py:44-68). -/
def pathOrMissing (i : Nat) (method path : Val) (issues : Issues) : PyM Issues :=
  if path.isNoneOrMissing then .ok (issues.add ⟨15, []⟩ false [.idx i, .name pathWord])
  else checkPath i method path issues

/-- `method in ["POST", "PUT", "PATCH"]` -/
def hasData (method : Val) : Bool := method.isText postWord || method.isText putWord || method.isText patchWord

/-- One round of `validate_request_operations` (src/assets/schemas/bulk_ops.py:30-75). -/
def checkRequestOp (i : Nat) (o : Val) (issues : Issues) : PyM (Val × Issues) :=
  match o.getItem { attr := methodWord } with
  | .error e => .error e
  | .ok method =>
    let issues := methodExists i method issues
    match o.getItem { attr := idWord } with
    | .error e => .error e
    | .ok id =>
      let issues := missingAt i idWord (method.isText postWord && id.isNoneOrMissing) issues
      match dropData method o with
      | .error e => .error e
      | .ok o => match o.getItem { attr := pathWord } with
        | .error e => .error e
        | .ok path => match pathOrMissing i method path issues with
          | .error e => .error e
          | .ok issues => match o.getItem { attr := dataWord } with
            | .error e => .error e
            | .ok data => .ok (o, missingAt i dataWord (hasData method && data.isNoneOrMissing) issues)

/-- The loop of `validate_request_operations`. -/
def requestLoop : Nat → List Val → Issues → PyM (List Val × Issues)
  | _, [], issues => .ok ([], issues)
  | i, o :: os, issues => match checkRequestOp i o issues with
    | .error e => .error e
    | .ok (o', issues) => match requestLoop (i + 1) os issues with
      | .error e => .error e
      | .ok (os', issues) => .ok (o' :: os', issues)

/-- `validate_request_operations` (src/assets/schemas/bulk_ops.py:25-76); it is only called with lists. -/
def validateRequest : Proc := fun v =>
  match v with
  | .list os => match requestLoop 0 os {} with
    | .error e => .error e
    | .ok (os', issues) => .ok (.list os', issues)
  | _ => .error .typeError

/-- `_operation__method` (src/assets/schemas/bulk_ops.py:79-85). -/
def methodA : Attr :=
  mkAttr { rep := { attr := methodWord }, type := .string, required := true, validateCanon := true
           canonical := some [.str getWord, .str postWord, .str patchWord, .str putWord, .str deleteWord] }
/-- `_operation__bulk_id` (src/assets/schemas/bulk_ops.py:87-90). -/
def idA : Attr := mkAttr { rep := { attr := idWord }, type := .string }
/-- `_operation__version` (src/assets/schemas/bulk_ops.py:92-95). -/
def versionA : Attr := mkAttr { rep := { attr := versionWord }, type := .string }
/-- `_operation__path` (src/assets/schemas/bulk_ops.py:97-101). -/
def pathA : Attr := mkAttr { rep := { attr := pathWord }, type := .string, required := true }
/-- `_operation__data` (src/assets/schemas/bulk_ops.py:103-106). -/
def dataA : Attr := mkAttr { rep := { attr := dataWord }, type := .unknown }

/-- `request_operations` (src/assets/schemas/bulk_ops.py:109-121). -/
def requestOps : Attr :=
  mkComplex { rep := { attr := opsWord }, type := .complex, required := true, multi := true }
    [methodA, idA, versionA, pathA, dataA] [validateRequest]

/-- `fail_on_errors` (src/assets/schemas/bulk_ops.py:123-126). -/
def failA : Attr := mkAttr { rep := { attr := "failOnErrors".toList }, type := .integer }

/-- `BulkRequest` (src/assets/schemas/bulk_ops.py:129-134). -/
def requestSchema : Schema := mkSchema requestUrn [failA, requestOps]

/-- The part of `validate_response_operations` for a truthy status (src/assets/schemas/bulk_ops.py:156-169):
`location` and `response` of the operation. -/
def checkOutcome (i : Nat) (method status location response : Val) (issues : Issues) : PyM Issues :=
  match (if location.isNoneOrMissing && method.truthy && method.isText postWord then
      status.pyInt.map (fun n => decide (n < 300)) else .ok (location.isNoneOrMissing && method.truthy)) with
  | .error e => .error e
  | .ok b =>
    let issues := missingAt i locationWord b issues
    match (if response.isNoneOrMissing then status.pyInt.map (fun n => decide (n ≥ 300)) else .ok false) with
    | .error e => .error e
    | .ok b => .ok (missingAt i responseWord b issues)

/-- The status of an operation (src/assets/schemas/bulk_ops.py:155-175). -/
def checkStatus (i : Nat) (method status : Val) (o : Val) (issues : Issues) : PyM Issues :=
  if status.truthy then
    match o.getItem { attr := locationWord } with
    | .error e => .error e
    | .ok location => match o.getItem { attr := responseWord } with
      | .error e => .error e
      | .ok response => checkOutcome i method status location response issues
  else .ok (missingAt i statusWord status.isNoneOrMissing issues)

/-- One round of `validate_response_operations` (src/assets/schemas/bulk_ops.py:142-175). -/
def checkResponseOp (i : Nat) (o : Val) (issues : Issues) : PyM Issues :=
  match o.getItem { attr := methodWord } with
  | .error e => .error e
  | .ok method =>
    let issues := methodExists i method issues
    match o.getItem { attr := idWord } with
    | .error e => .error e
    | .ok id =>
      let issues := missingAt i idWord (method.isText postWord && id.isNoneOrMissing) issues
      match o.getItem { attr := statusWord } with
      | .error e => .error e
      | .ok status => checkStatus i method status o issues

/-- The loop of `validate_response_operations`. -/
def responseLoop : Nat → List Val → Issues → PyM Issues
  | _, [], issues => .ok issues
  | i, o :: os, issues => match checkResponseOp i o issues with
    | .error e => .error e
    | .ok issues => responseLoop (i + 1) os issues

/-- `validate_response_operations` (src/assets/schemas/bulk_ops.py:137-176). -/
def validateResponse : Proc := fun v =>
  match v with
  | .list os => match responseLoop 0 os {} with
    | .error e => .error e
    | .ok issues => .ok (.list os, issues)
  | _ => .error .typeError

/-- `_operation__location` (src/assets/schemas/bulk_ops.py:179-182). -/
def locationA : Attr := mkAttr { rep := { attr := locationWord }, type := .extRef }
/-- `_operation__response` (src/assets/schemas/bulk_ops.py:184-187). -/
def responseA : Attr := mkAttr { rep := { attr := responseWord }, type := .unknown }

/-- `_validate_status` (src/assets/schemas/bulk_ops.py:190-200). -/
def validateStatus : Proc := fun v =>
  match v.pyInt with
  | .error e => if e.isValueError then .ok (.invalid, Issues.empty.add ⟨1, []⟩ false) else .error e
  | .ok _ => .ok (v, {})

/-- `_operation__status` (src/assets/schemas/bulk_ops.py:203-208). -/
def statusA : Attr :=
  mkAttr { rep := { attr := statusWord }, type := .string, required := true, dumpers := [validateStatus] }

/-- `response_operations` (src/assets/schemas/bulk_ops.py:211-224). -/
def responseOps : Attr :=
  mkComplex { rep := { attr := opsWord }, type := .complex, required := true, multi := true }
    [methodA, idA, versionA, locationA, statusA, responseA] [] [validateResponse]

/-- `BulkResponse` (src/assets/schemas/bulk_ops.py:227-231). -/
def responseSchema : Schema := mkSchema responseUrn [responseOps]

/-- The names of the sub-attributes of a request, e.g. `self._request_schema.attrs.operations__path.rep`. -/
def requestRep (sub : Str) : AttrRep := { schema := requestUrn, attr := opsWord, sub }
/-- The names of the sub-attributes of a response, e.g. `self._response_schema.attrs.operations__status.rep`. -/
def responseRep (sub : Str) : AttrRep := { schema := responseUrn, attr := opsWord, sub }

end Scim.BulkA
