import Verif.Model.Validators
import Verif.Model.Assets.Bulk

/-!
# Bulk operations (src/request_validators.py:943-1167)

The resource schemas are given with their plural names, in the order of the dictionaries the constructor fills.
-/

namespace Scim.V
open BulkA (requestRep responseRep)

/-- The methods for which `BulkOperations` has validators (src/request_validators.py:948-954). -/
inductive Method where
  | get | post | put | patch | delete
deriving DecidableEq, Repr

/-- `self._validators[method]`: `KeyError` for everything but the five names. -/
def methodOf (v : Val) : Option Method :=
  if v.isText BulkA.getWord then some .get
  else if v.isText BulkA.postWord then some .post
  else if v.isText BulkA.putWord then some .put
  else if v.isText BulkA.patchWord then some .patch
  else if v.isText BulkA.deleteWord then some .delete
  else none

/-- The resource schemas under their plural names: the dictionaries filled by `BulkOperations.__init__`
(src/request_validators.py:955-968). -/
def byName (schemas : List (Str × Schema)) : List (Str × Schema) := schemas.foldl (fun m p => aset p.1 p.2 m) []

variable [PyEnv]

/-- The location of the operations in the body. -/
def opsLoc : Loc := bodyLoc ++ [.name BulkA.opsWord]
/-- The location of a part of an operation. -/
def opPartLoc (i : Nat) (name : Str) : Loc := bodyLoc ++ [.name BulkA.opsWord, .idx i, .name name]

/-! ## Requests -/

/-- `path.split("/", 1)[1]` and `path.split("/", 2)[1]` (src/request_validators.py:1004-1007). -/
def resourceName (method : Val) : Val → PyM Str
  | .prim (.str p) =>
    match p.dropWhile (· ≠ '/') with
    | [] => .error .indexError
    | _ :: r => .ok (if method.isText BulkA.postWord then r else r.takeWhile (· ≠ '/'))
  | _ => .error .attributeError

/-- `validator.parse_request(body=data_item)` (src/request_validators.py:1016); the loop skips `DELETE`. -/
def parseOp (m : Method) (s : Schema) (data : Val) : PyM (Request × Issues) :=
  match m with
  | .get => parseGet data .null .null
  | .post => parsePost s data .null .null
  | .put => parsePut s data .null .null
  | .patch => parsePatch s data .null .null
  | .delete => .error .attributeError

/-- The data of an operation handed to the validator of its resource (src/request_validators.py:1016-1020). -/
def parseOpData (m : Method) (s : Schema) (i : Nat) (o data : Val) (issues : Issues) : PyM (Val × Issues) :=
  match parseOp m s data with
  | .error e => .error e
  | .ok (req, is) => match issues.mergeCopy (is.get bodyLoc) (opPartLoc i BulkA.dataWord) with
    | .error e => .error e
    | .ok issues => match o.setPlain BulkA.dataWord req.body with
      | .error e => .error e
      | .ok o => .ok (o, issues)

/-- An operation that is looked at (src/request_validators.py:1001-1020). -/
def parseOpFor (vs : List (Str × Schema)) (i : Nat) (o path data method : Val) (issues : Issues) :
    PyM (Val × Issues) :=
  if method.isText BulkA.deleteWord then .ok (o, issues)
  else match resourceName method path with
    | .error e => .error e
    | .ok name => match methodOf method with
      | none => .error .keyError
      | some m => match aget name vs with
        | none => .ok (o, issues.add ⟨36, []⟩ false (opPartLoc i BulkA.pathWord))
        | some s => parseOpData m s i o data issues

/-- One round of the loop (src/request_validators.py:994-1020).  The location of the method lacks `body`. -/
def bulkOne (vs : List (Str × Schema)) (i : Nat) (o path data method : Val) (issues : Issues) : PyM (Val × Issues) :=
  if issues.canProceed [opPartLoc i BulkA.pathWord, opPartLoc i BulkA.dataWord,
      [.name BulkA.opsWord, .idx i, .name BulkA.methodWord]] then
    parseOpFor vs i o path data method issues
  else .ok (o, issues)

/-- The loop over the operations (src/request_validators.py:993-1020), giving the operations with their new data. -/
def bulkLoop (vs : List (Str × Schema)) : Nat → List Val → List Val → List Val → List Val → Issues →
    PyM (List Val × Issues)
  | i, o :: os, path :: paths, data :: datas, method :: methods, issues =>
    match bulkOne vs i o path data method issues with
    | .error e => .error e
    | .ok (o', issues) => match bulkLoop vs (i + 1) os paths datas methods issues with
      | .error e => .error e
      | .ok (os', issues) => .ok (o' :: os', issues)
  | _, os, _, _, _, issues => .ok (os, issues)

/-- The comparison with `config.bulk.max_operations` (src/request_validators.py:1022-1027); `None` is not
comparable. -/
def checkMax (maxOps : Option Int) (n : Nat) (issues : Issues) : PyM Issues :=
  match maxOps with
  | none => .error .typeError
  | some m => .ok (if (n : Int) > m then issues.add ⟨37, []⟩ true opsLoc else issues)

/-- `BulkOperations.parse_request` once the lists are known (src/request_validators.py:993-1031). -/
def parseBulkOps (maxOps : Option Int) (vs : List (Str × Schema)) (body headers query : Val)
    (ops paths datas methods : List Val) (issues : Issues) : PyM (Request × Issues) :=
  match bulkLoop vs 0 ops paths datas methods issues with
  | .error e => .error e
  | .ok (ops, issues) => match body.setItem { attr := BulkA.opsWord } (.list ops) with
    | .error e => .error e
    | .ok body => match checkMax maxOps ops.length issues with
      | .error e => .error e
      | .ok issues => .ok ({ headers, query, body := if issues.hasIssues then .null else body }, issues)

/-- `BulkOperations.parse_request` from the parsed body on (src/request_validators.py:982-1031).  Whether it can
proceed is asked of the issues without the prefix `body`; lists that are not there are refused by `zip` with
`TypeError`. -/
def parseBulkBody (maxOps : Option Int) (vs : List (Str × Schema)) (body headers query : Val) (is : Issues)
    (issues : Issues) : PyM (Request × Issues) :=
  if !is.canProceed [opsLoc] then .ok ({ headers, query, body := .null }, issues)
  else match body.getItem (requestRep []), body.getItem (requestRep BulkA.pathWord),
      body.getItem (requestRep BulkA.dataWord), body.getItem (requestRep BulkA.methodWord) with
    | .ok (.list ops), .ok (.list paths), .ok (.list datas), .ok (.list methods) =>
      parseBulkOps maxOps vs body headers query ops paths datas methods issues
    | _, .error e, _, _ => .error e
    | _, _, .error e, _ => .error e
    | _, _, _, .error e => .error e
    | .error e, _, _, _ => .error e
    | _, _, _, _ => .error .typeError

/-- `BulkOperations.parse_request` (src/request_validators.py:973-1031). -/
def parseBulk (maxOps : Option Int) (vs : List (Str × Schema)) (body headers query : Val) : PyM (Request × Issues) :=
  match BulkA.requestSchema.parse body with
  | .error e => .error e
  | .ok (body, is) => match Checker.call {} body BulkA.requestSchema.attrs .response with
    | .error e => .error e
    | .ok is2 => parseBulkBody maxOps vs body headers query is ((Issues.empty.merge is bodyLoc).merge is2 bodyLoc)

/-! ## Responses -/

/-- The validator for a location, `None` without location; the loop variable keeps the last validator when no name
fits (src/request_validators.py:1082-1093).  Locations are strings, anything else is modelled as `TypeError`. -/
def validatorFor (vs : List (Str × Schema)) (i : Nat) (method location : Val) (issues : Issues) :
    PyM (Option (Method × Schema) × Issues) :=
  if location.truthy then
    match methodOf method with
    | none => .error .keyError
    | some m => match location with
      | .prim (.str l) => match vs.find? (fun p => isInfix ('/' :: p.1 ++ ['/']) l) with
        | some p => .ok (some (m, p.2), issues)
        | none =>
          .ok (vs.getLast?.map (fun p => (m, p.2)), issues.add ⟨36, []⟩ false (opPartLoc i BulkA.locationWord))
      | _ => .error .typeError
  else .ok (none, issues)

/-- `resource_validator.dump_response(body=…, status_code=…, headers={"Location": location})`
(src/request_validators.py:1117-1121); the validator of `DELETE` takes no body. -/
def dumpOp (m : Method) (s : Schema) (status : Int) (body location : Val) : PyM (Response × Issues) :=
  let headers : Val := .dict [(V.locationWord, location)]
  match m with
  | .get => dumpGet s status body headers none
  | .post => dumpPost s status body headers none
  | .put => dumpGet s status body headers none
  | .patch => dumpPatch s status body headers none
  | .delete => .error .typeError

/-- A failed operation (src/request_validators.py:1100-1115). -/
def failedOp (i : Nat) (o : Val) (status : Int) (response : Val) (issues : Issues) : PyM (Val × Issues) :=
  match dumpError status response .null with
  | .error e => .error e
  | .ok (resp, is) => match issues.mergeCopy (is.get bodyLoc) (opPartLoc i BulkA.responseWord) with
    | .error e => .error e
    | .ok issues => match issues.mergeCopy (is.get statusLoc) (opPartLoc i BulkA.statusWord) with
      | .error e => .error e
      | .ok issues => match o.setPlain BulkA.responseWord resp.body with
        | .error e => .error e
        | .ok o => .ok (o, issues)

/-- Two issues about an operation and its response that do not agree (src/request_validators.py:1125-1135,
1141-1150). -/
def disagree (i : Nat) (part : Str) (b : Bool) (issues : Issues) : Issues :=
  if b then
    (issues.add ⟨11, []⟩ true (opPartLoc i BulkA.responseWord ++ [.name "meta".toList, .name part])).add ⟨11, []⟩ true
      (opPartLoc i part)
  else issues

/-- The version in a response (src/request_validators.py:1137-1153), and the response to be stored. -/
def checkVersion (i : Nat) (version body : Val) (issues : Issues) : PyM (Val × Issues) :=
  if body.isNone then .ok (.null, issues)
  else match body.toCont.getName "meta.version".toList with
    | .error e => .error e
    | .ok v =>
      if version.truthy && v.truthy then
        match version.pyEq v with
        | .error e => .error e
        | .ok b => .ok (body.toCont, disagree i BulkA.versionWord (!b) issues)
      else .ok (body.toCont, issues)

/-- A successful operation (src/request_validators.py:1117-1156). -/
def doneOp (m : Method) (s : Schema) (i : Nat) (o : Val) (status : Int) (response location version : Val)
    (issues : Issues) : PyM (Val × Issues) :=
  match dumpOp m s status response location with
  | .error e => .error e
  | .ok (resp, is) =>
    let inMeta := is.popResult metaLocationLoc 11
    let is := is.pop metaLocationLoc 11
    let inHeader := is.popResult headerLocationLoc 11
    let is := is.pop headerLocationLoc 11
    match issues.mergeCopy (is.get bodyLoc) (opPartLoc i BulkA.responseWord) with
    | .error e => .error e
    | .ok issues =>
      match checkVersion i version resp.body
        (disagree i BulkA.locationWord (inMeta.hasIssues && inHeader.hasIssues) issues) with
      | .error e => .error e
      | .ok (rb, issues) => match o.setPlain BulkA.responseWord rb with
        | .error e => .error e
        | .ok o => .ok (o, issues)

/-- An operation with status and response (src/request_validators.py:1098-1156): the operation, the issues and
whether it counts as failed. -/
def outcomeOp (v : Option (Method × Schema)) (i : Nat) (o status response location version : Val) (issues : Issues) :
    PyM ((Val × Issues) × Bool) :=
  match status.pyInt with
  | .error e => .error e
  | .ok st =>
    if st ≥ 300 then (failedOp i o st response issues).map (fun r => (r, true))
    else match v with
      | some (m, s) => (doneOp m s i o st response location version issues).map (fun r => (r, false))
      | none => .ok ((o, issues), false)

/-- One round of the loop (src/request_validators.py:1074-1156). -/
def responseOne (vs : List (Str × Schema)) (i : Nat) (o method status response location version : Val)
    (issues : Issues) : PyM ((Val × Issues) × Bool) :=
  if !method.truthy then .ok ((o, issues), false)
  else match validatorFor vs i method location issues with
    | .error e => .error e
    | .ok (v, issues) =>
      if !(status.truthy && response.truthy) then .ok ((o, issues), false)
      else outcomeOp v i o status response location version issues

/-- The parts of an operation the loop runs over. -/
structure Parts where
  method : Val
  status : Val
  response : Val
  location : Val
  version : Val

/-- `zip(methods, statuses, responses, locations, versions)` -/
def zipParts : List Val → List Val → List Val → List Val → List Val → List Parts
  | m :: ms, s :: ss, r :: rs, l :: ls, v :: vs => ⟨m, s, r, l, v⟩ :: zipParts ms ss rs ls vs
  | _, _, _, _, _ => []

/-- The loop over the operations (src/request_validators.py:1071-1156): the operations with their new responses, the
issues and the number of failed operations. -/
def responsesLoop (vs : List (Str × Schema)) : Nat → List Val → List Parts → Issues → PyM ((List Val × Issues) × Nat)
  | i, o :: os, p :: ps, issues =>
    match responseOne vs i o p.method p.status p.response p.location p.version issues with
    | .error e => .error e
    | .ok ((o', issues), b) => match responsesLoop vs (i + 1) os ps issues with
      | .error e => .error e
      | .ok ((os', issues), n) => .ok ((o' :: os', issues), (if b then 1 else 0) + n)
  | _, os, _, issues => .ok ((os, issues), 0)

/-- The comparison with `fail_on_errors` (src/request_validators.py:1158-1163). -/
def checkFailures (fail : Option Int) (n : Nat) (issues : Issues) : Issues :=
  match fail with
  | none => issues
  | some f => if (n : Int) > f then issues.add ⟨38, []⟩ true opsLoc else issues

/-- `BulkOperations.dump_response` once the lists are known (src/request_validators.py:1071-1167). -/
def dumpBulkOps (vs : List (Str × Schema)) (fail : Option Int) (body headers : Val) (ops : List Val)
    (parts : List Parts) (issues : Issues) : PyM (Response × Issues) :=
  match responsesLoop vs 0 ops parts issues with
  | .error e => .error e
  | .ok ((ops, issues), n) => match body.setItem { attr := BulkA.opsWord } (.list ops) with
    | .error e => .error e
    | .ok body =>
      let issues := checkFailures fail n issues
      .ok ({ headers, body := if issues.hasIssues then .null else body }, issues)

/-- `BulkOperations.dump_response` from the dumped body on (src/request_validators.py:1053-1167). -/
def dumpBulkBody (vs : List (Str × Schema)) (fail : Option Int) (body headers : Val) (issues : Issues) :
    PyM (Response × Issues) :=
  if !issues.canProceed [opsLoc] then .ok ({ headers, body := .null }, issues)
  else match body.getItem (requestRep []), body.getItem (responseRep BulkA.statusWord),
      body.getItem (responseRep BulkA.responseWord), body.getItem (responseRep BulkA.locationWord),
      body.getItem (requestRep BulkA.methodWord), body.getItem (responseRep BulkA.versionWord) with
    | .ok (.list ops), .ok (.list ss), .ok (.list rs), .ok (.list ls), .ok (.list ms), .ok (.list vers) =>
      dumpBulkOps vs fail body headers ops (zipParts ms ss rs ls vers) issues
    | _, .error e, _, _, _, _ => .error e
    | _, _, .error e, _, _, _ => .error e
    | _, _, _, .error e, _, _ => .error e
    | _, _, _, _, .error e, _ => .error e
    | _, _, _, _, _, .error e => .error e
    | .error e, _, _, _, _, _ => .error e
    | _, _, _, _, _, _ => .error .typeError

/-- `BulkOperations.dump_response` (src/request_validators.py:1033-1167).  The body that is returned is a container,
not a dictionary. -/
def dumpBulk (vs : List (Str × Schema)) (status : Int) (body headers : Val) (fail : Option Int) :
    PyM (Response × Issues) :=
  match BulkA.responseSchema.dump body with
  | .error e => .error e
  | .ok (body, is) => match Checker.call {} body BulkA.responseSchema.attrs .response with
    | .error e => .error e
    | .ok is2 =>
      dumpBulkBody vs fail body headers
        (((Issues.empty.merge is bodyLoc).merge is2 bodyLoc).merge (statusIs 200 status) statusLoc)

end Scim.V
