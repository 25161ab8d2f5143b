import Verif.Model.Schemas
import Verif.Model.Path

/-!
# Patch operations (src/assets/schemas/patch_op.py)
-/

namespace Scim

/-- `v == "text"` -/
def Val.isText (v : Val) (s : Str) : Bool :=
  match v with
  | .prim (.str t) => t == s
  | _ => false

namespace PatchA

/-- The URN of the schema (src/assets/schemas/patch_op.py:80). -/
def urn : Str := "urn:ietf:params:scim:api:messages:2.0:PatchOp".toList

/-- `"Operations"` -/
def opsWord : Str := "Operations".toList
/-- `"op"` -/
def opWord : Str := "op".toList
/-- `"path"` -/
def pathWord : Str := "path".toList
/-- `"value"` -/
def valWord : Str := "value".toList
/-- `"add"` -/
def addWord : Str := "add".toList
/-- `"remove"` -/
def removeWord : Str := "remove".toList
/-- `"replace"` -/
def replaceWord : Str := "replace".toList

variable [PyEnv]

/-- `PatchPath.parse` as a parser of an attribute; anything but a string raises `TypeError`. -/
def pathProc : Proc := fun v =>
  match v with
  | .prim (.str s) => match PatchPath.parse s with
    | .error e => .error e
    | .ok (some p, issues) => .ok (.obj (.path p), issues)
    | .ok (none, issues) => .ok (.invalid, issues)
  | _ => .error .typeError

/-- `_operations_op` (src/assets/schemas/patch_op.py:10-16). -/
def opAttr : Attr :=
  mkAttr { rep := { attr := opWord }, type := .string, required := true, validateCanon := true
           canonical := some [.str addWord, .str removeWord, .str replaceWord] }

/-- `_operations_path` (src/assets/schemas/patch_op.py:19-24). -/
def pathAttr : Attr := mkAttr { rep := { attr := pathWord }, type := .string, parsers := [pathProc] }

/-- `_operations_value` (src/assets/schemas/patch_op.py:27-30). -/
def valueAttr : Attr := mkAttr { rep := { attr := valWord }, type := .unknown }

/-- `path and path.complex_filter is not None and path.complex_filter_attr_rep is None`
(src/assets/schemas/patch_op.py:55); values that are neither paths nor false have no such attribute. -/
def filterWithoutSub : Val → PyM Bool
  | .obj (.path p) => .ok (p.filter.isSome && p.subRep.isNone)
  | v => if v.truthy then .error .attributeError else .ok false

/-- One round of the loop of `validate_operations` (src/assets/schemas/patch_op.py:37-60). -/
def validateOperation (i : Nat) (o : Val) (issues : Issues) : PyM (Val × Issues) :=
  match o.getItem { attr := opWord } with
  | .error e => .error e
  | .ok type => match o.getItem { attr := pathWord } with
    | .error e => .error e
    | .ok path => match o.getItem { attr := valWord } with
      | .error e => .error e
      | .ok value =>
        if type.isText removeWord && path.isNoneOrMissing then
          match o.delItem { attr := valWord } with
          | .error e => .error e
          | .ok o' => .ok (o', issues.add ⟨15, []⟩ false [.idx i, .name pathWord])
        else if type.isText addWord then
          let issues := if value.isNoneOrMissing then issues.add ⟨15, []⟩ false [.idx i, .name valWord] else issues
          match filterWithoutSub path with
          | .error e => .error e
          | .ok b => .ok (o, if b then issues.add ⟨305, []⟩ false [.idx i, .name pathWord] else issues)
        else .ok (o, issues)

/-- The loop of `validate_operations`. -/
def validateOpsLoop : Nat → List Val → Issues → PyM (List Val × Issues)
  | _, [], issues => .ok ([], issues)
  | i, o :: os, issues => match validateOperation i o issues with
    | .error e => .error e
    | .ok (o', issues) => match validateOpsLoop (i + 1) os issues with
      | .error e => .error e
      | .ok (os', issues) => .ok (o' :: os', issues)

/-- `validate_operations` (src/assets/schemas/patch_op.py:33-61). -/
def validateOperations : Proc := fun v =>
  match v with
  | .list os => match validateOpsLoop 0 os {} with
    | .error e => .error e
    | .ok (os', issues) => .ok (.list os', issues)
  | _ => .error .typeError

/-- `operations` (src/assets/schemas/patch_op.py:64-74). -/
def operations : Attr :=
  mkComplex { rep := { attr := opsWord }, type := .complex, required := true, multi := true }
    [opAttr, pathAttr, valueAttr] [validateOperations]

/-- The schema itself (src/assets/schemas/patch_op.py:77-83). -/
def schema : Schema := mkSchema urn [operations]

/-- The names of the bound sub-attributes, e.g. `self.attrs.operations__op.rep`. -/
def subRep (sub : Str) : AttrRep := { schema := urn, attr := opsWord, sub }

/-- The condition of `validate_operation_path` (src/assets/schemas/patch_op.py:252-255). -/
def undeclared (r : Schema) (p : PatchPath) : Bool :=
  (r.attrs.get p.rep).isNone || p.subRep.any (fun s => (r.attrs.get s).isNone)

/-- `validate_operation_path` (src/assets/schemas/patch_op.py:250-260). -/
def validatePath (r : Schema) (p : PatchPath) : Issues :=
  if undeclared r p then Issues.empty.add ⟨303, []⟩ false else {}

/-- The issues of a path that may be absent (src/assets/schemas/patch_op.py:168-169). -/
def pathIssues (r : Schema) : Val → Issues
  | .obj (.path p) => validatePath r p
  | _ => {}

/-- `issues.add(attribute_can_not_be_modified(), proceed=True, location=path_location)` -/
def issue304 (b : Bool) (issues : Issues) : Issues :=
  if b then issues.add ⟨304, []⟩ true [.name pathWord] else issues
/-- `issues.add(attribute_can_not_be_deleted(), proceed=True, location=path_location)` -/
def issue306 (b : Bool) (issues : Issues) : Issues :=
  if b then issues.add ⟨306, []⟩ true [.name pathWord] else issues

/-- `_parse_remove_operation` (src/assets/schemas/patch_op.py:119-162).  `Missing`, `None` and `Invalid` have no
`attr_rep`. -/
def parseRemove (r : Schema) (path : Val) : PyM (Val × Issues) :=
  match path with
  | .obj (.path p) =>
    let issues := validatePath r p
    if issues.hasIssues then .ok (.invalid, issues)
    else match r.attrs.get p.rep with
      | none => .error .attributeError
      | some a =>
        let out : Val := Val.toCont (.dict [(opWord, .str removeWord), (pathWord, path)])
        match p.subRep with
        | none =>
          let issues := issue304 (a.info.mutability == .readOnly) issues
          .ok (out, issue306 (a.info.required && !a.isComplex) issues)
        | some s => match r.attrs.get s with
          | none => .error .attributeError
          | some sa =>
            let issues := issue306 sa.info.required issues
            .ok (out, issue304 (a.info.mutability == .readOnly || sa.info.mutability == .readOnly) issues)
  | _ => .error .attributeError

/-- The location used for a read-only attribute (src/assets/schemas/patch_op.py:194-198). -/
def modLoc (a : Attr) : Loc :=
  let l : Loc := [.name a.rep.attr]
  let l := if a.rep.sub.isEmpty then l else l ++ [.name a.rep.sub]
  if a.rep.ext then .name a.rep.schema :: l else l

/-- The loop over the attributes for a value without path (src/assets/schemas/patch_op.py:189-203). -/
def readOnlyLoop (value : Val) : List Attr → Issues → PyM Issues
  | [], issues => .ok issues
  | a :: as, issues => match value.getItem a.rep with
    | .error e => .error e
    | .ok v =>
      readOnlyLoop value as
        (if !v.isMissing && a.info.mutability == .readOnly then issues.add ⟨304, []⟩ false (modLoc a) else issues)

/-- The loop over the sub-attributes of a complex value (src/assets/schemas/patch_op.py:235-246).  The location uses
the name of the sub-attribute's sub-attribute, which is empty. -/
def readOnlySubs (value : Val) : List Attr → Issues → PyM Issues
  | [], issues => .ok issues
  | s :: ss, issues =>
    if s.info.mutability != .readOnly then readOnlySubs value ss issues
    else match value.getItem s.rep with
      | .error e => .error e
      | .ok v => readOnlySubs value ss (if v.isMissing then issues else issues.add ⟨304, []⟩ false [.name s.rep.sub])

/-- `_parse_update_attr_value` (src/assets/schemas/patch_op.py:215-247). -/
def parseUpdate (r : Schema) (rep : AttrRep) (value : Val) : PyM (Val × Issues) :=
  match r.attrs.get rep with
  | none => .ok (.invalid, {})
  | some a =>
    if a.info.mutability == .readOnly then .ok (.invalid, Issues.empty.add ⟨304, []⟩ false)
    else match a.process .parse value with
      | .error e => .error e
      | .ok (parsed, issues) =>
        if issues.hasIssues then .ok (parsed, Issues.empty.merge issues)
        else if a.isComplex && !a.info.multi then
          match readOnlySubs parsed a.subs {} with
          | .error e => .error e
          | .ok issues => .ok (parsed, issues)
        else .ok (parsed, {})

/-- `_parse_operation_value` (src/assets/schemas/patch_op.py:181-213). -/
def parseValue (r : Schema) (path : Val) (value : Val) : PyM (Val × Issues) :=
  match path with
  | .obj (.path p) =>
    match p.filter, p.subRep with
    | some _, some s =>
      if (r.attrs.get p.rep).any Attr.isComplex then parseUpdate r s value else parseUpdate r p.rep value
    | _, _ => parseUpdate r p.rep value
  | _ =>
    if path.isNoneOrMissing then
      match r.parse value with
      | .error e => .error e
      | .ok (value, issues) =>
        let issues := ((issues.pop schemasLoc 27).pop schemasLoc 28).pop schemasLoc 29
        match readOnlyLoop value r.attrs.all issues with
        | .error e => .error e
        | .ok issues => .ok (value, issues)
    else .error .attributeError

/-- `_parse_add_or_replace_operation` (src/assets/schemas/patch_op.py:164-179). -/
def parseAddReplace (r : Schema) (op path value : Val) : PyM (Val × Issues) :=
  if (pathIssues r path).hasIssues then .ok (.invalid, Issues.empty.merge (pathIssues r path) [.name pathWord])
  else match parseValue r path value with
    | .error e => .error e
    | .ok (v, issues) =>
      .ok (Val.toCont (.dict [(opWord, op), (pathWord, path), (valWord, v)]), Issues.empty.merge issues [.name valWord])

/-- The location of an operation. -/
def opLoc (i : Nat) : Loc := [.name opsWord, .idx i]

/-- One operation (src/assets/schemas/patch_op.py:107-114). -/
def parseOne (r : Schema) (op path value : Val) : PyM (Val × Issues) :=
  if op.isText addWord || op.isText replaceWord then parseAddReplace r op path value else parseRemove r path

/-- The loop over the operations (src/assets/schemas/patch_op.py:95-114). -/
def opsLoop (r : Schema) : Nat → List Val → List Val → List Val → Issues → PyM (List Val × Issues)
  | i, op :: ops, path :: paths, value :: values, issues =>
    if issues.hasIssues [opLoc i] then
      match opsLoop r (i + 1) ops paths values issues with
      | .error e => .error e
      | .ok (rest, issues) =>
        .ok (Val.toCont (.dict [(opWord, op), (pathWord, path), (valWord, value)]) :: rest, issues)
    else match parseOne r op path value with
      | .error e => .error e
      | .ok (o, is) => match opsLoop r (i + 1) ops paths values (issues.merge is (opLoc i)) with
        | .error e => .error e
        | .ok (rest, issues) => .ok (o :: rest, issues)
  | _, _, _, _, issues => .ok ([], issues)

/-- `PatchOp(resource_schema).parse(data)` (src/assets/schemas/patch_op.py:85-117).  A value of `Operations` that
is not a list gives `Missing` for the names of its sub-attributes, which `zip` refuses with `TypeError`. -/
def parse (r : Schema) (data : Val) : PyM (Val × Issues) :=
  match schema.parse data with
  | .error e => .error e
  | .ok (data, issues) =>
    if !issues.canProceed [[.name opsWord]] then .ok (data, issues)
    else match data.getItem (subRep opWord) with
      | .error e => .error e
      | .ok ops => match data.getItem (subRep pathWord) with
        | .error e => .error e
        | .ok paths => match data.getItem (subRep valWord) with
          | .error e => .error e
          | .ok values => match ops, paths, values with
            | .list ops, .list paths, .list values => match opsLoop r 0 ops paths values issues with
              | .error e => .error e
              | .ok (parsed, issues) => match data.setItem { attr := opsWord } (.list parsed) with
                | .error e => .error e
                | .ok data => .ok (data, issues)
            | _, _, _ => .error .typeError

end PatchA
end Scim
