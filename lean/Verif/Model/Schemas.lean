import Verif.Model.Attributes

/-!
# Schemas (src/data/schemas.py)

`plural_name` is not modelled (nothing reads it).
-/

namespace Scim

/-- The `"bulkId"` keyword. -/
def bulkIdWord : Str := "bulkId".toList

/-- `bulk_id_validator` (src/data/schemas.py:19-27).  `in` on anything but a string raises `TypeError`
(for lists and dictionaries it would search the items; the validator is only ever attached to string
attributes). -/
def bulkIdValidator : Proc := fun v =>
  match v with
  | .prim (.str s) =>
    if isInfix bulkIdWord s then .ok (.invalid, blocking 7) else .ok (v, {})
  | _ => .error .typeError

section
variable [PyEnv]

/-- `schemas` (src/data/schemas.py:30-39). -/
def schemasAttr : Attr :=
  mkAttr { rep := { attr := "schemas".toList }, type := .uriRef, required := true, multi := true,
           mutability := .readOnly, returned := .always }

/-- `id_` (src/data/schemas.py:42-54). -/
def idAttr : Attr :=
  mkAttr { rep := { attr := "id".toList }, type := .string, required := true, issuer := .server,
           caseExact := true, mutability := .readOnly, returned := .always, uniqueness := .server,
           parsers := [bulkIdValidator], dumpers := [bulkIdValidator] }

/-- `external_id` (src/data/schemas.py:56-66). -/
def externalIdAttr : Attr :=
  mkAttr { rep := { attr := "externalId".toList }, type := .string, issuer := .client, caseExact := true }

/-- The sub-attributes of `meta` (src/data/schemas.py:68-128). -/
def metaSubs : List Attr :=
  [ mkAttr { rep := { attr := "resourceType".toList }, type := .string, caseExact := true, issuer := .server,
             mutability := .readOnly },
    mkAttr { rep := { attr := "created".toList }, type := .dateTime, issuer := .server,
             mutability := .readOnly },
    mkAttr { rep := { attr := "lastModified".toList }, type := .dateTime, issuer := .server,
             mutability := .readOnly },
    mkAttr { rep := { attr := "location".toList }, type := .uriRef, issuer := .server,
             mutability := .readOnly },
    mkAttr { rep := { attr := "version".toList }, type := .string, caseExact := true, issuer := .server,
             mutability := .readOnly } ]

/-- `meta` (src/data/schemas.py:131-146). -/
def metaAttr : Attr :=
  mkComplex { rep := { attr := "meta".toList }, type := .complex, issuer := .server, mutability := .readOnly }
    metaSubs

/-- `_bound_attr_to_schema` (src/data/schemas.py:164-195): the attribute with another name.  A simple
attribute loses `validate_canonical_values`; its canonical values and reference types are normalised again.
The description is not passed on. -/
def bindAttr (a : Attr) (rep : AttrRep) : Attr :=
  match a with
  | .simple i =>
    .simple { i with rep := rep, validateCanon := false, canonical := normCanonical i.caseExact i.canonical,
                     refTypes := normRefTypes i.type i.refTypes, description := [] }
  | .complex i subs ps ds => .complex { i with rep := rep, description := [] } subs ps ds

/-- One declared attribute bound to a schema, followed by its sub-attributes
(src/data/schemas.py:151-160, 384-401). -/
def bindWithSubs (urn : Str) (ext : Bool) (a : Attr) : List Attr :=
  bindAttr a { schema := urn, attr := a.rep.attr, ext := ext } ::
    a.subs.map (fun s => bindAttr s { schema := urn, attr := a.rep.attr, sub := s.rep.attr, ext := ext })

end

/-- `BaseSchema` and `ResourceSchema` (src/data/schemas.py:149, 333): URN, attributes, and for resources
the name and the extensions with their `required` flags. -/
structure Schema where
  urn : Str
  attrs : Attributes
  isResource : Bool := false
  name : Str := []
  exts : List (Str × Bool) := []
  description : Str := []

/-- `SchemaExtension` (src/data/schemas.py:434-469). -/
structure Extension where
  urn : Str
  attrs : Attributes
  name : Str := []
  description : Str := []

/-- `schema.schemas` (src/data/schemas.py:201-203, 370-372). -/
def Schema.schemas (s : Schema) : List Str := s.urn :: s.exts.map (·.1)

section
variable [PyEnv]

/-- `BaseSchema.__init__` (src/data/schemas.py:150-162).  The `ValueError` of `AttrRep` for names that are
not attribute names cannot occur: every attribute carries a name accepted by the same constructor. -/
def mkSchema (urn : Str) (attrs : List Attr) : Schema :=
  { urn, attrs := Attributes.ofList ((schemasAttr :: attrs).flatMap (bindWithSubs urn false)) }

/-- `ResourceSchema.__init__` (src/data/schemas.py:334-356); the overrides are the attributes to use for
`id`, `externalId` and `meta`. -/
def mkResource (urn : Str) (attrs : List Attr) (name : Str := [])
    (idA : Attr := idAttr) (externalIdA : Attr := externalIdAttr) (metaA : Attr := metaAttr) : Schema :=
  { mkSchema urn (idA :: externalIdA :: metaA :: attrs) with isResource := true, name }

/-- `ResourceSchema.with_extension` (src/data/schemas.py:378-402). -/
def Schema.withExtension (s : Schema) (e : Extension) (required : Bool := false) : PyM Schema :=
  if e.urn ∈ s.schemas.map lower then .error .valueError
  else .ok
    { s with
      exts := aset e.urn required s.exts
      attrs := Attributes.ofList (s.attrs.all ++ e.attrs.all.flatMap (bindWithSubs e.urn true)) }

/-- The location of a top-level attribute's issues (src/data/schemas.py:265-267). -/
def Attr.topLoc (a : Attr) : Loc :=
  if a.rep.ext then [.name a.rep.schema, .name a.rep.attr] else [.name a.rep.attr]

/-- The loop of `BaseSchema._process_data` (src/data/schemas.py:260-272). -/
def processTop (m : Mode) : List Attr → Val → Val → Issues → PyM (Val × Issues)
  | [], _, processed, issues => .ok (processed, issues)
  | a :: as, data, processed, issues =>
    match data.getItem a.rep with
    | .error e => .error e
    | .ok .missing => processTop m as data processed issues
    | .ok x =>
      match a.process m x with
      | .error e => .error e
      | .ok (y, is) =>
        match processed.setItem a.rep y with
        | .error e => .error e
        | .ok processed' => processTop m as data processed' (issues.merge is a.topLoc)

/-- `item.lower()` for a list of strings; anything else has no `lower` (src/data/schemas.py:284). -/
def lowerAll : List Val → PyM (List Str)
  | [] => .ok []
  | .prim (.str s) :: r =>
    match lowerAll r with
    | .ok t => .ok (lower s :: t)
    | .error e => .error e
  | _ :: _ => .error .attributeError

/-- The key `"schemas"`, used as location. -/
def schemasLoc : Loc := [.name "schemas".toList]

/-- The first loop of `validate_schemas_field` (src/data/schemas.py:286-298). -/
def schemasLoop (main : Str) (known : List Str) : List Str → Bool → Bool → Issues → Bool × Issues
  | [], included, _, issues => (included, issues)
  | s :: r, included, mismatch, issues =>
    if s = main then schemasLoop main known r true mismatch issues
    else if s ∉ known ∧ mismatch = false then
      schemasLoop main known r included true (issues.add ⟨27, []⟩ true schemasLoc)
    else schemasLoop main known r included mismatch issues

/-- The second loop of `validate_schemas_field` (src/data/schemas.py:305-312). -/
def extKeysLoop (known listed : List Str) : List Str → Issues → Issues
  | [], issues => issues
  | k :: r, issues =>
    extKeysLoop known listed r
      (if lower k ∈ known ∧ lower k ∉ listed then issues.add ⟨29, k⟩ true schemasLoc else issues)

/-- The keys of `data.to_dict()`. -/
def Val.dictKeys : Val → List Str
  | .cont data _ => data.map (·.1)
  | _ => []

/-- `validate_schemas_field` (src/data/schemas.py:276-313). -/
def validateSchemasField (data : Val) (schemas_ : List Val) (main : Str) (known : List Str) : PyM Issues :=
  match lowerAll schemas_ with
  | .error e => .error e
  | .ok listed =>
    let known := known.map lower
    let (included, issues) := schemasLoop (lower main) known listed false false {}
    let issues := if included then issues else issues.add ⟨28, []⟩ true schemasLoc
    .ok (extKeysLoop known listed data.dictKeys issues)

/-- `isinstance(v, dict)` -/
def Val.isDict : Val → Bool
  | .dict _ => true
  | _ => false

/-- `BaseSchema._process` (src/data/schemas.py:215-273), hence `BaseSchema.parse` and `BaseSchema.dump`.
A truthy value of `schemas` other than a list is modelled as `TypeError`; the attribute yields lists only. -/
def Schema.process (m : Mode) (s : Schema) (data : Val) : PyM (Val × Issues) :=
  if data.isNone then .ok (.invalid, blocking 15)
  else if !(data.isCont || data.isDict) then .ok (.invalid, blocking 2)
  else
    match processTop m s.attrs.top data.toCont .emptyCont {} with
    | .error e => .error e
    | .ok (r, is) =>
      let issues := Issues.empty.merge is
      match s.attrs.getTop "schemas".toList with
      | none => .error .attributeError
      | some sa =>
        match r.getItem sa.rep with
        | .error e => .error e
        | .ok schemas_ =>
          if issues.canProceed [schemasLoc] && schemas_.truthy then
            match schemas_ with
            | .list xs =>
              match validateSchemasField r xs s.urn s.schemas with
              | .error e => .error e
              | .ok is2 => .ok (r, issues.merge is2)
            | _ => .error .typeError
          else .ok (r, issues)

/-- The location `("meta", "resourceType")`. -/
def resourceTypeLoc : Loc := [.name "meta".toList, .name "resourceType".toList]

/-- `validate_resource_type_consistency` (src/data/schemas.py:316-330). -/
def validateResourceType (v : Val) (expected : Str) : PyM Issues :=
  match v.pyEq (.str expected) with
  | .error e => .error e
  | .ok b => .ok (if b then {} else Issues.empty.add ⟨17, []⟩ true resourceTypeLoc)

/-- `schema.parse(data)` -/
def Schema.parse (s : Schema) (data : Val) : PyM (Val × Issues) := s.process .parse data

/-- `schema.dump(data)`: `BaseSchema.dump`, or `ResourceSchema.dump` for resources
(src/data/schemas.py:212-213, 404-418). -/
def Schema.dump (s : Schema) (data : Val) : PyM (Val × Issues) :=
  match s.process .dump data with
  | .error e => .error e
  | .ok (r, issues) =>
    if !s.isResource then .ok (r, issues)
    else if !issues.canProceed then .ok (r, issues)
    else if issues.canProceed [resourceTypeLoc] then
      match s.attrs.getSub "meta".toList "resourcetype".toList with
      | none => .error .attributeError
      | some a =>
        match r.getItem a.rep with
        | .error e => .error e
        | .ok .missing => .ok (r, issues)
        | .ok v =>
          match validateResourceType v s.name with
          | .error e => .error e
          | .ok is2 => .ok (r, issues.merge is2)
    else .ok (r, issues)

end
end Scim
