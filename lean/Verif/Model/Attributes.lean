import Verif.Model.Types
import Verif.Model.Equality

/-!
# Attributes (src/data/attributes.py)

The constructors normalise canonical values and reference types.
-/

namespace Scim

/-- `AttributeMutability` (src/data/attributes.py:30-34). -/
inductive Mutability where
  | readWrite | readOnly | writeOnly | immutable
deriving DecidableEq, Repr

/-- `AttributeReturn` (src/data/attributes.py:37-41). -/
inductive Returned where
  | default | always | never | request
deriving DecidableEq, Repr

/-- `AttributeUniqueness` (src/data/attributes.py:44-47). -/
inductive Uniqueness where
  | none | server | global
deriving DecidableEq, Repr

/-- `AttributeIssuer` (src/data/attributes.py:50-53). -/
inductive Issuer where
  | server | client | notSpecified
deriving DecidableEq, Repr

/-- `_AttributeProcessor` (src/data/attributes.py:56): a function from a value to a value and issues. -/
abbrev Proc := Val → PyM (Val × Issues)

/-- The fields of `Attribute` (src/data/attributes.py:59-111). -/
structure AttrInfo where
  rep : AttrRep
  type : AttrType
  issuer : Issuer := .notSpecified
  required : Bool := false
  caseExact : Bool := false
  multi : Bool := false
  canonical : Option (List Prim) := none
  validateCanon : Bool := false
  mutability : Mutability := .readWrite
  returned : Returned := .default
  uniqueness : Uniqueness := .none
  parsers : List Proc := []
  dumpers : List Proc := []
  description : Str := []
  refTypes : List Str := []

/-- `Attribute` and `ComplexAttribute` (src/data/attributes.py:59, 286).  `subs` are the values of the
dictionary inside `self._sub_attributes`, in order. -/
inductive Attr where
  | simple (info : AttrInfo)
  | complex (info : AttrInfo) (subs : List Attr) (cparsers cdumpers : List Proc)

namespace Attr

/-- The common fields. -/
def info : Attr → AttrInfo
  | .simple i => i
  | .complex i _ _ _ => i

/-- `attr.rep` -/
def rep (a : Attr) : AttrRep := a.info.rep

/-- `isinstance(attr, ComplexAttribute)` -/
def isComplex : Attr → Bool
  | .simple _ => false
  | .complex .. => true

/-- The sub-attributes (none for a simple attribute). -/
def subs : Attr → List Attr
  | .simple _ => []
  | .complex _ s _ _ => s

end Attr

/-- Which of the two methods `parse` and `dump` is called. -/
inductive Mode where
  | parse | dump
deriving DecidableEq, Repr

section
variable [PyEnv]

/-- `self._type.parse` or `self._type.dump`. -/
def AttrType.conv (m : Mode) (t : AttrType) : Val → PyM (Val × Issues) :=
  match m with
  | .parse => t.parse
  | .dump => t.dump

/-- Lower-case a string unless the attribute is case-exact; leave other values alone
(src/data/attributes.py:97-104, 245-246). -/
def Prim.normCase (caseExact : Bool) : Prim → Prim
  | .str s => if caseExact then .str s else .str (lower s)
  | p => p

/-- Normalisation of canonical values by the constructor (src/data/attributes.py:97-104): strings are
lower-cased unless the attribute is case-exact. -/
def normCanonical (caseExact : Bool) (cs : Option (List Prim)) : Option (List Prim) :=
  cs.map (List.map (Prim.normCase caseExact))

/-- `_is_canonical` (src/data/attributes.py:241-248). -/
def AttrInfo.isCanonical (a : AttrInfo) (v : Val) : Bool :=
  match v, a.canonical with
  | .invalid, _ => true
  | _, none => true
  | .prim p, some cs => cs.any (fun c => (p.normCase a.caseExact).pyEq c)
  | _, some _ => false

/-- One value: conversion by the type and canonical check, without and with item index
(src/data/attributes.py:209-221 and 223-233). -/
def AttrInfo.processOne (m : Mode) (a : AttrInfo) (loc : Loc) (v : Val) (issues : Issues) :
    PyM (Val × Issues) :=
  match a.type.conv m v with
  | .error e => .error e
  | .ok (item, is) =>
    let issues := issues.merge is loc
    if !a.isCanonical item && a.validateCanon then
      .ok (.invalid, issues.add ⟨14, []⟩ false loc)
    else .ok (item, issues)

/-- The loop over the items of a multi-valued attribute (src/data/attributes.py:207-221). -/
def AttrInfo.processItems (m : Mode) (a : AttrInfo) : Nat → List Val → Issues → PyM (List Val × Issues)
  | _, [], issues => .ok ([], issues)
  | i, v :: vs, issues =>
    match a.processOne m [.idx i] v issues with
    | .error e => .error e
    | .ok (item, issues) =>
      match a.processItems m (i + 1) vs issues with
      | .error e => .error e
      | .ok (items, issues) => .ok (item :: items, issues)

/-- `for postprocessor in postprocessors: …` (src/data/attributes.py:236-238, 373-375). -/
def runProcs : List Proc → Val → Issues → PyM (Val × Issues)
  | [], v, issues => .ok (v, issues)
  | p :: ps, v, issues =>
    match p v with
    | .error e => .error e
    | .ok (v', is) => runProcs ps v' (issues.merge is)

/-- The post-processors of the method. -/
def AttrInfo.procs (m : Mode) (a : AttrInfo) : List Proc :=
  match m with
  | .parse => a.parsers
  | .dump => a.dumpers

/-- `Attribute._process`, hence `Attribute.parse` and `Attribute.dump`
(src/data/attributes.py:194-239, 250-262). -/
def AttrInfo.process (m : Mode) (a : AttrInfo) (v : Val) : PyM (Val × Issues) :=
  if v.isNone then .ok (v, {})
  else
    let base : PyM (Option Val × Issues) :=
      if a.multi then
        match v with
        | .list xs =>
          match a.processItems m 0 xs {} with
          | .error e => .error e
          | .ok (items, issues) => .ok (some (.list items), issues)
        | _ => .ok (none, blocking 2)
      else
        match a.processOne m [] v {} with
        | .error e => .error e
        | .ok (p, issues) => .ok (some p, issues)
    match base with
    | .error e => .error e
    | .ok (none, issues) => .ok (.invalid, issues)
    | .ok (some p, issues) =>
      if issues.hasIssues then .ok (p, issues) else runProcs (a.procs m) p issues

/-- The loop over the items of a multi-valued complex attribute (src/data/attributes.py:346-357); `f` is the
loop over the sub-attributes, given the location prefix. -/
def complexItems (f : Loc → Val → Issues → PyM (Val × Issues)) :
    Nat → List Val → Issues → PyM (List Val × Issues)
  | _, [], issues => .ok ([], issues)
  | i, v :: vs, issues =>
    match f [.idx i] v.toCont issues with
    | .error e => .error e
    | .ok (item, issues) =>
      match complexItems f (i + 1) vs issues with
      | .error e => .error e
      | .ok (items, issues) => .ok (item :: items, issues)

mutual
/-- `attr.parse(value)` / `attr.dump(value)`: `Attribute._process` or `ComplexAttribute._process_complex`
(src/data/attributes.py:194-262, 339-387).  When post-processors of a multi-valued complex attribute turn
the list into something else, iterating over it is modelled as `TypeError`. -/
def Attr.process (m : Mode) : Attr → Val → PyM (Val × Issues)
  | .simple info, v => info.process m v
  | .complex info subs cparsers cdumpers, v =>
    match info.process m v with
    | .error e => .error e
    | .ok (value, issues) =>
      if !issues.canProceed || value.isNone then .ok (value, issues)
      else
        let body : PyM (Val × Issues) :=
          if info.multi then
            match value with
            | .list xs =>
              match complexItems (fun loc item is => processSubs m subs loc item .emptyCont is) 0 xs issues with
              | .error e => .error e
              | .ok (items, issues) => .ok (.list items, issues)
            | _ => .error .typeError
          else processSubs m subs [] value.toCont .emptyCont issues
        match body with
        | .error e => .error e
        | .ok (parsed, issues) =>
          if issues.hasIssues then .ok (parsed, issues)
          else runProcs (match m with | .parse => cparsers | .dump => cdumpers) parsed issues
/-- The loop over the sub-attributes (src/data/attributes.py:350-356, 361-370). -/
def processSubs (m : Mode) : List Attr → Loc → Val → Val → Issues → PyM (Val × Issues)
  | [], _, _, parsed, issues => .ok (parsed, issues)
  | s :: ss, loc, item, parsed, issues =>
    match item.getItem s.rep with
    | .error e => .error e
    | .ok .missing => processSubs m ss loc item parsed issues
    | .ok x =>
      match Attr.process m s x with
      | .error e => .error e
      | .ok (p, is) =>
        match parsed.setItem s.rep p with
        | .error e => .error e
        | .ok parsed' => processSubs m ss loc item parsed' (issues.merge is (loc ++ [.name s.rep.attr]))
end

/-- Positions of the items whose `primary` is `True` (src/data/attributes.py:399-402). -/
def primaryEntries : Nat → List Val → PyM (List Nat)
  | _, [] => .ok []
  | i, v :: vs =>
    match v.getName "primary".toList with
    | .error e => .error e
    | .ok x =>
      match primaryEntries (i + 1) vs with
      | .error e => .error e
      | .ok r => .ok (if x.isTrue then i :: r else r)

/-- `validate_single_primary_value` (src/data/attributes.py:395-409). -/
def validateSinglePrimary : Proc := fun v =>
  match v with
  | .list xs =>
    match primaryEntries 0 xs with
    | .error e => .error e
    | .ok entries => .ok (.list xs, if entries.length > 1 then Issues.empty.add ⟨9, []⟩ true else {})
  | _ => .error .typeError

end

/-! ## `Attributes` (src/data/attributes.py:412-462) -/

/-- The dictionary key of an attribute (src/data/attributes.py:417). -/
def Attr.key (a : Attr) : Str × Str × Str := (a.rep.schema, a.rep.attr, a.rep.sub)

/-- `self._attrs[key] = attr` (src/data/attributes.py:417). -/
def insertAttr (a : Attr) : List Attr → List Attr
  | [] => [a]
  | b :: r => if b.key = a.key then a :: r else b :: insertAttr a r

/-- `Attributes`: the values of the dictionary and the list of top-level attributes. -/
structure Attributes where
  all : List Attr
  top : List Attr

/-- `Attributes(attrs)` (src/data/attributes.py:413-419). -/
def Attributes.ofList (attrs : List Attr) : Attributes :=
  { all := attrs.foldl (fun acc a => insertAttr a acc) []
    top := attrs.filter (fun a => a.rep.sub.isEmpty) }

section
variable [PyEnv]

/-- `attrs.get(rep)` (src/data/attributes.py:447-451). -/
def findAttr (attrs : List Attr) (r : AttrRep) : Option Attr := attrs.find? (fun a => a.rep.eqv r)

/-- `attrs.get(rep)` (src/data/attributes.py:447-451). -/
def Attributes.get (as : Attributes) (r : AttrRep) : Option Attr := findAttr as.all r

/-- `attrs.<name>` for a name without `__` (src/data/attributes.py:425-431); `none` is
`AttributeError`. -/
def Attributes.getTop (as : Attributes) (name : Str) : Option Attr :=
  as.top.find? (fun a => lower a.rep.attr == lower name)

/-- `attrs.<name>__<sub>` (src/data/attributes.py:433-442). -/
def Attributes.getSub (as : Attributes) (name sub : Str) : Option Attr :=
  as.all.find? (fun a => lower a.rep.attr == lower name && lower a.rep.sub == lower sub)

/-- `attrs.get_by_path(path)` (src/data/attributes.py:453-462).  The filter of a path is a complex attribute
operator; its attribute name is `filterRep`. -/
def Attributes.getByPath (as : Attributes) (rep : AttrRep) (filterRep : Option AttrRep)
    (subRep : Option AttrRep) : Option Attr :=
  match filterRep with
  | some fr => if (as.get fr).isNone then none else go
  | none => go
where
  go : Option Attr :=
    match as.get rep, subRep with
    | none, _ => none
    | some a, none => some a
    | some _, some sr => as.get sr

/-- The reference types an attribute gets when none are given (src/data/attributes.py:81-86).  The `ValueError`
for other reference types of external and URI references (lines 87-93) is not modelled: such attributes cannot
be constructed, see `refTypesAllowed`. -/
def normRefTypes (t : AttrType) (given : List Str) : List Str :=
  if given.isEmpty then
    match t with
    | .extRef => ["external".toList]
    | .uriRef => ["uri".toList]
    | _ => []
  else given

/-- The reference types the constructor accepts (src/data/attributes.py:81-93). -/
def refTypesAllowed (t : AttrType) (given : List Str) : Bool :=
  match t with
  | .extRef => given.isEmpty || given == ["external".toList]
  | .uriRef => given.isEmpty || given == ["uri".toList]
  | _ => true

/-- `Attribute(name, type, …)`: normalises the canonical values and the reference types
(src/data/attributes.py:60-111). -/
def mkAttr (i : AttrInfo) : Attr :=
  .simple { i with canonical := normCanonical i.caseExact i.canonical, refTypes := normRefTypes i.type i.refTypes }

/-- `ComplexAttribute(sub_attributes, name, …)` (src/data/attributes.py:286-325): a multi-valued complex
attribute gets the check for a single primary item. -/
def mkComplex (i : AttrInfo) (subs : List Attr) (cparsers cdumpers : List Proc := []) : Attr :=
  .complex { i with type := .complex, caseExact := false, canonical := none, validateCanon := false, refTypes := [] }
    (Attributes.ofList subs).all
    (if i.multi then cparsers ++ [validateSinglePrimary] else cparsers)
    (if i.multi then cdumpers ++ [validateSinglePrimary] else cdumpers)

end

end Scim
