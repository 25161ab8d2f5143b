import Verif.Model.Filter

/-!
# Paths of patch operations (src/data/path.py)
-/

namespace Scim

variable [PyEnv]

/-- The check of `complex_filter_attr_rep` (src/data/path.py:19-26). -/
def PatchPath.subOk (rep : AttrRep) : Option AttrRep → Bool
  | none => true
  | some s => !s.sub.isEmpty && s.topLevelEquals rep

/-- The check of `complex_filter` (src/data/path.py:27-34). -/
def PatchPath.filterOk (rep : AttrRep) : Option Op → Bool
  | none => true
  | some (.cplx r _) => r.eqv rep
  | some _ => false

/-- `PatchPath(attr_rep, complex_filter, complex_filter_attr_rep)` (src/data/path.py:11-38). -/
def PatchPath.make (rep : AttrRep) (filter : Option Op) (sub : Option AttrRep) : PyM PatchPath :=
  if !rep.sub.isEmpty && (filter.isSome || sub.isSome) then .error .valueError
  else if !PatchPath.subOk rep sub then .error .valueError
  else if !PatchPath.filterOk rep filter then .error .valueError
  else .ok { rep, filter, subRep := sub }

/-- The check of the square brackets (src/data/path.py:63-69). -/
def badBrackets (path : Str) : Bool :=
  path.count '[' > 1 || path.count ']' > 1 || ('[' ∈ path && ']' ∉ path) || (']' ∈ path && '[' ∉ path) ||
    ('[' ∈ path && ']' ∈ path && path.idxOf '[' > path.idxOf ']')

/-- `_get_sub_attr_rep` with an attribute name (src/data/path.py:117-138); `none` is `Invalid`. -/
def pathSub (issues : Issues) (rep : AttrRep) (exp : Str) : PyM (Option AttrRep × Issues) :=
  match AttrRep.parse exp with
  | none => .ok (none, issues.add { code := 111, ctx := exp } false)
  | some s =>
    if !s.sub.isEmpty then
      if !rep.topLevelEquals s then .ok (some s, issues.add { code := 33 } false) else .ok (some s, issues)
    else match AttrRep.make rep.schema rep.attr s.attr with
      | .error e => .error e
      | .ok s' => .ok (some s', issues)

/-- The sub-attribute after the closing bracket (src/data/path.py:95-104). -/
def pathTail (strings : List (Nat × Str)) (issues : Issues) (rep : AttrRep) (exp : Str) :
    PyM (Option AttrRep × Issues) :=
  if exp.isEmpty then .ok (none, issues)
  else pathSub issues rep (encodeStrings strings (if startsWith ['.'] exp then exp.drop 1 else exp))

/-- `_parse_complex_multivalued_path` (src/data/path.py:86-115).  Logical operators have no `attr_rep`. -/
def parseCplxPath (path : Str) (strings : List (Nat × Str)) : PyM (Option PatchPath × Issues) :=
  match Filter.parse (encodeStrings strings (path.take (path.idxOf ']' + 1))) with
  | .error e => .error e
  | .ok (o, issues) =>
    if issues.hasIssues then .ok (none, issues)
    else match o with
      | none => .error .attributeError
      | some o => match o.rep? with
        | none => .error .attributeError
        | some r => match pathTail strings issues r (path.drop (path.idxOf ']' + 1)) with
          | .error e => .error e
          | .ok (sub, issues) =>
            if issues.hasIssues then .ok (none, issues)
            else match PatchPath.make r (some o) sub with
              | .error e => .error e
              | .ok p => .ok (some p, issues)

/-- `PatchPath.parse` (src/data/path.py:52-84); `none` is `Invalid`. -/
def PatchPath.parse (path : Str) : PyM (Option PatchPath × Issues) :=
  let strings := scanStrings path 0 0
  let path := hideLoop strings path
  if badBrackets path then .ok (none, Issues.empty.add { code := 300 } false)
  else if '[' ∈ path ∧ ']' ∈ path then parseCplxPath path strings
  else
    let path := encodeStrings strings path
    match AttrRep.parse path with
    | none => .ok (none, Issues.empty.add { code := 111, ctx := path } false)
    | some r => match PatchPath.make r none none with
      | .error e => .error e
      | .ok p => .ok (some p, {})

/-- `==` on optional attribute names. -/
def optRepEq : Option AttrRep → Option AttrRep → Bool
  | none, none => true
  | some a, some b => a.eqv b
  | _, _ => false

/-- `PatchPath.__eq__` on paths (src/data/path.py:149-157). -/
def PatchPath.eq (a b : PatchPath) : PyM Bool :=
  if !a.rep.eqv b.rep then .ok false
  else match a.filter, b.filter with
    | some x, some y => match Filter.eq x y with
      | .error e => .error e
      | .ok c => .ok (c && optRepEq a.subRep b.subRep)
    | none, none => .ok (optRepEq a.subRep b.subRep)
    | _, _ => .ok false

end Scim
