import Verif.Model.Value

/-!
# Attribute names — `AttrRep` (src/data/container.py:4-91)
-/

namespace Scim
variable [PyEnv]

/-- A non-empty run of word characters: the regular expression `\w+`. -/
def isWordRun (s : Str) : Bool := !s.isEmpty && s.all isWord

/-- `_ATTR_NAME.fullmatch(s)` with `_ATTR_NAME = (\w+|\$ref)` (src/data/container.py:4). -/
def isAttrName (s : Str) : Bool := isWordRun s || s == "$ref".toList

/-- Characters of one URN segment: `[\w.-]` (src/data/container.py:5). -/
def isUriChar (c : Char) : Bool := isWord c || c == '.' || c == '-'

/-- One URN segment `[\w.-]+` (src/data/container.py:5). -/
def isUriSegment (s : Str) : Bool := !s.isEmpty && s.all isUriChar

namespace AttrRep

/-- `AttrRep.__init__` (src/data/container.py:10-32).  Only `attr` is checked: line 22 matches `attr`
again instead of the combined name, and every attribute name matches `_ATTR_REP`.  The stored
`_repr` is recomputed by `toStr`. -/
def make (schema attr sub : Str) (ext : Bool := false) : PyM AttrRep :=
  if !isAttrName attr then .error .valueError
  else if ext && schema.isEmpty then .error .valueError
  else .ok { schema, attr, sub, ext }

/-- `AttrRep.__repr__` (src/data/container.py:16-20, 34-35). -/
def toStr (r : AttrRep) : Str :=
  let a := if r.schema.isEmpty then r.attr else r.schema ++ ':' :: r.attr
  if r.sub.isEmpty then a else a ++ '.' :: r.sub

/-- `AttrRep.attr_with_schema` (src/data/container.py:74-78). -/
def attrWithSchema (r : AttrRep) : Str :=
  if r.schema.isEmpty then r.attr else r.schema ++ ':' :: r.attr

/-- `AttrRep.__eq__` on two attribute names (src/data/container.py:37-50).  `all([self.schema,
other.schema])` is true when both are non-empty. -/
def eqv (a b : AttrRep) : Bool :=
  if !a.schema.isEmpty && !b.schema.isEmpty && lower a.schema != lower b.schema then false
  else if lower a.attr != lower b.attr then false
  else if lower a.sub != lower b.sub then false
  else true

/-- `AttrRep.top_level_equals` (src/data/container.py:88-91). -/
def topLevelEquals (a b : AttrRep) : Bool :=
  if !a.schema.isEmpty && !b.schema.isEmpty then
    lower a.attrWithSchema == lower b.attrWithSchema
  else lower a.attr == lower b.attr

/-- `attr` and the optional `.sub` (group 2 of `_ATTR_REP`): split at the dots. -/
def parseLocal (s : Str) : Option (Str × Str) :=
  match splitChar '.' s with
  | [a] => if isAttrName a then some (a, []) else none
  | [a, b] => if isAttrName a && isWordRun b then some (a, b) else none
  | _ => none

/-- `AttrRep.parse` (src/data/container.py:52-64); `none` is `Invalid`.  Group 2 of `_ATTR_REP` contains
no `:` and every `:` of group 1 ends a segment, so the only possible match splits at the last `:`
(the equivalence with the regular expression itself is theorem `C01_parse_iff_regex`).
`parse` calls the constructor, whose check `isAttrName attr` repeats the one made here. -/
def parse (s : Str) : Option AttrRep :=
  let segs := splitChar ':' s
  let pre := segs.dropLast
  if pre.all isUriSegment then
    match parseLocal (segs.getLastD []) with
    | some (a, b) => some { schema := joinWith ':' pre, attr := a, sub := b }
    | none => none
  else none

end AttrRep

/-- `_location(attr_rep)` (src/request_validators.py:1199-1202) as a list of names. -/
def AttrRep.locNames (r : AttrRep) : List Str :=
  if r.sub.isEmpty then [r.attr] else [r.attr, r.sub]

end Scim
