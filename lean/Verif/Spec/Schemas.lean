import Verif.Model.Schemas
import Verif.Spec.Attributes

/-! Specification vocabulary for schemas. -/

namespace Scim
variable [PyEnv]

/-- A list of attribute declarations as written in the assets: names distinct up to letter case, also those of
the sub-attributes of complex attributes. -/
structure Declarations (attrs : List Attr) : Prop where
  plain : ∀ a ∈ attrs, a.rep.Plain
  named : ∀ a ∈ attrs, a.rep.attr ≠ []
  distinct : (attrs.map (fun a => lower a.rep.attr)).Nodup
  subs : ∀ a ∈ attrs, PlainSubs a.subs

/-- The sanity conditions of a schema: URNs distinct up to case, no attribute is called like a URN, no
attribute is declared twice. -/
structure Schema.WF (s : Schema) : Prop where
  sub : ∀ a ∈ s.attrs.top, a.rep.sub = []
  named : ∀ a ∈ s.attrs.all, a.rep.attr ≠ []
  core : ∀ a ∈ s.attrs.top, a.rep.ext = false → a.rep.schema = s.urn
  ext : ∀ a ∈ s.attrs.top, a.rep.ext = true → a.rep.schema ∈ s.exts.map (·.1)
  urns : (s.schemas.map lower).Nodup
  urnNe : ∀ u ∈ s.schemas, u ≠ []
  noClash : ∀ a ∈ s.attrs.all, ∀ u ∈ s.schemas, lower a.rep.attr ≠ lower u
  distinct : (s.attrs.top.map (fun a => (a.rep.schema, lower a.rep.attr))).Nodup
  /-- the declared names (also of sub-attributes) are distinct up to letter case -/
  names : (s.attrs.all.map (fun a => (lower a.rep.schema, lower a.rep.attr, lower a.rep.sub))).Nodup
  allSchema : ∀ a ∈ s.attrs.all, a.rep.schema ∈ s.schemas
  /-- the attributes of the extensions come after those of the schema itself -/
  order : ∃ cs es, s.attrs.all = cs ++ es ∧ (∀ a ∈ cs, a.rep.ext = false ∧ a.rep.schema = s.urn) ∧
    ∀ a ∈ es, a.rep.ext = true ∧ a.rep.schema ∈ s.exts.map (·.1)
  topAll : s.attrs.top = s.attrs.all.filter (fun a => a.rep.sub.isEmpty)
  /-- the first attribute is `schemas` -/
  first : ∃ rest, s.attrs.all = bindAttr schemasAttr { schema := s.urn, attr := "schemas".toList } :: rest

/-- Two spellings of the same attribute and sub-attribute: equal up to letter case, schemas aside. -/
def AttrRep.SameName (a b : AttrRep) : Prop := lower a.attr = lower b.attr ∧ lower a.sub = lower b.sub

/-- `hay` contains `needle` as a contiguous part. -/
def Contains (needle hay : Str) : Prop := ∃ a b, hay = a ++ needle ++ b

/-- The codes reported for exactly this location. -/
def Issues.codesAt (i : Issues) (l : Loc) : List Nat := (i.errorsAt l).map (·.code)

/-- `r` is the object made from the input `data`: it holds exactly the declared attributes the input has,
each processed on its own. -/
structure TopResult (m : Mode) (s : Schema) (data r : Val) : Prop where
  cont : r.isCont = true
  /-- every key is a declared core attribute or the URN of an extension -/
  declared : ∀ k ∈ r.keys,
    (∃ a ∈ s.attrs.top, a.rep.ext = false ∧ a.rep.attr = k) ∨
    (∃ a ∈ s.attrs.top, a.rep.ext = true ∧ a.rep.schema = k)
  /-- what is stored under the URN of an extension holds declared attributes of this extension only -/
  extDeclared : ∀ u, (∃ a ∈ s.attrs.top, a.rep.ext = true ∧ a.rep.schema = u) → ∀ v, r.stored u = some v →
    v.isCont = true ∧ ∀ k ∈ v.keys, ∃ a ∈ s.attrs.top, a.rep.ext = true ∧ a.rep.schema = u ∧ a.rep.attr = k
  /-- every declared attribute present in the input is in the result, processed -/
  present : ∀ a ∈ s.attrs.top, ∀ x, data.getItem a.rep = .ok x → x.isMissing = false →
    ∃ y i, a.process m x = .ok (y, i) ∧ r.getItem a.rep = .ok y
  /-- a core attribute absent from the input is absent from the result -/
  absent : ∀ a ∈ s.attrs.top, a.rep.ext = false → data.getItem a.rep = .ok .missing → r.getItem a.rep = .ok .missing
  /-- all declared attributes could be read -/
  read : ∀ a ∈ s.attrs.top, ∃ x, data.getItem a.rep = .ok x

/-- Where the issues about an attribute of a resource are expected: under its name, for an attribute of an extension
under the URN of the extension and the name. -/
def Attr.reportLoc (a : Attr) : Loc :=
  (if a.rep.ext then [.name a.rep.schema] else []) ++ [.name a.rep.attr]

end Scim
