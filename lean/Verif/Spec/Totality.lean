import Verif.Spec.Schemas

/-! Specification vocabulary for totality (C34): which inputs and which attributes are considered. -/

namespace Scim

mutual
/-- JSON values of any depth, with dates among the scalars; the keys of objects are distinct and not empty. -/
def Val.Tame : Val → Prop
  | .prim _ => True
  | .list xs => TameList xs
  | .dict kvs => (kvs.map (·.1)).Nodup ∧ [] ∉ kvs.map (·.1) ∧ TamePairs kvs
  | .dt _ => True
  | _ => False
/-- all items are tame -/
def TameList : List Val → Prop
  | [] => True
  | v :: r => v.Tame ∧ TameList r
/-- all values are tame -/
def TamePairs : List (Str × Val) → Prop
  | [] => True
  | (_, v) :: r => v.Tame ∧ TamePairs r
end

variable [PyEnv]

mutual
/-- Attributes as declared for resources: no processors (parsers or dumpers) but the check of `id` for `bulkId` and the
check for a single primary item. -/
def Attr.Standard (m : Mode) : Attr → Prop
  | .simple i => i.procs m = [] ∨ (i.type = .string ∧ i.multi = false ∧ i.procs m = [bulkIdValidator])
  | .complex i subs ps ds =>
    i.type = .complex ∧ i.validateCanon = false ∧ i.procs m = [] ∧
      (∀ p ∈ (Attr.complex i subs ps ds).cprocs m, p = validateSinglePrimary ∧ i.multi = true) ∧
      PlainSubs subs ∧ StandardAll m subs
/-- all attributes are standard -/
def StandardAll (m : Mode) : List Attr → Prop
  | [] => True
  | a :: r => a.Standard m ∧ StandardAll m r
end

/-- Only characters below 128. -/
def AsciiText (s : Str) : Prop := ∀ c ∈ s, c.toNat < 128

/-- The type handles the value.  The exceptions (see C22): a binary text that is not ASCII, a decimal given as an integer beyond
the floats, and an integer given as an infinite float or as NaN. -/
def AttrType.Handles : AttrType → Val → Prop
  | .binary, v => ∀ s, v = .str s → AsciiText s
  | .decimal, v => ∀ i, v = .int i → i.natAbs < floatLimit
  | .integer, v => ∀ f, v = .prim (.flt f) → ∃ q, f = .fin q
  | _, _ => True

mutual
/-- The attribute handles the value: so does its type, for the value and the items if it is a list; the sub-attributes of a
complex attribute handle what is read for them, at any depth. -/
def Attr.Handles : Attr → Val → Prop
  | .simple i, v => i.type.Handles v ∧ ∀ xs, v = .list xs → ∀ x ∈ xs, i.type.Handles x
  | .complex _ subs _ _, v =>
    (v.isCont = true → HandlesAll subs v) ∧ ∀ xs, v = .list xs → ∀ x ∈ xs, x.isCont = true → HandlesAll subs x
/-- Each of the attributes handles what is read for it. -/
def HandlesAll : List Attr → Val → Prop
  | [], _ => True
  | a :: r, v => (∀ x, v.getItem a.rep = .ok x → a.Handles x) ∧ HandlesAll r v
end

/-- The declared names are attribute names, and every sub-attribute belongs to a declared complex attribute. -/
structure Schema.Owned (s : Schema) : Prop where
  named : ∀ a ∈ s.attrs.all, isAttrName a.rep.attr = true
  owner : ∀ a ∈ s.attrs.all, a.rep.sub ≠ [] → isAttrName a.rep.sub = true ∧
    ∃ t ∈ s.attrs.top, t.isComplex = true ∧ t.rep.schema = a.rep.schema ∧ t.rep.attr = a.rep.attr ∧ t.rep.ext = a.rep.ext

/-- What `schemas` may hold: anything but a list with an item that is no text. -/
def SchemasOk (x : Val) : Prop := ∀ xs, x = .list xs → ∃ strs : List Str, xs = strs.map Val.str

/-- An ordinary JSON body for the schema `s`: tame; what stands under the URN of a schema is an object; `schemas` is no
list with an item that is no text; the attributes handle what is read for them. -/
structure Ordinary (s : Schema) (kvs : List (Str × Val)) : Prop where
  tame : (Val.dict kvs).Tame
  urns : ∀ k v, (k, v) ∈ kvs → ∀ u ∈ s.schemas, lower k = lower u → v.isDict = true
  schemas : ∀ x, (Val.dict kvs).toCont.getItem { schema := s.urn, attr := "schemas".toList } = .ok x → SchemasOk x
  handled : HandlesAll s.attrs.top (Val.dict kvs).toCont

/-- A JSON body for the schema `s`: an ordinary object, or a tame value that is no object. -/
def JsonBody (s : Schema) (body : Val) : Prop := body.Tame ∧ ∀ kvs, body = .dict kvs → Ordinary s kvs

end Scim
