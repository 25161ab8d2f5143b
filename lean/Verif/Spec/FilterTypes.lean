import Verif.Spec.Operator
import Verif.Spec.Attributes
import Verif.Model.Schemas

/-!
# Filters that fit a schema

Specification vocabulary for C107: which comparisons make sense for an attribute, which filters consist of such comparisons
only, and which resources hold values of the declared types.  `P` describes the dates that occur in the resources, e.g. "has a
UTC offset".
-/

namespace Scim

/-- `eq` and `ne`. -/
def CmpOp.isEquality : CmpOp → Bool
  | .eq | .ne => true
  | _ => false

/-- `gt`, `ge`, `lt` and `le`. -/
def CmpOp.isOrder : CmpOp → Bool
  | .gt | .ge | .lt | .le => true
  | _ => false

/-- Null or absent. -/
def Val.Absent (v : Val) : Prop := v = .null ∨ v = .missing

/-- A literal of the kind of the values of the type: text for text, a number for numbers. -/
def AttrType.Suits : AttrType → Prim → Prop
  | .string, v | .uriRef, v | .scimRef, v | .extRef, v | .binary, v => ∃ t, v = .str t
  | .integer, v | .decimal, v => (∃ n, v = .int n) ∨ (∃ f, v = .flt f) ∨ ∃ b, v = .bool b
  | _, _ => False

/-- The value is the text `s`, or `s` is found in it, in lists of any depth. -/
inductive Val.HasText : Val → Str → Prop
  | here (s : Str) : Val.HasText (.str s) s
  | item {xs : List Val} {x : Val} {s : Str} : x ∈ xs → Val.HasText x s → Val.HasText (.list xs) s

variable [PyEnv]

/-! ## Values of the declared types -/

/-- One value of the attribute. -/
def AttrInfo.HoldsOne (P : DateTime → Prop) (i : AttrInfo) (x : Val) : Prop :=
  i.type.Wire x ∧ (i.type = .dateTime → ∀ s, x = .str s → ∀ d, fromIso s = some d → P d)

/-- The value of an attribute that is not complex: a list of values when it is multi-valued. -/
def AttrInfo.HoldsVal (P : DateTime → Prop) (i : AttrInfo) (x : Val) : Prop :=
  if i.multi then ∃ xs, x = .list xs ∧ ∀ y ∈ xs, i.HoldsOne P y else i.HoldsOne P x

/-- The values of a sub-attribute of a multi-valued attribute, one for each item, with gaps. -/
def AttrInfo.HoldsGaps (P : DateTime → Prop) (i : AttrInfo) (x : Val) : Prop :=
  ∃ xs, x = .list xs ∧ ∀ y ∈ xs, y.Absent ∨ i.HoldsVal P y

/-- A name that can be read from every object with these attributes: what stands before the colon is not itself the name of
an attribute, and only complex or single-valued attributes are asked for a sub-attribute. -/
structure ReadableName (attrs : List Attr) (r : AttrRep) : Prop where
  schema : r.schema = [] ∨ ∀ a ∈ attrs, lower a.rep.attr ≠ lower r.schema
  sub : r.sub = [] ∨ isAttrName r.sub = true ∧
    ∀ a ∈ attrs, a.rep.sub = [] → lower a.rep.attr = lower r.attr → a.isComplex = true ∨ a.info.multi = false

/-- One item of a complex attribute: an object whose sub-attributes hold nothing or values of their types. -/
def HoldsItem (P : DateTime → Prop) (subs : List Attr) (x : Val) : Prop :=
  x.isCont = true ∧ (∀ r, ReadableName subs r → ∃ y, x.getItem r = .ok y) ∧
    ∀ r s y, ReadableName subs r → findAttr subs r = some s → x.getItem r = .ok y →
      y.Absent ∨ s.info.HoldsVal P y

/-- The value of an attribute. -/
def Attr.HoldsVal (P : DateTime → Prop) : Attr → Val → Prop
  | .simple i, x => i.HoldsVal P x
  | .complex i subs _ _, x =>
    i.type = .complex ∧ if i.multi then ∃ xs, x = .list xs ∧ ∀ y ∈ xs, HoldsItem P subs y else HoldsItem P subs x

/-- The attribute is a sub-attribute of a multi-valued one. -/
def Attr.underMulti (attrs : List Attr) (a : Attr) : Bool :=
  !a.rep.sub.isEmpty && attrs.any (fun t => t.rep.sub.isEmpty && (t.rep.schema == a.rep.schema) && (t.rep.attr == a.rep.attr) && t.info.multi)

/-- What is read for the attribute. -/
def Attr.Reads (P : DateTime → Prop) (attrs : List Attr) (a : Attr) (x : Val) : Prop :=
  x.Absent ∨
    if a.rep.sub = [] then a.HoldsVal P x
    else ∃ i, a = .simple i ∧ if a.underMulti attrs then i.HoldsGaps P x else i.HoldsVal P x

/-- An object, a resource for instance, whose attributes hold nothing or values of their types. -/
structure Conforms (P : DateTime → Prop) (attrs : List Attr) (x : Val) : Prop where
  cont : x.isCont = true
  read : ∀ r, ReadableName attrs r → ∃ y, x.getItem r = .ok y
  typed : ∀ r a y, ReadableName attrs r → findAttr attrs r = some a → x.getItem r = .ok y → a.Reads P attrs y

/-- The sub-attributes of complex attributes are not complex, and those listed for the schema are those of its complex
attributes. -/
structure Schema.Flat (s : Schema) : Prop where
  subs : ∀ t ∈ s.attrs.top, ∀ q ∈ t.subs, q.isComplex = false
  entries : ∀ a ∈ s.attrs.all, a.rep.sub ≠ [] → a.isComplex = false ∧
    ∃ t ∈ s.attrs.top, t.rep.schema = a.rep.schema ∧ t.rep.attr = a.rep.attr ∧
      ∃ q ∈ t.subs, q.rep.attr = a.rep.sub ∧ q.info.type = a.info.type ∧ q.info.multi = a.info.multi

/-! ## Dates -/

/-- The texts in a value of the attribute that stand for dates. -/
def AttrInfo.DatesIn (P : DateTime → Prop) (i : AttrInfo) (x : Val) : Prop :=
  i.type = .dateTime → ∀ s, x.HasText s → ∀ d, fromIso s = some d → P d

/-- The same for a complex attribute: in all sub-attributes of all items. -/
def Attr.DatesIn (P : DateTime → Prop) : Attr → Val → Prop
  | .simple i, x => i.DatesIn P x
  | .complex _ subs _ _, x => ∀ z ∈ x.asList, ∀ r s y, findAttr subs r = some s → z.getItem r = .ok y → s.info.DatesIn P y

/-- All dates in the object are as described. -/
def Dated (P : DateTime → Prop) (attrs : List Attr) (x : Val) : Prop :=
  ∀ r a y, findAttr attrs r = some a → x.getItem r = .ok y → a.DatesIn P y

/-! ## Filters -/

/-- The comparison of an attribute that is not complex with a literal makes sense.  An operator that is not defined for the
type is allowed: such a comparison fails.  Dates are compared with dates, and only one at a time; for the order, both or
neither have an offset.  Otherwise equality makes sense for everything, and any operator for text without regard to case;
the other operators want a literal of the kind of the values and no gaps in the values. -/
def AttrInfo.Comparable (P : DateTime → Prop) (i : AttrInfo) (gaps : Bool) (o : CmpOp) (v : Prim) : Prop :=
  i.type ≠ .unknown ∧ (o.supportsType i.type = true →
    if i.type = .dateTime then
      i.multi = false ∧ gaps = false ∧ ∀ s d, fromIso s = some d → P d →
        ∃ t, v = .str t ∧ (o.isOrder = true → ∀ d', fromIso t = some d' → d.off.isSome = d'.off.isSome)
    else
      o.isEquality = true ∨ ((∃ t, v = .str t) ∧ i.caseExact = false) ∨ (gaps = false ∧ i.type.Suits v))

/-- The same for any attribute.  A complex attribute stands for the `value`s of its items. -/
def Attr.Comparable (P : DateTime → Prop) (attrs : List Attr) (o : CmpOp) (v : Prim) (a : Attr) : Prop :=
  match a with
  | .simple i => i.Comparable P (a.underMulti attrs) o v
  | .complex i subs _ _ =>
    i.multi = true → (∃ s ∈ subs, s.rep.attr = valueWord) → o.isEquality = true ∨ ((∃ t, v = .str t) ∧ i.caseExact = false)

mutual
/-- The filter fits the attributes: names can be read, comparisons make sense, and presence is not asked for of a multi-valued
complex attribute; complex attributes do not have complex sub-attributes. -/
def Op.WellTyped (P : DateTime → Prop) : List Attr → Op → Prop
  | attrs, .pr r => ReadableName attrs r ∧ ∀ a, findAttr attrs r = some a → ¬ (a.isComplex = true ∧ a.info.multi = true)
  | attrs, .cmp o r v => ReadableName attrs r ∧ ∀ a, findAttr attrs r = some a → a.Comparable P attrs o v
  | attrs, .cplx r sub => ReadableName attrs r ∧
      match findAttr attrs r with
      | some (.complex _ subs _ _) => (∀ s ∈ subs, s.rep.sub = [] ∧ s.isComplex = false) ∧ sub.WellTyped P subs
      | _ => True
  | attrs, .not sub => sub.WellTyped P attrs
  | attrs, .and subs => Op.AllWellTyped P attrs subs
  | attrs, .or subs => Op.AllWellTyped P attrs subs
/-- all operands fit -/
def Op.AllWellTyped (P : DateTime → Prop) : List Attr → List Op → Prop
  | _, [] => True
  | attrs, o :: os => o.WellTyped P attrs ∧ Op.AllWellTyped P attrs os
end

end Scim
