import Verif.Spec.Valid
import Verif.Spec.PatchTotality
import Verif.Spec.PatchRequest

/-!
# Valid patch requests

The words of C117: when a document is the body of a patch request for resources of a schema.
-/

namespace Scim.Valid
variable [PyEnv]
open Declared

/-- A schema whose patch requests C117 speaks about: its attributes are standard and usual, each has one of the types of values,
and so are the parts of complex attributes; it has one extension at most.  The schemas of users and groups are such. -/
structure Patchable (r : Schema) : Prop where
  schema : PatchSchema r
  proper : Proper r
  typed : ∀ a ∈ r.attrs.all, a.info.type ≠ .unknown
  one : r.exts.length ≤ 1
  parts : ∀ a ∈ r.attrs.all, a.rep.sub ≠ [] → ∃ i, a = .simple i ∧ Usual .parse (.simple { i with rep := { i.rep with sub := [] } })

/-- What an operation says under a name. -/
def says (n : String) (E : List (Str × Val)) : Option Val := found n.toList E

/-- The operation has no path: it is absent or `null`. -/
def PathOpen (E : List (Str × Val)) : Prop := ∀ x, says "path" E = some x → x = .null

/-- The operation has this path. -/
def PathGiven (E : List (Str × Val)) (p : PatchPath) : Prop :=
  ∃ t, says "path" E = some (.str t) ∧ PatchPath.parse t = .ok (some p, {})

/-- The operation is `add` or `replace`, in these very letters. -/
def Updates (E : List (Str × Val)) : Prop :=
  says "op" E = some (.str "add".toList) ∨ says "op" E = some (.str "replace".toList)

/-- The object has something for the attribute: for an attribute of the resource, anything, be it `null`; for a part of an
attribute with one value, anything in its object; for a part of an attribute with many values, a list for that attribute,
whatever it contains. -/
inductive Touches (r : Schema) (V : List (Str × Val)) (a : Attr) : Prop
  | top {x : Val} : a.rep.sub = [] → look a.rep V = some x → Touches r V a
  | sub {t : Attr} {x : Val} : a.rep.sub ≠ [] → Parent r a t → t.info.multi = false → under a.rep.sub (look t.rep V) = some x →
      Touches r V a
  | list {t : Attr} {xs : List Val} : a.rep.sub ≠ [] → Parent r a t → t.info.multi = true → look t.rep V = some (.list xs) →
      Touches r V a

/-- The new value is for the attribute the path points at: it can be changed, the value is one it accepts, and if it is an
object it has nothing for the parts that cannot be changed. -/
def UpdateAt (r : Schema) (p : PatchPath) (E : List (Str × Val)) : Prop :=
  p.Declared r ∧ ∃ a u, p.target r = some a ∧ ¬ a.ReadOnly ∧ says "value" E = some u ∧ ValidFor .parse a u ∧
    (a.isComplex = true → a.info.multi = false → ∀ s ∈ a.subs, s.ReadOnly → under s.rep.attr (some u) = none)

/-- The new value is an object with acceptable values only, and with nothing for attributes that cannot be changed. -/
def UpdateAll (r : Schema) (E : List (Str × Val)) : Prop :=
  ∃ V, says "value" E = some (.dict V) ∧ ValidIn .parse r.attrs.top V ∧ ∀ a ∈ r.attrs.all, a.ReadOnly → ¬ Touches r V a

/-- What the path points at can be removed: it is declared and can be changed, and it is not required (a required complex
attribute can be removed as a whole). -/
def Removable (r : Schema) (p : PatchPath) : Prop :=
  ∃ a, r.attrs.get p.rep = some a ∧ ¬ a.ReadOnly ∧
    match p.subRep with
    | none => a.info.required = true → a.isComplex = true
    | some s => ∃ b, r.attrs.get s = some b ∧ ¬ b.ReadOnly ∧ b.info.required = false

/-- An operation on resources of the schema: what to do is one of the three words in any spelling (or not said); `add` needs a
value, and no filter without an attribute behind it; `add` and `replace`, in these very letters, bring a value for what the path
points at, or an object if there is no path; all others remove what the path points at. -/
structure GoodOp (r : Schema) (E : List (Str × Val)) : Prop where
  word : ∀ x, says "op" E = some x → x = .null ∨ ∃ w, x = .str w ∧ IsWord w
  add : says "op" E = some (.str "add".toList) → (∃ u, says "value" E = some u ∧ u ≠ .null) ∧
    ∀ p, PathGiven E p → p.filter.isSome = true → p.subRep.isSome = true
  effect : (PathOpen E ∧ Updates E ∧ UpdateAll r E) ∨
    ∃ p, PathGiven E p ∧ (Updates E → UpdateAt r p E) ∧ (¬ Updates E → Removable r p)

/-- The document is the body of a patch request: the schemas listed, if any, are the schema of patch requests, and `Operations`
is a list of operations. -/
structure PatchBody (r : Schema) (D : List (Str × Val)) : Prop where
  schemas : ∀ x, look { schema := PatchA.urn, attr := "schemas".toList } D = some x →
    x = .null ∨ ∃ strs : List Str, x = .list (strs.map Val.str) ∧ ∀ t ∈ strs, lower t = lower PatchA.urn
  operations : ∃ Es : List (List (Str × Val)),
    look { schema := PatchA.urn, attr := "Operations".toList } D = some (.list (Es.map Val.dict)) ∧ ∀ E ∈ Es, GoodOp r E

/-- The operation gives `null` for an attribute whose values are lists of objects: the path stands for it and the value is `null`,
or there is no path and the object has `null` for it. -/
def NullItems (r : Schema) (E : List (Str × Val)) : Prop :=
  (∃ p a, PathGiven E p ∧ p.stands r = some a ∧ a.ManyParts ∧ says "value" E = some .null) ∨
  (PathOpen E ∧ ∃ V a, says "value" E = some (.dict V) ∧ a ∈ r.attrs.all ∧ a.ManyParts ∧ look a.rep V = some .null)

/-- A complete patch request: the body of one, which lists the schema of patch requests, has an operation at least, and no
operation that brings something gives `null` for lists of objects. -/
structure PatchWhole (r : Schema) (D : List (Str × Val)) : Prop where
  body : PatchBody r D
  schemas : ∃ strs : List Str, strs ≠ [] ∧
    look { schema := PatchA.urn, attr := "schemas".toList } D = some (.list (strs.map Val.str))
  operations : ∀ Es : List (List (Str × Val)),
    look { schema := PatchA.urn, attr := "Operations".toList } D = some (.list (Es.map Val.dict)) →
      Es ≠ [] ∧ ∀ E ∈ Es, Updates E → ¬ NullItems r E

end Scim.Valid
