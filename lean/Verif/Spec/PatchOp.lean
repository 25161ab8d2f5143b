import Verif.Model.Assets.PatchOp
import Verif.Spec.Schemas

/-! Specification vocabulary for patch operations. -/

namespace Scim
variable [PyEnv]

/-- The attributes a path names are declared: the attribute (or sub-attribute) itself and the sub-attribute behind
the filter, if there is one. -/
def PatchPath.Declared (r : Schema) (p : PatchPath) : Prop :=
  (r.attrs.get p.rep).isSome ∧ ∀ s, p.subRep = some s → (r.attrs.get s).isSome

/-- What a path points at: the sub-attribute behind the filter of a complex attribute, otherwise the attribute (or
sub-attribute) named. -/
def PatchPath.target (r : Schema) (p : PatchPath) : Option Attr :=
  match p.filter, p.subRep with
  | some _, some s => if (r.attrs.get p.rep).any Attr.isComplex then r.attrs.get s else r.attrs.get p.rep
  | _, _ => r.attrs.get p.rep

/-- The value is the given text. -/
def Val.Is (v : Val) (s : String) : Prop := v = .str s.toList

/-- What an operation of a patch request says: the value of `op`, the path (parsed) and the value. -/
structure OpInput (x o path value : Val) : Prop where
  op : x.getItem { attr := PatchA.opWord } = .ok o
  val : x.getItem { attr := PatchA.valWord } = .ok value
  /-- the path is absent, null, or a text that parses -/
  pth : (x.getItem { attr := PatchA.pathWord } = .ok path ∧ path.isNoneOrMissing = true) ∨
    ∃ s p, x.getItem { attr := PatchA.pathWord } = .ok (.str s) ∧ PatchPath.parse s = .ok (some p, {}) ∧
      path = .obj (.path p)
  /-- `op` is absent, null, or one of the three words up to letter case -/
  word : o.isNoneOrMissing = true ∨ ∃ t, o = .str t ∧ (lower t = PatchA.addWord ∨ lower t = PatchA.removeWord ∨
    lower t = PatchA.replaceWord)

/-- The operations of a patch request, as given. -/
def Val.Operations (data : Val) (xs : List Val) : Prop :=
  data.toCont.getItem { schema := PatchA.urn, attr := PatchA.opsWord } = .ok (.list xs)

/-- The operation has this path. -/
def HasPath (x : Val) (p : PatchPath) : Prop :=
  ∃ s is, x.getItem { attr := PatchA.pathWord } = .ok (.str s) ∧ PatchPath.parse s = .ok (some p, is)

/-- The operation is `add` or `replace`, in these very letters. -/
def IsUpdate (x : Val) : Prop :=
  x.getItem { attr := PatchA.opWord } = .ok (.str PatchA.addWord) ∨
  x.getItem { attr := PatchA.opWord } = .ok (.str PatchA.replaceWord)

/-- The attribute cannot be changed by clients. -/
def Attr.ReadOnly (a : Attr) : Prop := a.info.mutability = .readOnly

/-- `b` is a sub-attribute of `a`, as they stand among the attributes of a schema. -/
def Attr.ParentOf (a b : Attr) : Prop :=
  a.rep.sub = [] ∧ b.rep.sub ≠ [] ∧ a.rep.schema = b.rep.schema ∧ a.rep.attr = b.rep.attr

/-- Read-only attributes have read-only sub-attributes only. -/
def Schema.ReadOnlyDeep (r : Schema) : Prop :=
  ∀ a ∈ r.attrs.all, ∀ b ∈ r.attrs.all, a.ParentOf b → a.ReadOnly → b.ReadOnly

/-- The location of an operation in a request. -/
def opAt (i : Nat) : Loc := [.name "Operations".toList, .idx i]

end Scim
