import Verif.Spec.PatchOp
import Verif.Spec.Presence
import Verif.Spec.Attributes

/-! Specification vocabulary for the new values of PATCH requests. -/

namespace Scim
variable [PyEnv]

/-- An attribute whose values are lists of objects. -/
def Attr.ManyParts (a : Attr) : Prop := a.isComplex = true ∧ a.info.multi = true

/-- Whoever gives an item of `a` has to give its part `s`: the part is required, and not issued by the server. -/
def Attr.Demands (a s : Attr) : Prop := s ∈ a.subs ∧ s.info.required = true ∧ s.info.issuer ≠ .server

/-- The item `x` of `a` lacks the part `s`. -/
def Attr.Lacks (a s : Attr) (x : Val) : Prop := a.Demands s ∧ ∃ w, x.getItem s.rep = .ok w ∧ w.Empty

/-- The attribute the path stands for: the sub-attribute behind the filter if there is one, otherwise the attribute
named. -/
def PatchPath.stands (r : Schema) (p : PatchPath) : Option Attr :=
  match p.subRep with
  | some s => r.attrs.get s
  | none => r.attrs.get p.rep

/-- The operation `o` brings the items `xs` of the attribute `a`, at the place `l` in its value: with a path the value
itself is the list of items, without one the value is an object with the attribute in it. -/
inductive NewItems (r : Schema) (o : Val) : Loc → Attr → List Val → Prop
  | path {p : PatchPath} {a : Attr} {xs : List Val} :
      o.getItem { attr := PatchA.pathWord } = .ok (.obj (.path p)) → p.stands r = some a → a.ManyParts →
      o.getItem { attr := PatchA.valWord } = .ok (.list xs) → NewItems r o [] a xs
  | object {q v : Val} {a : Attr} {xs : List Val} :
      o.getItem { attr := PatchA.pathWord } = .ok q → q.isNoneOrMissing = true →
      o.getItem { attr := PatchA.valWord } = .ok v → a ∈ r.attrs.all → a.ManyParts →
      v.getItem a.rep = .ok (.list xs) → NewItems r o a.rep.loc a xs

/-- The operation is not `remove`. -/
def Sets (o : Val) : Prop := ∃ t, o.getItem { attr := PatchA.opWord } = .ok t ∧ t ≠ .str PatchA.removeWord

end Scim
