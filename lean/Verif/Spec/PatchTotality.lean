import Verif.Spec.PatchRequest
import Verif.Spec.RoundTrip
import Verif.Spec.Totality

/-! Specification vocabulary for totality of patch requests (C103): which requests are considered. -/

namespace Scim
variable [PyEnv]

/-- What the schema of the resources needs: it is well-formed, the parsers and validators of its attributes are those of the
library, its names are names, and parts have no parts. -/
structure PatchSchema (r : Schema) : Prop where
  wf : r.WF
  sane : SaneAll r.attrs.all
  noShadow : r.NoShadow
  owned : r.Owned
  standard : StandardAll .parse r.attrs.all
  plain : ∀ a ∈ r.attrs.all, PlainSubs a.subs
  named : ∀ a ∈ r.attrs.all, ∀ s ∈ a.subs, isAttrName s.rep.attr = true
  flat : ∀ a ∈ r.attrs.all, a.rep.sub ≠ [] → a.isComplex = false

/-- The operation has no path, or null for it. -/
def NoPath (x : Val) : Prop := ∃ q, x.getItem { attr := PatchA.pathWord } = .ok q ∧ q.isNoneOrMissing = true

/-- One of the three operations, in any spelling. -/
def IsWord (t : Str) : Prop := lower t = PatchA.addWord ∨ lower t = PatchA.removeWord ∨ lower t = PatchA.replaceWord

/-- An operation on resources of the schema `r` that can be looked at. -/
structure PatchItem (r : Schema) (x : Val) : Prop where
  /-- the parser of paths does not raise for its path -/
  path : ∀ s, x.getItem { attr := PatchA.pathWord } = .ok (.str s) → ∃ o, PatchPath.parse s = .ok o
  /-- without path it says what to do, and if that is one of the three operations it is `add` or `replace` in these very
  letters -/
  word : NoPath x → ∀ o, x.getItem { attr := PatchA.opWord } = .ok o → o.isNoneOrMissing = false ∧
    ∀ t, o = .str t → IsWord t → IsUpdate x
  /-- without path the new value is an ordinary object -/
  whole : NoPath x → IsUpdate x → ∃ kvs, x.getItem { attr := PatchA.valWord } = .ok (Val.dict kvs).toCont ∧ Ordinary r kvs
  /-- an attribute with a read-only part is not set to null -/
  null : ∀ p a, HasPath x p → IsUpdate x → p.target r = some a → a.isComplex = true → a.info.multi = false →
    (∃ s ∈ a.subs, s.ReadOnly) → x.getItem { attr := PatchA.valWord } ≠ .ok .null
  /-- the attribute handles the new value -/
  handled : ∀ p a v, HasPath x p → IsUpdate x → p.target r = some a → x.getItem { attr := PatchA.valWord } = .ok v →
    a.Handles v

/-- The body of a patch request: an ordinary object that says something about `Operations`; if it is a list, its objects can
be looked at. -/
structure PatchDoc (r : Schema) (kvs : List (Str × Val)) : Prop where
  ordinary : Ordinary PatchA.schema kvs
  given : ∃ x, (Val.dict kvs).toCont.getItem { schema := PatchA.urn, attr := PatchA.opsWord } = .ok x ∧ x.isNoneOrMissing = false
  items : ∀ xs, (Val.dict kvs).Operations xs → ∀ x ∈ xs, x.isCont = true → PatchItem r x

/-- Something is given that is no list. -/
def Val.NoList (w : Val) : Prop := w.isMissing = false ∧ ∀ xs, w ≠ .list xs

/-- The operation `o` brings, for an attribute whose values are lists of objects, something that is no list. -/
inductive BadItems (r : Schema) (o : Val) : Prop
  | path {p : PatchPath} {a : Attr} {w : Val} :
      o.getItem { attr := PatchA.pathWord } = .ok (.obj (.path p)) → p.stands r = some a → a.ManyParts →
      o.getItem { attr := PatchA.valWord } = .ok w → w.NoList → BadItems r o
  | object {q v : Val} {a : Attr} {w : Val} :
      o.getItem { attr := PatchA.pathWord } = .ok q → q.isNoneOrMissing = true →
      o.getItem { attr := PatchA.valWord } = .ok v → a ∈ r.attrs.all → a.ManyParts →
      v.getItem a.rep = .ok w → w.NoList → BadItems r o

end Scim
