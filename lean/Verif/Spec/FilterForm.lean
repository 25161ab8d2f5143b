import Verif.Spec.Filter

/-!
# What accepted filters look like, and when two filters are the same

Neither definition refers to the parser or to the comparison of the library.
-/

namespace Scim

/-- The values of accepted filters: strings, `true`, `false`, `null`, integers, and finite numbers that are not
integral. -/
def Prim.Literal : Prim → Prop
  | .flt (.fin q) => q.den ≠ 1
  | .flt _ => False
  | _ => True

/-- The finite number a scalar stands for: `true` counts as 1, `false` as 0. -/
def Prim.rat? : Prim → Option Rat
  | .bool true => some 1
  | .bool false => some 0
  | .int i => some i
  | .flt (.fin q) => some q
  | _ => Option.none

/-- Equal scalars: both null, the same string, the same finite number or the same infinity; NaN is equal to nothing. -/
inductive SameValue : Prim → Prim → Prop
  | null : SameValue .none .none
  | str (s : Str) : SameValue (.str s) (.str s)
  | num (v w : Prim) (q : Rat) : v.rat? = some q → w.rat? = some q → SameValue v w
  | inf (b : Bool) : SameValue (.flt (.inf b)) (.flt (.inf b))

/-- The text under which a filter shows an attribute: the name with its schema; of a dotted name only the part behind
the dot. -/
def AttrRep.shown (r : AttrRep) : Str :=
  if r.sub ≠ [] then r.sub else if r.schema ≠ [] then r.schema ++ ':' :: r.attr else r.attr

mutual
/-- The same filter: the same operators, applied to attributes of the same spelling, with the same values and the same
operands in the same order. -/
inductive SameFilter : Op → Op → Prop
  | pr (r s : AttrRep) : r.shown = s.shown → SameFilter (.pr r) (.pr s)
  | cmp (o : CmpOp) (r s : AttrRep) (v w : Prim) : r.shown = s.shown → SameValue v w →
      SameFilter (.cmp o r v) (.cmp o s w)
  | cplx (r s : AttrRep) (x y : Op) : r.shown = s.shown → SameFilter x y → SameFilter (.cplx r x) (.cplx s y)
  | not (x y : Op) : SameFilter x y → SameFilter (.not x) (.not y)
  | and (xs ys : List Op) : SameFilters xs ys → SameFilter (.and xs) (.and ys)
  | or (xs ys : List Op) : SameFilters xs ys → SameFilter (.or xs) (.or ys)
/-- The same operands. -/
inductive SameFilters : List Op → List Op → Prop
  | nil : SameFilters [] []
  | cons (x y : Op) (xs ys : List Op) : SameFilter x y → SameFilters xs ys → SameFilters (x :: xs) (y :: ys)
end

section
variable [PyEnv]

mutual
/-- A filter as the parser makes it: all names are names a user can write down and none is dotted (operators on
sub-attributes are wrapped); comparisons have values their operator takes; `and` and `or` have two operands or more. -/
def Op.Formed : Op → Prop
  | .pr r => r.Proper ∧ r.sub = []
  | .cmp o r v => r.Proper ∧ r.sub = [] ∧ o.takes v ∧ v.Literal
  | .cplx r x => r.Proper ∧ r.sub = [] ∧ x.Formed
  | .not x => x.Formed
  | .and xs => 2 ≤ xs.length ∧ Op.AllFormed xs
  | .or xs => 2 ≤ xs.length ∧ Op.AllFormed xs
/-- The same for operands. -/
def Op.AllFormed : List Op → Prop
  | [] => True
  | x :: xs => x.Formed ∧ Op.AllFormed xs
end

end
end Scim
