import Verif.Model.Equality
import Verif.Spec.AttrRep

/-! Specification vocabulary for equality. -/

namespace Scim
variable [PyEnv]

mutual
/-- JSON values, of any depth, in which every object key is a word, no two keys of an object differ only
in letter case, and no number is NaN. -/
def Val.Plain : Val → Prop
  | .prim p => p ≠ .flt .nan
  | .list xs => PlainList xs
  | .dict kvs => (∀ p ∈ kvs, WordRun p.1) ∧ (kvs.map (fun p => lower p.1)).Nodup ∧ PlainPairs kvs
  | _ => False
/-- all elements are plain -/
def PlainList : List Val → Prop
  | [] => True
  | v :: r => v.Plain ∧ PlainList r
/-- all values are plain -/
def PlainPairs : List (Str × Val) → Prop
  | [] => True
  | (_, v) :: r => v.Plain ∧ PlainPairs r
end

end Scim
