import Verif.Spec.Filter
import Verif.Spec.Presence
import Verif.Model.Path

/-!
# Specification of paths

Independent of the parser, except for the type of paths.
-/

namespace Scim

/-- What is left of a text when the quoted parts are removed; `skip` characters of a quoted part are pending.  A
quote without a partner is an ordinary character. -/
def unquotedFrom : Str → (skip : Nat) → Str
  | [], _ => []
  | _ :: cs, skip + 1 => unquotedFrom cs skip
  | c :: cs, 0 =>
    if (c = '\'' ∨ c = '"') ∧ c ∈ cs then unquotedFrom cs ((cs.takeWhile (· ≠ c)).length + 1)
    else c :: unquotedFrom cs 0

/-- The text without its quoted parts. -/
def unquoted (s : Str) : Str := unquotedFrom s 0

/-- There is no square bracket. -/
def NoBracket (s : Str) : Prop := '[' ∉ s ∧ ']' ∉ s

/-- There is one pair of square brackets. -/
def OnePair (s : Str) : Prop := ∃ a b c, s = a ++ '[' :: b ++ ']' :: c ∧ NoBracket a ∧ NoBracket b ∧ NoBracket c

section
variable [PyEnv]

/-- The invariants of a path. -/
structure PatchPath.Ok (p : PatchPath) : Prop where
  /-- a filter is a filter on the path's own attribute -/
  filter : ∀ o, p.filter = some o → ∃ r o', o = .cplx r o' ∧ r.SameAs p.rep
  /-- the trailing name is that of a sub-attribute of the path's own attribute -/
  sub : ∀ s, p.subRep = some s → s.sub ≠ [] ∧ p.rep.SameTop s
  /-- a path to a sub-attribute has neither -/
  single : p.rep.sub ≠ [] → p.filter = none ∧ p.subRep = none

end
end Scim
