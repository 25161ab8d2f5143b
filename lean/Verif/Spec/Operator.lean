import Verif.Model.Operator

/-! Specification vocabulary for matching. -/

namespace Scim

/-- Kleene's three truth values. -/
inductive Truth where
  | f | u | t
deriving DecidableEq, Repr

namespace Truth
/-- conjunction -/
def and : Truth → Truth → Truth
  | .f, _ => .f
  | _, .f => .f
  | .u, _ => .u
  | _, .u => .u
  | .t, .t => .t
/-- disjunction -/
def or : Truth → Truth → Truth
  | .t, _ => .t
  | _, .t => .t
  | .u, _ => .u
  | _, .u => .u
  | .f, .f => .f
/-- the status reported for a truth value -/
def status : Truth → MatchStatus
  | .t => .passed
  | .u => .missing
  | .f => .failed
end Truth

/-- The truth value of an operand; `noAttr` (undeclared attribute) is given separately. -/
def MatchStatus.truth (undeclared : Truth) : MatchStatus → Truth
  | .passed => .t
  | .failed => .f
  | .missing => .u
  | .noAttr => undeclared

/-- What the comparison operators mean on strings; the order is the lexicographic order of code points. -/
def StrRel : CmpOp → Str → Str → Prop
  | .eq, s, t => s = t
  | .ne, s, t => s ≠ t
  | .co, s, t => t <:+: s
  | .sw, s, t => t <+: s
  | .ew, s, t => t <:+ s
  | .gt, s, t => t.map Char.toNat < s.map Char.toNat
  | .ge, s, t => ¬ (s.map Char.toNat < t.map Char.toNat)
  | .lt, s, t => s.map Char.toNat < t.map Char.toNat
  | .le, s, t => ¬ (t.map Char.toNat < s.map Char.toNat)

/-- Neither null nor absent nor invalid nor a list: a single value. -/
def Val.Single (v : Val) : Prop :=
  v.isNoneOrMissing = false ∧ v.isInvalid = false ∧ v.isList = false

end Scim
