import Verif.Model.Types

/-! Specification vocabulary for attribute types. -/

namespace Scim

/-- Canonical base64 text: groups of four alphabet characters, the last of which may end in `==` or `=`
provided the unused low bits are zero. -/
inductive Canonical64 : Str → Prop
  | nil : Canonical64 []
  | one {a b : Char} {x y : Nat} : b64Alphabet[x]? = some a → b64Alphabet[y]? = some b → y % 16 = 0 →
      Canonical64 [a, b, '=', '=']
  | two {a b c : Char} {x y z : Nat} : b64Alphabet[x]? = some a → b64Alphabet[y]? = some b →
      b64Alphabet[z]? = some c → z % 4 = 0 → Canonical64 [a, b, c, '=']
  | three {a b c d : Char} {rest : Str} : a ∈ b64Alphabet → b ∈ b64Alphabet → c ∈ b64Alphabet →
      d ∈ b64Alphabet → Canonical64 rest → Canonical64 (a :: b :: c :: d :: rest)

/-- The Python type of parsed values of an attribute type. -/
def AttrType.Holds : AttrType → Val → Prop
  | .unknown, _ => True
  | .boolean, v => ∃ b, v = .bool b
  | .decimal, v => ∃ f, v = .prim (.flt f)
  | .integer, v => (∃ i, v = .int i) ∨ ∃ b, v = .bool b
  | .dateTime, v => ∃ d, v = .dt d
  | .complex, v => ∃ data lc, v = .cont data lc
  | _, v => ∃ s, v = .str s

/-- The Python type of dumped values of an attribute type. -/
def AttrType.Wire : AttrType → Val → Prop
  | .dateTime, v => ∃ s, v = .str s
  | t, v => t.Holds v

/-- The least integer too large for a float: half a unit in the last place below 2^1024. -/
def floatLimit : Nat := 2 ^ 1024 - 2 ^ 970

/-- One or more issues, which stop further processing. -/
def Issues.Blocks (i : Issues) : Prop := i.hasIssues = true ∧ i.canProceed = false

end Scim
