import Verif.Spec.AttrRep
import Verif.Model.Operator

/-!
# Specification of filter texts

A grammar in the style of RFC 7644, section 3.4.2.2, that relates texts to the filters they denote.  It does not
refer to the parser.
-/

namespace Scim
section
variable [PyEnv]

/-- White space. -/
def Ws (w : Str) : Prop := ∀ c ∈ w, isSpace c = true

/-- `kw` does not occur in `s` as a word of its own. -/
def NoWord (kw s : Str) : Prop :=
  ∀ a b, s = a ++ kw ++ b → (∃ c, a.getLast? = some c ∧ isWord c = true) ∨ (∃ c, b.head? = some c ∧ isWord c = true)

/-- None of the logical operators occurs in `s` as a word of its own. -/
def NoKeyword (s : Str) : Prop := NoWord "or".toList s ∧ NoWord "and".toList s ∧ NoWord "not".toList s

/-- `n` is `name` up to the case of ASCII letters. -/
def CaseOf (n name : Str) : Prop := n.map asciiLower = name

/-- The name of a comparison operator. -/
def CmpOp.scim : CmpOp → Str
  | .eq => "eq".toList | .ne => "ne".toList | .co => "co".toList | .sw => "sw".toList | .ew => "ew".toList
  | .gt => "gt".toList | .ge => "ge".toList | .lt => "lt".toList | .le => "le".toList

/-- The values a comparison operator takes in a filter: `co`, `sw`, `ew` only strings, the orderings only strings and
numbers. -/
def CmpOp.takes : CmpOp → Prim → Prop
  | .eq, _ | .ne, _ => True
  | .co, v | .sw, v | .ew, v => ∃ s, v = .str s
  | .gt, v | .ge, v | .lt, v | .le, v => (∃ s, v = .str s) ∨ (∃ n, v = .int n) ∨ (∃ f, v = .flt f)

/-! ## Values -/

/-- A quoted string: any text without the quote itself. -/
def Quoted (t : Str) (v : Prim) : Prop :=
  ∃ q s, (q = '"' ∨ q = '\'') ∧ q ∉ s ∧ t = q :: s ++ [q] ∧ v = .str s

/-- The number denoted by a finite float: an `int` if it is integral. -/
def numOf (q : Rat) : Prim := if q.den = 1 then .int q.num else .flt (.fin q)

/-- A value written without quotes: a constant or a number. -/
def Bare (t : Str) (v : Prim) : Prop :=
  t ≠ [] ∧ (∀ c ∈ t, isSpace c = false ∧ c ∉ "\"'()[]|".toList) ∧ NoKeyword t ∧
    ((t = "true".toList ∧ v = .bool true) ∨ (t = "false".toList ∧ v = .bool false) ∨ (t = "null".toList ∧ v = .none) ∨
      (t ≠ "true".toList ∧ t ≠ "false".toList ∧ t ≠ "null".toList ∧ ∃ q, parseFloat t = some (.fin q) ∧ v = numOf q))

/-- A value as the user writes it. -/
def Value (t : Str) (v : Prim) : Prop := Quoted t v ∨ Bare t v

/-! ## Attribute expressions -/

/-- An operator on the attribute of a name; on a sub-attribute it is wrapped. -/
def onName (r : AttrRep) (f : AttrRep → Op) : Op :=
  if r.sub = [] then f r
  else .cplx { schema := r.schema, attr := r.attr } (f { attr := r.sub })

/-- `name pr` or `name op value`, where `V` tells what values look like. -/
inductive Atom (V : Str → Prim → Prop) : Str → Op → Prop
  | pr (name w n : Str) (r : AttrRep) : AttrRep.parse name = some r → NoKeyword name → Ws w → w ≠ [] →
      CaseOf n "pr".toList → Atom V (name ++ w ++ n) (onName r .pr)
  | cmp (name w n w' t : Str) (r : AttrRep) (o : CmpOp) (v : Prim) : AttrRep.parse name = some r → NoKeyword name →
      Ws w → w ≠ [] → CaseOf n o.scim → Ws w' → w' ≠ [] → V t v → o.takes v →
      Atom V (name ++ w ++ n ++ w' ++ t) (onName r (fun x => .cmp o x v))

end

/-! ## Logical operators -/

/-- A conjunction; of one operand, the operand itself. -/
def conjOp : List Op → Op
  | [o] => o
  | os => .and os

/-- A disjunction; of one operand, the operand itself. -/
def disjOp : List Op → Op
  | [o] => o
  | os => .or os

section
variable [PyEnv]

/-- Operands separated by a keyword with white space around it. -/
inductive Joined (kw : Str) (P : Str → Op → Prop) : Str → List Op → Prop
  | one (t : Str) (o : Op) : P t o → Joined kw P t [o]
  | more (t w w' t' : Str) (o : Op) (os : List Op) : P t o → Ws w → w ≠ [] → Ws w' → w' ≠ [] →
      Joined kw P t' os → Joined kw P (t ++ w ++ kw ++ w' ++ t') (o :: os)

/-- An operand or its negation; no white space is needed between `not` and a group, which begins with `b`. -/
inductive NotText (b : Char) (P : Str → Op → Prop) : Str → Op → Prop
  | plain (t : Str) (o : Op) : P t o → NotText b P t o
  | not (w t : Str) (o : Op) : P t o → Ws w → (w ≠ [] ∨ t.head? = some b) →
      NotText b P ("not".toList ++ w ++ t) (.not o)

/-- Operands, possibly negated, joined by `and`. -/
def AndText (b : Char) (P : Str → Op → Prop) (t : Str) (o : Op) : Prop :=
  ∃ os, Joined "and".toList (NotText b P) t os ∧ o = conjOp os

/-- Conjunctions joined by `or`. -/
def OrText (b : Char) (P : Str → Op → Prop) (t : Str) (o : Op) : Prop :=
  ∃ os, Joined "or".toList (AndText b P) t os ∧ o = disjOp os

/-- A text in round brackets. -/
inductive Group (P : Str → Op → Prop) : Str → Op → Prop
  | mk (w t w' : Str) (o : Op) : Ws w → Ws w' → P t o → Group P ('(' :: w ++ t ++ w' ++ [')']) o

/-- Filters with round brackets nested to depth `n`.  Texts of the form `X` (complex-attribute filters) can stand in
place of attribute expressions, but not directly beside groups. -/
def Nested (V : Str → Prim → Prop) (X : Str → Op → Prop) : Nat → Str → Op → Prop
  | 0, t, o => OrText '(' (fun t o => Atom V t o ∨ X t o) t o
  | n + 1, t, o => OrText '(' (fun t o => Atom V t o ∨ X t o) t o ∨
      OrText '(' (fun t o => Atom V t o ∨ Group (Nested V X n) t o) t o

/-- No text. -/
def NoText (_ : Str) (_ : Op) : Prop := False

/-- A complex-attribute filter `name[filter]`; the brackets contain no square brackets. -/
inductive CplxText (V : Str → Prim → Prop) : Str → Op → Prop
  | mk (name w t w' : Str) (r : AttrRep) (n : Nat) (o : Op) : AttrRep.parse name = some r → r.sub = [] →
      '-' ∉ name → '$' ∉ name → Ws w → Ws w' → Nested V NoText n t o →
      CplxText V (name ++ '[' :: w ++ t ++ w' ++ [']']) (.cplx r o)

/-- Filter texts without square brackets. -/
def FilterText (t : Str) (o : Op) : Prop := ∃ n, Nested Value NoText n t o

/-- Filter texts in which groups and complex-attribute filters do not stand side by side. -/
def FilterTextX (t : Str) (o : Op) : Prop := ∃ n, Nested Value (CplxText Value) n t o

end

/-- Round brackets are balanced: as many closing as opening ones, and nowhere more closing ones before. -/
def Balanced (s : Str) : Prop :=
  s.count '(' = s.count ')' ∧ ∀ p, p <+: s → p.count ')' ≤ p.count '('

/-! ## Printing -/

/-- Text of a value; `num` prints numbers. -/
def Prim.filterText (num : Prim → Str) : Prim → Str
  | .str s => '"' :: s ++ ['"']
  | .bool true => "true".toList
  | .bool false => "false".toList
  | .none => "null".toList
  | v => num v

/-- The name under which a user writes the attribute of a wrapped operator. -/
def subName (r s : AttrRep) : Str := r.toStr ++ '.' :: s.attr

/-- The texts with a separator between them. -/
def joinTexts (kw : Str) : List Str → Str
  | [] => []
  | [x] => x
  | x :: xs => x ++ kw ++ joinTexts kw xs

/-- Brackets around an operand that is not an attribute expression. -/
def Op.bracket (o : Op) (s : Str) : Str := if o.isLogical then '(' :: s ++ [')'] else s

mutual
/-- The text of a filter; every operand that is not an attribute expression is put in brackets.  (Operators on
sub-attributes are printed with a dotted name, other complex-attribute operators are not printed.) -/
def Op.text (num : Prim → Str) : Op → Str
  | .pr r => r.toStr ++ " pr".toList
  | .cmp o r v => r.toStr ++ ' ' :: o.scim ++ ' ' :: v.filterText num
  | .cplx r sub => match sub with
    | .pr s => subName r s ++ " pr".toList
    | .cmp o s v => subName r s ++ ' ' :: o.scim ++ ' ' :: v.filterText num
    | _ => []
  | .not x => "not ".toList ++ x.bracket (x.text num)
  | .and xs => joinTexts " and ".toList (Op.texts num xs)
  | .or xs => joinTexts " or ".toList (Op.texts num xs)
/-- The texts of operands. -/
def Op.texts (num : Prim → Str) : List Op → List Str
  | [] => []
  | x :: xs => x.bracket (x.text num) :: Op.texts num xs
end

section
variable [PyEnv]

/-- A value whose text reads back: strings without double quotes, numbers that `num` prints as `float` reads them. -/
def Prim.Printable (num : Prim → Str) (v : Prim) : Prop := Value (v.filterText num) v

/-- A name whose text reads back and contains no keyword. -/
def AttrRep.Printable (r : AttrRep) : Prop := r.Proper ∧ NoKeyword r.toStr

mutual
/-- Filters built from comparisons, `pr`, `not`, `and`, `or` (at least two operands) whose names and values read
back. -/
def Op.Printable (num : Prim → Str) : Op → Prop
  | .pr r => r.Printable ∧ r.sub = []
  | .cmp o r v => r.Printable ∧ r.sub = [] ∧ o.takes v ∧ v.Printable num
  | .cplx r sub => match sub with
    | .pr s => ({ r with sub := s.attr } : AttrRep).Printable ∧ r.sub = [] ∧ s = { attr := s.attr } ∧ s.attr ≠ []
    | .cmp o s v => ({ r with sub := s.attr } : AttrRep).Printable ∧ r.sub = [] ∧ s = { attr := s.attr } ∧
        s.attr ≠ [] ∧ o.takes v ∧ v.Printable num
    | _ => False
  | .not x => x.Printable num
  | .and xs => 2 ≤ xs.length ∧ Op.AllPrintable num xs
  | .or xs => 2 ≤ xs.length ∧ Op.AllPrintable num xs
/-- All operands are printable. -/
def Op.AllPrintable (num : Prim → Str) : List Op → Prop
  | [] => True
  | x :: xs => x.Printable num ∧ Op.AllPrintable num xs
end
end

end Scim
