import Verif.Model.Sorter

/-! Specification vocabulary for sorting. -/

namespace Scim

/-- `≤` on numbers; nothing is comparable with `nan`. -/
def NumLe : PyFloat → PyFloat → Prop
  | .nan, _ => False
  | _, .nan => False
  | .inf true, _ => True
  | _, .inf false => True
  | .fin a, .fin b => a ≤ b
  | _, _ => False

/-- `≤` on strings: lexicographic order of code points. -/
def CodeLe (s t : Str) : Prop := ¬ (t.map Char.toNat < s.map Char.toNat)

/-- `≤` on dates: both without or both with an offset, and not later. -/
def DateLe (a b : DateTime) : Prop :=
  match a.off, b.off with
  | none, none => a.wall ≤ b.wall
  | some x, some y => a.wall - x ≤ b.wall - y
  | _, _ => False

/-- The order of the sort keys: strings among themselves (ignoring case unless one of the attributes is case
sensitive), numbers and booleans among themselves, dates among themselves; "no value" behind everything. -/
def KeyLe [PyEnv] : SortKey → SortKey → Prop
  | _, .last => True
  | .str s e, .str t f => if e || f then CodeLe s t else CodeLe (lower s) (lower t)
  | .val (.prim p), .val (.prim q) => ∃ x y, p.num? = some x ∧ q.num? = some y ∧ NumLe x y
  | .val (.dt a), .val (.dt b) => DateLe a b
  | _, _ => False

/-- A key of a simple kind: no list, no `nan`, and if a string then of an attribute with the given case
sensitivity. -/
def SortKey.Plain (caseExact : Bool) : SortKey → Prop
  | .last => True
  | .str _ e => e = caseExact
  | .val (.list _) => False
  | .val (.prim (.str _)) => False
  | .val (.prim (.flt .nan)) => False
  | .val _ => True

/-- Position `i` stands before position `j` in the result of a stable ascending (descending) sort. -/
def Before [PyEnv] (asc : Bool) (k : Nat → SortKey) (i j : Nat) : Prop :=
  if asc then KeyLe (k i) (k j) ∧ (KeyLe (k j) (k i) → i < j)
  else KeyLe (k j) (k i) ∧ (KeyLe (k i) (k j) → i < j)

/-- A value that can make a key: present, not empty/zero/false, and if a string then of an attribute of type
string. -/
def UsableValue (i : AttrInfo) (v : Val) : Prop :=
  v.truthy = true ∧ ∀ s, v = .str s → i.type = .string

/-- The resource has a usable value for the attribute: its value, the first of its values, or, for multi-valued
complex attributes, the `value` of the first primary one. -/
def HasSortValue [PyEnv] (rep : AttrRep) (schema : Schema) (item : Val) : Prop :=
  ∃ a x, schema.attrs.get rep = some a ∧ item.getItem rep = .ok x ∧
    ((a.info.multi = false ∧ UsableValue a.info x) ∨
     (a.info.multi = true ∧ a.isComplex = false ∧ ∃ y ys, x = .list (y :: ys) ∧ UsableValue a.info y) ∨
     (a.info.multi = true ∧ a.isComplex = true ∧ ∃ pre y post, x = .list (pre ++ y :: post) ∧
        (∀ z ∈ pre, ∃ p, z.subscript "primary".toList = .ok p ∧ p ≠ .bool true) ∧
        y.subscript "primary".toList = .ok (.bool true) ∧
        ∃ v sub, y.subscript "value".toList = .ok v ∧
          a.subs.find? (fun s => lower s.rep.attr == "value".toList) = some sub ∧
          UsableValue sub.info v))

/-- The resource is compared by the value `v` of an attribute with the characteristics `i`: the value of the attribute,
the first of its values, or, for multi-valued complex attributes, the `value` of the first primary one. -/
def SortedBy [PyEnv] (rep : AttrRep) (schema : Schema) (item : Val) (i : AttrInfo) (v : Val) : Prop :=
  ∃ a x, schema.attrs.get rep = some a ∧ item.getItem rep = .ok x ∧
    ((a.info.multi = false ∧ i = a.info ∧ v = x) ∨
     (a.info.multi = true ∧ a.isComplex = false ∧ i = a.info ∧ ∃ ys, x = .list (v :: ys)) ∨
     (a.info.multi = true ∧ a.isComplex = true ∧ ∃ pre y post sub, x = .list (pre ++ y :: post) ∧
        (∀ z ∈ pre, ∃ p, z.subscript "primary".toList = .ok p ∧ p ≠ .bool true) ∧
        y.subscript "primary".toList = .ok (.bool true) ∧ y.subscript "value".toList = .ok v ∧
        a.subs.find? (fun s => lower s.rep.attr == "value".toList) = some sub ∧ i = sub.info))

/-- How a usable value is compared: texts as texts, exactly if the attribute is case sensitive, everything else as it
is. -/
def keyFor (i : AttrInfo) : Val → SortKey
  | .prim (.str s) => .str s i.caseExact
  | v => .val v

end Scim
