import Verif.Model.Container
import Verif.Model.DecEq

/-!
# Python `==` on the values handled by the library

`SCIMDataContainer.__eq__` (src/data/container.py:268-278) and the built-in comparisons it uses.
Simplifications: no object identity (Python compares list items by identity first), and objects other
than attribute names are never equal.
-/

namespace Scim

/-- The numeric value of a number or boolean, for cross-type comparison. -/
def Prim.num? : Prim → Option PyFloat
  | .bool b => some (.fin (if b then 1 else 0))
  | .int i => some (.fin (i : Rat))
  | .flt f => some f
  | _ => Option.none

/-- `==` on floats: NaN is not equal to itself. -/
def PyFloat.eq : PyFloat → PyFloat → Bool
  | .fin a, .fin b => a == b
  | .inf a, .inf b => a == b
  | _, _ => false

/-- `==` on scalars: numbers and booleans compare by value across types. -/
def Prim.pyEq : Prim → Prim → Bool
  | .none, .none => true
  | .str a, .str b => a == b
  | a, b => match a.num?, b.num? with
    | some x, some y => x.eq y
    | _, _ => false

/-- `==` on datetimes: aware ones compare as instants, aware and naive ones are never equal. -/
def DateTime.pyEq (a b : DateTime) : Bool :=
  match a.off, b.off with
  | none, none => a.wall == b.wall
  | some x, some y => a.wall - x == b.wall - y
  | _, _ => false

mutual
/-- Number of constructors, used as recursion bound. -/
def Val.size : Val → Nat
  | .list xs => 1 + sizeList xs
  | .dict kvs => 1 + sizePairs kvs
  | .cont data _ => 1 + sizePairs data
  | _ => 1
/-- total size of list elements -/
def sizeList : List Val → Nat
  | [] => 0
  | v :: r => 1 + v.size + sizeList r
/-- total size of dictionary values -/
def sizePairs : List (Str × Val) → Nat
  | [] => 0
  | (_, v) :: r => 1 + v.size + sizePairs r
end

variable [PyEnv]

/-- The loop `for key, value in self._data.items(): if other[key] != value: return False`
(src/data/container.py:274-278), with the comparison as parameter. -/
def contLoop (eq : Val → Val → PyM Bool) (other : Val) : List (Str × Val) → PyM Bool
  | [] => .ok true
  | (k, v) :: rest =>
    match other.getName k with
    | .error e => .error e
    | .ok x => match eq x v with
      | .error e => .error e
      | .ok false => .ok false
      | .ok true => contLoop eq other rest

/-- Item-wise comparison of two lists of the same length. -/
def listLoop (eq : Val → Val → PyM Bool) : List Val → List Val → PyM Bool
  | [], [] => .ok true
  | a :: as, b :: bs => match eq a b with
    | .error e => .error e
    | .ok false => .ok false
    | .ok true => listLoop eq as bs
  | _, _ => .ok false

/-- `dict == dict`: same number of keys and equal values. -/
def dictLoop (eq : Val → Val → PyM Bool) (other : List (Str × Val)) : List (Str × Val) → PyM Bool
  | [] => .ok true
  | (k, v) :: rest => match aget k other with
    | none => .ok false
    | some x => match eq v x with
      | .error e => .error e
      | .ok false => .ok false
      | .ok true => dictLoop eq other rest

/-- `a == b` with a recursion bound. -/
def Val.pyEqN : Nat → Val → Val → PyM Bool
  | 0, _, _ => .error .recursion
  | n + 1, a, b =>
    match a, b with
    | .cont data _, .cont d l => contLoop (pyEqN n) (.cont d l) data
    | .cont data _, .dict kvs => contLoop (pyEqN n) (Val.toCont (.dict kvs)) data
    | .dict kvs, .cont data _ => contLoop (pyEqN n) (Val.toCont (.dict kvs)) data
    | .list xs, .list ys => if xs.length = ys.length then listLoop (pyEqN n) xs ys else .ok false
    | .dict kvs, .dict kvs' =>
      if kvs.length = kvs'.length then dictLoop (pyEqN n) kvs' kvs else .ok false
    | .prim p, .prim q => .ok (p.pyEq q)
    | .missing, .missing => .ok true
    | .invalid, .invalid => .ok true
    | .dt x, .dt y => .ok (x.pyEq y)
    | .obj (.rep r), .obj (.rep r') => .ok (r.eqv r')
    | _, _ => .ok false

/-- `a == b` (src/data/container.py:268-278 for containers; theorem `C10_eq_terminates` shows that the
bound is never reached). -/
def Val.pyEq (a b : Val) : PyM Bool := Val.pyEqN (a.size + b.size + 1) a b

end Scim
