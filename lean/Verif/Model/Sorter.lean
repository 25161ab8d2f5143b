import Verif.Model.Operator
import Verif.Model.Schemas

/-!
# Sorting (src/sorter.py)

`sorted` is modelled by a stable insertion sort that uses `<` only, as Python's `sorted` does.  The two agree
whenever `<` is a strict weak order on the keys (theorem `C64_unique`); otherwise (`nan`, nested lists, attributes
with different `caseExact` flags) Python's result depends on details of its algorithm.

The identity of the sorted objects is modelled by their positions: `Sorter.order` gives positions.
-/

namespace Scim

/-- `Sorter.parse` (src/sorter.py:52-65); `none` is `Invalid`. -/
def SorterCfg.parse [PyEnv] (by_ : Str) (asc : Bool) : Option SorterCfg × Issues :=
  match AttrRep.parse by_ with
  | none => (none, Issues.empty.add { code := 111, ctx := by_ } false)
  | some r => (some { rep := r, asc }, {})

/-- The keys: `AlwaysLastKey`, `StringKey` (src/sorter.py:11-35), and plain values. -/
inductive SortKey where
  | last
  | str (s : Str) (caseExact : Bool)
  | val (v : Val)

section
variable [PyEnv]

mutual
/-- `a < b` on plain values: scalars, dates and lists (lexicographically); `TypeError` otherwise. -/
def Val.pyLt : Val → Val → PyM Bool
  | .prim p, .prim q => p.pyLt q
  | .dt a, .dt b => a.pyLt b
  | .list xs, .list ys => listLt xs ys
  | _, _ => .error .typeError
/-- `<` on lists: the first items that are not equal decide. -/
def listLt : List Val → List Val → PyM Bool
  | _, [] => .ok false
  | [], _ :: _ => .ok true
  | x :: xs, y :: ys =>
    match x.pyEq y with
    | .error e => .error e
    | .ok true => listLt xs ys
    | .ok false => x.pyLt y
end

/-- `a < b` on keys (src/sorter.py:11-35).  A plain value defers to `AlwaysLastKey.__gt__`. -/
def SortKey.lt : SortKey → SortKey → PyM Bool
  | .last, _ => .ok false
  | _, .last => .ok true
  | .str a e, .str b f => .ok (if e || f then strLt a b else strLt (lower a) (lower b))
  | .val a, .val b => a.pyLt b
  | _, _ => .error .typeError

/-- `_get_key` (src/sorter.py:85-95). -/
def sortKeyOf (value : Val) (attr : Option AttrInfo) : SortKey :=
  match attr with
  | none => .last
  | some i =>
    if !value.truthy then .last
    else match value with
      | .prim (.str s) => if i.type = .string then .str s i.caseExact else .last
      | v => .val v

/-- `item_value[0]` -/
def Val.first : Val → PyM Val
  | .list [] => .error .indexError
  | .list (x :: _) => .ok x
  | .prim (.str []) => .error .indexError
  | .prim (.str (c :: _)) => .ok (.str [c])
  | .cont _ _ => .error .attributeError
  | .dict _ => .error .keyError
  | _ => .error .typeError

/-- The keyword `primary`. -/
def primaryWord : Str := "primary".toList

/-- The loop over the items of a complex attribute (src/sorter.py:111-121): the value and the attribute of the
first primary item. -/
def primaryKey (subs : List Attr) (attr : AttrInfo) : List Val → PyM (Val × Option AttrInfo)
  | [] => .ok (.null, some attr)
  | v :: vs =>
    match v.subscript primaryWord with
    | .error e => .error e
    | .ok p =>
      if p.isTrue then
        match v.subscript valueWord with
        | .error e => .error e
        | .ok x => .ok (x, (subs.find? (fun s => lower s.rep.attr == valueWord)).map Attr.info)
      else primaryKey subs attr vs

/-- The value and the attribute that make the key (src/sorter.py:109-125). -/
def sortValue (attr : Attr) (x : Val) : PyM (Val × Option AttrInfo) :=
  if !x.isMissing && attr.info.multi then
    match attr with
    | .complex i subs _ _ => match x.iterate with
      | .error e => .error e
      | .ok items => primaryKey subs i items
    | .simple i => match x.first with
      | .error e => .error e
      | .ok v => .ok (v, some i)
  else .ok (x, some attr.info)

/-- `_attr_key` (src/sorter.py:104-126). -/
def sortKey (rep : AttrRep) (schema : Schema) (item : Val) : PyM SortKey :=
  match schema.attrs.get rep with
  | none => .ok .last
  | some attr => match item.getItem rep with
    | .error e => .error e
    | .ok x => match sortValue attr x with
      | .error e => .error e
      | .ok (v, a) => .ok (sortKeyOf v a)

/-- Insertion behind all keys that are not greater. -/
def insertKey (p : SortKey × Nat) : List (SortKey × Nat) → PyM (List (SortKey × Nat))
  | [] => .ok [p]
  | e :: r =>
    match p.1.lt e.1 with
    | .error x => .error x
    | .ok true => .ok (p :: e :: r)
    | .ok false => match insertKey p r with
      | .error x => .error x
      | .ok r' => .ok (e :: r')

/-- A stable sort by the first components. -/
def sortKeys : List (SortKey × Nat) → List (SortKey × Nat) → PyM (List (SortKey × Nat))
  | acc, [] => .ok acc
  | acc, p :: ps => match insertKey p acc with
    | .error x => .error x
    | .ok acc' => sortKeys acc' ps

/-- `sorted(…, reverse=…)` on keys with positions: a descending sort reverses, sorts and reverses. -/
def sortedPairs (reverse : Bool) (ps : List (SortKey × Nat)) : PyM (List (SortKey × Nat)) :=
  if reverse then match sortKeys [] ps.reverse with
    | .error e => .error e
    | .ok r => .ok r.reverse
  else sortKeys [] ps

/-- `[key(x) for x in data]` with positions. -/
def keysFrom (key : Nat → Val → PyM SortKey) : Nat → List Val → PyM (List (SortKey × Nat))
  | _, [] => .ok []
  | i, x :: xs => match key i x with
    | .error e => .error e
    | .ok k => match keysFrom key (i + 1) xs with
      | .error e => .error e
      | .ok ks => .ok ((k, i) :: ks)

/-- `any(item[rep] for item in data)` -/
def anyValue (rep : AttrRep) : List Val → PyM Bool
  | [] => .ok false
  | x :: xs => match x.getItem rep with
    | .error e => .error e
    | .ok v => if v.truthy then .ok true else anyValue rep xs

/-- `data.index(item)` for the item at position `i` of `data`, which is found at the latest when it is compared
with itself (by identity). -/
def indexOf (i : Nat) (item : Val) : Nat → List Val → PyM Nat
  | _, [] => .ok i
  | j, x :: xs =>
    if i = j then .ok j
    else match x.pyEq item with
      | .error e => .error e
      | .ok true => .ok j
      | .ok false => indexOf i item (j + 1) xs

/-- The `schema` argument of a sorter: a schema, or for each item one of several schemas, given by its position in
`table` (the identity of schema objects); `none` is `None`. -/
inductive SortSchemas where
  | one (s : Schema)
  | many (table : List Schema) (ids : List (Option Nat))

/-- `len(set(schema)) == 1` and `schema[0]` is a resource schema (src/sorter.py:75-78). -/
def SortSchemas.single : SortSchemas → Option Schema
  | .one s => some s
  | .many table ids =>
    match ids with
    | [] => none
    | i :: r => if r.all (· == i) then match i with
        | none => none
        | some i => match table[i]? with
          | some s => if s.isResource then some s else none
          | none => none
      else none

/-- The key function (src/sorter.py:75-81, 97-102). -/
def SortSchemas.key (rep : AttrRep) (data : List Val) (schemas : SortSchemas) (i : Nat) (item : Val) : PyM SortKey :=
  match schemas.single with
  | some s => sortKey rep s item
  | none => match schemas with
    | .one s => sortKey rep s item
    | .many table ids =>
      match indexOf i item 0 data with
      | .error e => .error e
      | .ok j =>
        if ids.head?.any (fun t => ids.all (· == t)) then .error .typeError
        else match ids[j]? with
          | none => .error .indexError
          | some none => .error .attributeError
          | some (some t) => match table[t]? with
            | none => .error .indexError
            | some s => sortKey rep s item

/-- `sorter(data, schema)` (src/sorter.py:67-83): the positions of the items of the result. -/
def SorterCfg.order (s : SorterCfg) (data : List Val) (schemas : SortSchemas) : PyM (List Nat) :=
  match anyValue s.rep data with
  | .error e => .error e
  | .ok false => .ok (List.range data.length)
  | .ok true => match keysFrom (schemas.key s.rep data) 0 data with
    | .error e => .error e
    | .ok ks => match sortedPairs (!s.asc) ks with
      | .error e => .error e
      | .ok r => .ok (r.map (·.2))

/-- `sorter(data, schema)` (src/sorter.py:67-83). -/
def SorterCfg.call (s : SorterCfg) (data : List Val) (schemas : SortSchemas) : PyM (List Val) :=
  match s.order data schemas with
  | .error e => .error e
  | .ok is => .ok (is.map (fun i => data.getD i .missing))

end
end Scim
