import Verif.Model.Container
import Verif.Model.DecEq

/-!
# `SCIMDataContainer` as an object in memory (src/data/container.py:116-266)

`Verif.Model.Container` treats containers, lists and dictionaries as values: a method that changes a
container returns the new one.  In Python they are objects that are changed in place and that several
variables, lists, dictionaries and containers can hold at the same time.  Here they live in a memory of
cells and a value is a scalar or a reference to a cell, so that a change made through one reference is
seen through every other.  A method that raises leaves the memory as it was when the exception was raised.

`_data` and `_lower_case_to_original` of a container are created together and handed on together
(src/data/container.py:118-119, 136-138), so one cell holds both, and two container objects that share
them are the same reference.  Cells are never freed.  The order in which new cells are numbered is not
that of the Python run (a container gets its number after its members).  Structures that contain
themselves are allowed; the depth of nested calls is a parameter and running out of it raises
`RecursionError`.
-/

namespace Scim.Shared
variable [PyEnv]

/-- The values that cannot be changed in place: JSON scalars, `Missing`, `Invalid`, dates and parsed
objects. -/
inductive Scalar where
  | prim (p : Prim)
  | missing
  | invalid
  | dt (d : DateTime)
  | obj (o : Obj)
deriving DecidableEq, Repr

/-- What a variable, an entry of a dictionary or an item of a list holds. -/
inductive HVal where
  | atom (a : Scalar)
  | list (r : Nat)
  | dict (r : Nat)
  | cont (r : Nat)
deriving DecidableEq, Repr

/-- An object in memory: a list, a dictionary, or the two dictionaries of a container. -/
inductive Cell where
  | list (xs : List HVal)
  | dict (kvs : List (Str × HVal))
  | body (data : List (Str × HVal)) (lc : List (Str × Str))
deriving DecidableEq, Repr

/-- All the objects there are; a reference is a position. -/
abbrev Mem := List Cell

namespace Mem

/-- The items of the list at `r`. -/
def items (m : Mem) (r : Nat) : List HVal :=
  match m[r]? with
  | some (.list xs) => xs
  | _ => []

/-- The entries of the dictionary at `r`. -/
def entries (m : Mem) (r : Nat) : List (Str × HVal) :=
  match m[r]? with
  | some (.dict kvs) => kvs
  | _ => []

/-- `_data` of the container at `r`. -/
def data (m : Mem) (r : Nat) : List (Str × HVal) :=
  match m[r]? with
  | some (.body d _) => d
  | _ => []

/-- `_lower_case_to_original` of the container at `r`. -/
def lc (m : Mem) (r : Nat) : List (Str × Str) :=
  match m[r]? with
  | some (.body _ l) => l
  | _ => []

/-- Change the two dictionaries of the container at `r` in place (a container always refers to such a cell). -/
def setBody (m : Mem) (r : Nat) (d : List (Str × HVal)) (l : List (Str × Str)) : Mem :=
  match m[r]? with
  | some (.body _ _) => m.set r (.body d l)
  | _ => m

/-- Change the list at `r` in place (a list always refers to such a cell). -/
def setItems (m : Mem) (r : Nat) (xs : List HVal) : Mem :=
  match m[r]? with
  | some (.list _) => m.set r (.list xs)
  | _ => m

end Mem

/-- Carry on with the result, or pass the exception on with the memory as it is. -/
def andThen {α β : Type} (out : Mem × PyM α) (k : Mem → α → Mem × PyM β) : Mem × PyM β :=
  match out.2 with
  | .ok x => k out.1 x
  | .error e => (out.1, .error e)

/-- Apply a method to each element in turn and collect the results. -/
def mapM {α β : Type} (f : Mem → α → Mem × PyM β) : Mem → List α → Mem × PyM (List β)
  | m, [] => (m, .ok [])
  | m, x :: xs => andThen (f m x) fun m1 y => andThen (mapM f m1 xs) fun m2 ys => (m2, .ok (y :: ys))

/-- Apply a method to each element in turn. -/
def forM {α : Type} (f : Mem → α → Mem × PyM Unit) : Mem → List α → Mem × PyM Unit
  | m, [] => (m, .ok ())
  | m, x :: xs => andThen (f m x) fun m1 _ => forM f m1 xs

/-- Apply a method to the value of an entry and keep the key. -/
def onEntry (f : Mem → HVal → Mem × PyM HVal) (m : Mem) (p : Str × HVal) : Mem × PyM (Str × HVal) :=
  andThen (f m p.2) fun m1 y => (m1, .ok (p.1, y))

/-! ## Construction -/

/-- An item of a list that is converted (src/data/container.py:130-133): a dictionary becomes a container,
anything else is handed on. -/
def convItem (mk : Mem → HVal → Mem × PyM HVal) (m : Mem) (v : HVal) : Mem × PyM HVal :=
  match v with
  | .dict r => mk m (.dict r)
  | v => (m, .ok v)

/-- One value (src/data/container.py:127-135): a dictionary becomes a container, a list is copied into a new
list, anything else is handed on. -/
def convVal (mk : Mem → HVal → Mem × PyM HVal) (m : Mem) (v : HVal) : Mem × PyM HVal :=
  match v with
  | .dict r => mk m (.dict r)
  | .list r =>
    andThen (mapM (convItem mk) m (m.items r)) fun m1 xs => (m1 ++ [.list xs], .ok (.list m1.length))
  | v => (m, .ok v)

/-- `SCIMDataContainer(v)` (src/data/container.py:117-138): a dictionary is converted, a container hands on its
own two dictionaries, anything else gives an empty container.  Keys are strings and distinct. -/
def newCont : Nat → Mem → HVal → Mem × PyM HVal
  | 0, m, _ => (m, .error .recursion)
  | n + 1, m, .dict r =>
    andThen (mapM (onEntry (convVal (newCont n))) m (m.entries r)) fun m1 d =>
      (m1 ++ [.body d (lcOf (d.map (·.1)))], .ok (.cont m1.length))
  | _ + 1, m, .cont r => (m, .ok (.cont r))
  | _ + 1, m, _ => (m ++ [.body [] []], .ok (.cont m.length))

/-! ## Reading -/

/-- `receiver[rep]` (src/data/container.py:179-198), with `asSub = true` for the value found under the
top-level name when a sub-attribute is requested (lines 191-197).  What is stored is handed out itself; reading
a sub-attribute of a list makes a new list. -/
def getX : Nat → Bool → Mem → HVal → AttrRep → Mem × PyM HVal
  | 0, _, m, _, _ => (m, .error .recursion)
  | n + 1, asSub, m, v, r =>
    match v with
    | .cont c =>
      if asSub && !isAttrName r.attr then (m, .error .valueError)
      else match aget (lower r.schema) (m.lc c) with
        | some k => match aget k (m.data c) with
          | some x => getX n false m x { attr := r.attr, sub := r.sub }
          | none => (m, .error .keyError)
        | none => match aget (lower r.attr) (m.lc c) with
          | none => (m, .ok (.atom .missing))
          | some k => match aget k (m.data c) with
            | some x => if r.sub.isEmpty then (m, .ok x) else getX n true m x { attr := r.sub }
            | none => (m, .error .keyError)
    | .list q =>
      if asSub then
        if !(m.items q).isEmpty && !isAttrName r.attr then (m, .error .valueError)
        else andThen (mapM (fun m x => getX n false m x r) m (m.items q)) fun m1 ys =>
          (m1 ++ [.list ys], .ok (.list m1.length))
      else (m, .error .typeError)
    | _ => if asSub then (m, .ok (.atom .missing)) else (m, .error .typeError)

/-- `receiver[rep]`. -/
def getItem (n : Nat) (m : Mem) (v : HVal) (r : AttrRep) : Mem × PyM HVal := getX n false m v r

/-! ## Writing -/

/-- `receiver[AttrRep(attr=a)] = x` (src/data/container.py:175-177): the value itself is stored. -/
def setPlain (m : Mem) (v : HVal) (a : Str) (x : HVal) : Mem × PyM Unit :=
  match v with
  | .cont c => (m.setBody c (aset a x (m.data c)) (aset (lower a) a (m.lc c)), .ok ())
  | _ => (m, .error .typeError)

/-- `isinstance(v, SCIMDataContainer)`. -/
def HVal.isCont : HVal → Bool
  | .cont _ => true
  | _ => false

/-- `isinstance(v, list)`. -/
def HVal.isList : HVal → Bool
  | .list _ => true
  | _ => false

/-- `_can_assign_to_complex` (src/data/container.py:225-235). -/
def canAssign (m : Mem) (cur new : HVal) : Bool :=
  match cur with
  | .cont _ => true
  | .list r => new.isList && !(m.items r).isEmpty && (m.items r).all HVal.isCont
  | _ => false

/-- `for item, container in zip(value, self._data[key])` (src/data/container.py:170-172).  No list changes while
the loop runs. -/
def zipSet (sub : Str) : Mem → List HVal → List HVal → Mem × PyM Unit
  | m, [], _ => (m, .ok ())
  | m, _ :: _, [] => (m, .ok ())
  | m, v :: vs, c :: cs =>
    if v = .atom .missing then zipSet sub m vs cs
    else if !isAttrName sub then (m, .error .valueError)
    else andThen (setPlain m c sub v) fun m1 _ => zipSet sub m1 vs cs

/-- The list at `p` is extended, in place, by `k` new empty containers (src/data/container.py:167-169). -/
def extend (m : Mem) (p k : Nat) : Mem :=
  if k = 0 then m
  else Mem.setItems (m ++ List.replicate k (Cell.body [] [])) p
    (m.items p ++ (List.range k).map fun i => .cont (m.length + i))

/-- Assignment of `value` to the sub-attribute `sub` of what the attribute holds, `cur`
(src/data/container.py:166-174). -/
def assignSub (m : Mem) (cur : HVal) (sub : Str) (value : HVal) : Mem × PyM Unit :=
  match value with
  | .list q =>
    match cur with
    | .list p =>
      let m1 := extend m p ((m.items q).length - (m.items p).length)
      zipSet sub m1 (m1.items q) (m1.items p)
    | _ => (m, .error .typeError)  -- `len()` of a container
  | _ => if !isAttrName sub then (m, .error .valueError) else setPlain m cur sub value

/-- `receiver[AttrRep(attr=a, sub_attr=s)] = value` with non-empty `s` (src/data/container.py:152-174). -/
def setSub (m : Mem) (v : HVal) (a s : Str) (value : HVal) : Mem × PyM Unit :=
  match v with
  | .cont c =>
    match aget (lower a) (m.lc c) with
    | none =>
      let start : HVal := if value.isList then .list m.length else .cont m.length
      let m1 : Mem := m ++ [if value.isList then .list [] else .body [] []]
      assignSub (m1.setBody c (aset a start (m.data c)) (aset (lower a) a (m.lc c))) start s value
    | some k =>
      match aget k (m.data c) with
      | none => (m, .error .keyError)
      | some cur => if !canAssign m cur value then (m, .error .keyError) else assignSub m cur s value
  | _ => (m, .error .typeError)

/-- `receiver[rep] = value` for a rep that is not marked as extension. -/
def setLocal (m : Mem) (v : HVal) (a s : Str) (value : HVal) : Mem × PyM Unit :=
  if s.isEmpty then setPlain m v a value else setSub m v a s value

/-- `receiver[rep] = value` (src/data/container.py:140-177). -/
def setItem (m : Mem) (v : HVal) (r : AttrRep) (value : HVal) : Mem × PyM Unit :=
  match v with
  | .cont c =>
    if r.ext then
      let m1 : Mem := match aget (lower r.schema) (m.lc c) with
        | none => Mem.setBody (m ++ [.body [] []]) c
            (aset r.schema (.cont m.length) (m.data c)) (aset (lower r.schema) r.schema (m.lc c))
        | some _ => m
      match aget r.schema (m1.data c) with
      | none => (m1, .error .keyError)
      | some inner => setLocal m1 inner r.attr r.sub value
    else setLocal m v r.attr r.sub value
  | _ => (m, .error .typeError)

/-! ## Deleting -/

/-- `del receiver[rep]` (src/data/container.py:200-223), organised like `getX`. -/
def delX : Nat → Bool → Mem → HVal → AttrRep → Mem × PyM Unit
  | 0, _, m, _, _ => (m, .error .recursion)
  | n + 1, asSub, m, v, r =>
    match v with
    | .cont c =>
      if asSub && !isAttrName r.attr then (m, .error .valueError)
      else match aget (lower r.schema) (m.lc c) with
        | some k => match aget k (m.data c) with
          | some x => delX n false m x { attr := r.attr, sub := r.sub }
          | none => (m, .error .keyError)
        | none => match aget (lower r.attr) (m.lc c) with
          | none => (m, .ok ())
          | some k => match aget k (m.data c) with
            | some x =>
              if r.sub.isEmpty then
                (m.setBody c (adel k (m.data c)) (adel (lower r.attr) (m.lc c)), .ok ())
              else delX n true m x { attr := r.sub }
            | none => (m, .error .keyError)
    | .list q =>
      if asSub then
        if !(m.items q).isEmpty && !isAttrName r.attr then (m, .error .valueError)
        else forM (fun m x => delX n false m x r) m (m.items q)
      else (m, .error .typeError)
    | _ => if asSub then (m, .ok ()) else (m, .error .typeError)

/-- `del receiver[rep]`. -/
def delItem (n : Nat) (m : Mem) (v : HVal) (r : AttrRep) : Mem × PyM Unit := delX n false m v r

/-! ## Back to dictionaries -/

/-- A value inside a dictionary that is an item of a list (src/data/container.py:255-259): containers become
dictionaries, anything else is handed on. -/
def dictMember (mk : Mem → HVal → Mem × PyM HVal) (m : Mem) (v : HVal) : Mem × PyM HVal :=
  match v with
  | .cont c => mk m (.cont c)
  | v => (m, .ok v)

/-- An item of a list (src/data/container.py:251-262). -/
def dictItem (mk : Mem → HVal → Mem × PyM HVal) (m : Mem) (v : HVal) : Mem × PyM HVal :=
  match v with
  | .cont c => mk m (.cont c)
  | .dict r => andThen (mapM (onEntry (dictMember mk)) m (m.entries r)) fun m1 d =>
      (m1 ++ [.dict d], .ok (.dict m1.length))
  | v => (m, .ok v)

/-- One value (src/data/container.py:247-265). -/
def dictVal (mk : Mem → HVal → Mem × PyM HVal) (m : Mem) (v : HVal) : Mem × PyM HVal :=
  match v with
  | .cont c => mk m (.cont c)
  | .list r => andThen (mapM (dictItem mk) m (m.items r)) fun m1 xs =>
      (m1 ++ [.list xs], .ok (.list m1.length))
  | v => (m, .ok v)

/-- `to_dict` (src/data/container.py:244-266); only containers have the method. -/
def toDict : Nat → Mem → HVal → Mem × PyM HVal
  | 0, m, _ => (m, .error .recursion)
  | n + 1, m, .cont c =>
    andThen (mapM (onEntry (dictVal (toDict n))) m (m.data c)) fun m1 d =>
      (m1 ++ [.dict d], .ok (.dict m1.length))
  | _ + 1, m, _ => (m, .error .attributeError)

end Scim.Shared
