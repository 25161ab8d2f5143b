import Verif.Model.AttrRep

/-!
# `SCIMDataContainer` (src/data/container.py:116-278)

A container is `Val.cont data lc` with `data = _data` and `lc = _lower_case_to_original`, both
insertion-ordered dictionaries.  Methods that mutate return the new container.  When a method
raises, the (partially updated) container is lost in the model.
-/

namespace Scim
variable [PyEnv]

/-! ## Construction -/

/-- The lower-case index built by the constructor (src/data/container.py:122-126). -/
def lcOf (keys : List Str) : List (Str × Str) :=
  keys.foldl (fun lc k => aset (lower k) k lc) []

mutual
/-- `SCIMDataContainer(d)` (src/data/container.py:117-138): a dictionary is converted, a container is
reused, anything else gives an empty container.  The keys of a dictionary are distinct, so `_data` is
the converted dictionary itself. -/
def Val.toCont : Val → Val
  | .dict kvs => .cont (convPairs kvs) (lcOf (kvs.map (·.1)))
  | .cont data lc => .cont data lc
  | _ => .cont [] []
/-- The loop over the items (src/data/container.py:122-135). -/
def convPairs : List (Str × Val) → List (Str × Val)
  | [] => []
  | (k, v) :: r => (k, convVal v) :: convPairs r
/-- Conversion of one value (src/data/container.py:127-135). -/
def convVal : Val → Val
  | .dict kvs => .cont (convPairs kvs) (lcOf (kvs.map (·.1)))
  | .list xs => .list (convItems xs)
  | v => v
/-- Conversion of list items (src/data/container.py:130-133): dictionaries only. -/
def convItems : List Val → List Val
  | [] => []
  | .dict kvs :: r => .cont (convPairs kvs) (lcOf (kvs.map (·.1))) :: convItems r
  | v :: r => v :: convItems r
end

/-! ## Reading -/

mutual
/-- Shared engine of `__getitem__` (src/data/container.py:179-198).  With `asSub = false` it is
`receiver[rep]` for any receiver: everything but a container raises `TypeError` (lists want integers,
`AttrRep` is unhashable, the rest is not subscriptable).  With `asSub = true` it is the treatment of
the value found under the top-level name when a sub-attribute is requested (lines 191-197). -/
def Val.getX : Bool → Val → AttrRep → PyM Val
  | asSub, .cont data lc, r =>
    if asSub && !isAttrName r.attr then .error .valueError
    else match aget (lower r.schema) lc with
      | some k => getAt false k data { attr := r.attr, sub := r.sub }
      | none => match aget (lower r.attr) lc with
        | none => .ok .missing
        | some k =>
          if r.sub.isEmpty then
            match aget k data with
            | some v => .ok v
            | none => .error .keyError
          else getAt true k data { attr := r.sub }
  | true, .list xs, r =>
    if !xs.isEmpty && !isAttrName r.attr then .error .valueError
    else match getMap xs r with
      | .ok ys => .ok (.list ys)
      | .error e => .error e
  | true, _, _ => .ok .missing
  | false, _, _ => .error .typeError
/-- `self._data[k]` followed by `getX`. -/
def getAt (asSub : Bool) (k : Str) : List (Str × Val) → AttrRep → PyM Val
  | [], _ => .error .keyError
  | (k', v) :: rest, r => if k' = k then Val.getX asSub v r else getAt asSub k rest r
/-- `[item[rep] for item in xs]` (src/data/container.py:196). -/
def getMap : List Val → AttrRep → PyM (List Val)
  | [], _ => .ok []
  | v :: rest, r =>
    match Val.getX false v r with
    | .error e => .error e
    | .ok y => match getMap rest r with
      | .error e => .error e
      | .ok ys => .ok (y :: ys)
end

/-- `receiver[rep]` (src/data/container.py:179-198). -/
def Val.getItem (v : Val) (r : AttrRep) : PyM Val := Val.getX false v r

/-- `receiver["name"]`: the name is parsed first (src/data/container.py:180-181, 237-242). -/
def Val.getName (v : Val) (name : Str) : PyM Val :=
  match v with
  | .cont _ _ =>
    match AttrRep.parse name with
    | some r => v.getItem r
    | none => .error .valueError
  | _ => .error .typeError

/-! ## Writing -/

/-- `receiver[AttrRep(attr=a)] = v`: lines 175-177 of `__setitem__`. -/
def Val.setPlain (c : Val) (a : Str) (v : Val) : PyM Val :=
  match c with
  | .cont data lc => .ok (.cont (aset a v data) (aset (lower a) a lc))
  | _ => .error .typeError

/-- `_can_assign_to_complex` (src/data/container.py:225-235). -/
def canAssignToComplex (cur new : Val) : Bool :=
  match cur with
  | .cont _ _ => true
  | .list xs => new.isList && !xs.isEmpty && xs.all Val.isCont
  | _ => false

/-- The loop `for item, container in zip(value, self._data[key])` (src/data/container.py:170-172):
containers beyond the end of `value` are left alone. -/
def zipSet (sub : Str) : List Val → List Val → PyM (List Val)
  | [], cs => .ok cs
  | _ :: _, [] => .ok []
  | v :: vs, c :: cs =>
    match v with
    | .missing => match zipSet sub vs cs with
      | .ok cs' => .ok (c :: cs')
      | .error e => .error e
    | _ =>
      if !isAttrName sub then .error .valueError
      else match c.setPlain sub v with
        | .error e => .error e
        | .ok c' => match zipSet sub vs cs with
          | .ok cs' => .ok (c' :: cs')
          | .error e => .error e

/-- Assignment of `value` to sub-attribute `sub` of the current value `cur` of the attribute
(src/data/container.py:166-174). -/
def assignSub (cur : Val) (sub : Str) (value : Val) : PyM Val :=
  match value with
  | .list vs =>
    match cur with
    | .list xs =>
      match zipSet sub vs (xs ++ List.replicate (vs.length - xs.length) .emptyCont) with
      | .ok ys => .ok (.list ys)
      | .error e => .error e
    | _ => .error .typeError  -- `len()` of a container
  | _ => if !isAttrName sub then .error .valueError else cur.setPlain sub value

/-- `receiver[AttrRep(attr=a, sub_attr=s)] = value` with non-empty `s` (src/data/container.py:152-174). -/
def Val.setSub (c : Val) (a s : Str) (value : Val) : PyM Val :=
  match c with
  | .cont data lc =>
    match aget (lower a) lc with
    | none =>
      let start : Val := if value.isList then .list [] else .emptyCont
      match assignSub start s value with
      | .ok cur' => .ok (.cont (aset a cur' (aset a start data)) (aset (lower a) a lc))
      | .error e => .error e
    | some k =>
      match aget k data with
      | none => .error .keyError
      | some cur =>
        if !canAssignToComplex cur value then .error .keyError
        else match assignSub cur s value with
          | .ok cur' => .ok (.cont (aset k cur' data) lc)
          | .error e => .error e
  | _ => .error .typeError

/-- `receiver[rep] = value` for a rep that is not marked as extension. -/
def Val.setLocal (c : Val) (a s : Str) (value : Val) : PyM Val :=
  if s.isEmpty then c.setPlain a value else c.setSub a s value

/-- `receiver[rep] = value` (src/data/container.py:140-177). -/
def Val.setItem (c : Val) (r : AttrRep) (value : Val) : PyM Val :=
  match c with
  | .cont data lc =>
    if r.ext then
      let (data', lc') := match aget (lower r.schema) lc with
        | none => (aset r.schema Val.emptyCont data, aset (lower r.schema) r.schema lc)
        | some _ => (data, lc)
      match aget r.schema data' with
      | none => .error .keyError
      | some inner => match inner.setLocal r.attr r.sub value with
        | .ok inner' => .ok (.cont (aset r.schema inner' data') lc')
        | .error e => .error e
    else c.setLocal r.attr r.sub value
  | _ => .error .typeError

/-! ## Deleting -/

mutual
/-- Shared engine of `__delitem__` (src/data/container.py:200-223), organised like `getX`. -/
def Val.delX : Bool → Val → AttrRep → PyM Val
  | asSub, .cont data lc, r =>
    if asSub && !isAttrName r.attr then .error .valueError
    else match aget (lower r.schema) lc with
      | some k => match delAt false k data { attr := r.attr, sub := r.sub } with
        | .ok data' => .ok (.cont data' lc)
        | .error e => .error e
      | none => match aget (lower r.attr) lc with
        | none => .ok (.cont data lc)
        | some k =>
          if r.sub.isEmpty then
            match aget k data with
            | some _ => .ok (.cont (adel k data) (adel (lower r.attr) lc))
            | none => .error .keyError
          else match delAt true k data { attr := r.sub } with
            | .ok data' => .ok (.cont data' lc)
            | .error e => .error e
  | true, .list xs, r =>
    if !xs.isEmpty && !isAttrName r.attr then .error .valueError
    else match delMap xs r with
      | .ok ys => .ok (.list ys)
      | .error e => .error e
  | true, v, _ => .ok v
  | false, _, _ => .error .typeError
/-- Deletion inside the value stored under key `k`. -/
def delAt (asSub : Bool) (k : Str) : List (Str × Val) → AttrRep → PyM (List (Str × Val))
  | [], _ => .error .keyError
  | (k', v) :: rest, r =>
    if k' = k then
      match Val.delX asSub v r with
      | .ok v' => .ok ((k', v') :: rest)
      | .error e => .error e
    else match delAt asSub k rest r with
      | .ok rest' => .ok ((k', v) :: rest')
      | .error e => .error e
/-- `for item in attr_value: del item[...]` (src/data/container.py:217-219). -/
def delMap : List Val → AttrRep → PyM (List Val)
  | [], _ => .ok []
  | v :: rest, r =>
    match Val.delX false v r with
    | .error e => .error e
    | .ok y => match delMap rest r with
      | .error e => .error e
      | .ok ys => .ok (y :: ys)
end

/-- `del receiver[rep]` (src/data/container.py:200-223). -/
def Val.delItem (v : Val) (r : AttrRep) : PyM Val := Val.delX false v r

/-! ## Back to dictionaries -/

mutual
/-- `to_dict` of a container value, as applied by `to_dict` to members (src/data/container.py:244-266):
containers become dictionaries, everything else is returned as it is at this position. -/
def Val.toDict : Val → Val
  | .cont data _ => .dict (dictPairs data)
  | v => v
/-- The loop of `to_dict` (src/data/container.py:246-265). -/
def dictPairs : List (Str × Val) → List (Str × Val)
  | [] => []
  | (k, v) :: r => (k, dictVal v) :: dictPairs r
/-- One value (src/data/container.py:247-265). -/
def dictVal : Val → Val
  | .cont data _ => .dict (dictPairs data)
  | .list xs => .list (dictItems xs)
  | v => v
/-- The items of a list (src/data/container.py:251-262). -/
def dictItems : List Val → List Val
  | [] => []
  | .cont data _ :: r => .dict (dictPairs data) :: dictItems r
  | .dict kvs :: r => .dict (dictShallow kvs) :: dictItems r
  | v :: r => v :: dictItems r
/-- `{k: v.to_dict() if container else v}` (src/data/container.py:254-260). -/
def dictShallow : List (Str × Val) → List (Str × Val)
  | [] => []
  | (k, .cont data _) :: r => (k, .dict (dictPairs data)) :: dictShallow r
  | (k, v) :: r => (k, v) :: dictShallow r
end

end Scim
