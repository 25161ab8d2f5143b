import Verif.Model.Attributes

/-!
# Filter operators (src/data/operator.py)

Operators are `Op` (`Verif.Model.Value`).  The `attrs` argument of `match` is given by the list of the values
of the dictionary inside `Attributes`, the only part `attrs.get` looks at.
-/

namespace Scim

/-- `MatchStatus` (src/data/operator.py:23-27). -/
inductive MatchStatus where
  | passed | failed | noAttr | missing
deriving DecidableEq, Repr

/-- `bool(match_result)` (src/data/operator.py:67-72). -/
def MatchStatus.toBool : MatchStatus → PyM Bool
  | .passed => .ok true
  | .failed | .noAttr => .ok false
  | .missing => .error .valueError

/-- `isinstance(op, LogicalOperator)`: `Not`, `And`, `Or`. -/
def Op.isLogical : Op → Bool
  | .not _ | .and _ | .or _ => true
  | _ => false

/-- `isinstance(op, AttributeOperator)`: `Present` and the binary operators; `ComplexAttributeOperator` is not
a subclass. -/
def Op.isAttrOp : Op → Bool
  | .pr _ | .cmp .. => true
  | _ => false

/-- `op.attr_rep`; logical operators have none (`AttributeError`). -/
def Op.rep? : Op → Option AttrRep
  | .pr r | .cmp _ r _ | .cplx r _ => some r
  | _ => none

/-- The `SUPPORTED_SCIM_TYPES` of the operator classes (src/data/operator.py:327-459); `Unknown` has no
`SCIM_NAME`, so looking it up raises `AttributeError` (handled by the caller). -/
def CmpOp.supportsType : CmpOp → AttrType → Bool
  | .eq, _ | .ne, _ => true
  | .co, t | .sw, t | .ew, t =>
    match t with
    | .string | .uriRef | .scimRef | .extRef | .complex => true
    | _ => false
  | .gt, t | .ge, t | .lt, t | .le, t =>
    match t with
    | .string | .dateTime | .integer | .decimal | .complex => true
    | _ => false

/-- The `SUPPORTED_TYPES` of the operator classes (src/data/operator.py:327-459), checked by the constructor
(src/data/operator.py:249-255). -/
def CmpOp.supportsValue : CmpOp → Prim → Bool
  | .eq, _ | .ne, _ => true
  | .co, v | .sw, v | .ew, v =>
    match v with
    | .str _ | .flt _ => true
    | _ => false
  | .gt, v | .ge, v | .lt, v | .le, v =>
    match v with
    | .str _ | .flt _ | .int _ => true
    | _ => false

/-- `<` on floats. -/
def PyFloat.lt : PyFloat → PyFloat → Bool
  | .fin a, .fin b => a < b
  | .fin _, .inf neg => !neg
  | .inf neg, .fin _ => neg
  | .inf a, .inf b => a && !b
  | _, _ => false

/-- `<` on scalars: numbers and booleans by value, strings by code points, `TypeError` otherwise. -/
def Prim.pyLt (a b : Prim) : PyM Bool :=
  match a, b with
  | .str s, .str t => .ok (strLt s t)
  | _, _ => match a.num?, b.num? with
    | some x, some y => .ok (x.lt y)
    | _, _ => .error .typeError

/-- `<=` on scalars. -/
def Prim.pyLe (a b : Prim) : PyM Bool :=
  match a, b with
  | .str s, .str t => .ok (!strLt t s)
  | _, _ => match a.num?, b.num? with
    | some x, some y => .ok (x.lt y || x.eq y)
    | _, _ => .error .typeError

/-- `<` on datetimes; naive and aware ones cannot be ordered. -/
def DateTime.pyLt (a b : DateTime) : PyM Bool :=
  match a.off, b.off with
  | none, none => .ok (decide (a.wall < b.wall))
  | some x, some y => .ok (decide (a.wall - x < b.wall - y))
  | _, _ => .error .typeError

/-- `<=` on datetimes. -/
def DateTime.pyLe (a b : DateTime) : PyM Bool :=
  match a.off, b.off with
  | none, none => .ok (decide (a.wall ≤ b.wall))
  | some x, some y => .ok (decide (a.wall - x ≤ b.wall - y))
  | _, _ => .error .typeError

section
variable [PyEnv]

/-- `item in list` for a scalar. -/
def listHas (v : Prim) : List Val → PyM Bool
  | [] => .ok false
  | x :: xs => match x.pyEq (.prim v) with
    | .error e => .error e
    | .ok true => .ok true
    | .ok false => listHas v xs

/-- `operator.contains(a, v)`, i.e. `v in a`. -/
def pyContains (a : Val) (v : Prim) : PyM Bool :=
  match a, v with
  | .prim (.str s), .str t => .ok (isInfix t s)
  | .list xs, v => listHas v xs
  | .dict kvs, .str t => .ok (kvs.any (fun p => p.1 == t))
  | .dict _, _ => .ok false
  | .cont _ _, _ => .error .attributeError
  | _, _ => .error .typeError

/-- `a.startswith(v)` and `a.endswith(v)`; `f` is the comparison of strings. -/
def pyAffix (f : Str → Str → Bool) (a : Val) (v : Prim) : PyM Bool :=
  match a, v with
  | .prim (.str s), .str t => .ok (f t s)
  | .prim (.str _), _ => .error .typeError
  | _, _ => .error .attributeError

/-- An order comparison of a value with a scalar; `f` compares scalars. -/
def pyOrd (f : Prim → Prim → PyM Bool) (a : Val) (v : Prim) : PyM Bool :=
  match a with
  | .prim p => f p v
  | _ => .error .typeError

/-- `OPERATOR(attr_value, op_value)` (src/data/operator.py:327-459). -/
def CmpOp.apply (o : CmpOp) (a : Val) (v : Prim) : PyM Bool :=
  match o with
  | .eq => a.pyEq (.prim v)
  | .ne => match a.pyEq (.prim v) with
    | .error e => .error e
    | .ok b => .ok (!b)
  | .co => pyContains a v
  | .sw => pyAffix startsWith a v
  | .ew => pyAffix endsWith a v
  | .gt => pyOrd (fun x y => y.pyLt x) a v
  | .ge => pyOrd (fun x y => y.pyLe x) a v
  | .lt => pyOrd (fun x y => x.pyLt y) a v
  | .le => pyOrd (fun x y => x.pyLe y) a v

/-- `OPERATOR` on datetimes; the other operators do not support the type. -/
def CmpOp.applyDt (o : CmpOp) (a b : DateTime) : PyM Bool :=
  match o with
  | .eq => .ok (a.pyEq b)
  | .ne => .ok (!a.pyEq b)
  | .gt => b.pyLt a
  | .ge => b.pyLe a
  | .lt => a.pyLt b
  | .le => a.pyLe b
  | _ => .error .typeError

/-- `for item in value`: the items of a list, the characters of a string, the keys of a dictionary.  A container
is probed with `0` (`AttributeError`), the rest is not iterable. -/
def Val.iterate : Val → PyM (List Val)
  | .list xs => .ok xs
  | .prim (.str s) => .ok (s.map (fun c => .str [c]))
  | .dict kvs => .ok (kvs.map (fun p => .str p.1))
  | .cont _ _ => .error .attributeError
  | _ => .error .typeError

/-- `item["name"]` on any value. -/
def Val.subscript (v : Val) (name : Str) : PyM Val :=
  match v with
  | .cont _ _ => v.getName name
  | .dict kvs => match aget name kvs with
    | some x => .ok x
    | none => .error .keyError
  | _ => .error .typeError

/-- `[item["value"] for item in value]` (src/data/operator.py:279). -/
def subscriptAll (name : Str) : List Val → PyM (List Val)
  | [] => .ok []
  | x :: xs => match x.subscript name with
    | .error e => .error e
    | .ok y => match subscriptAll name xs with
      | .error e => .error e
      | .ok ys => .ok (y :: ys)

/-- The keyword `value`. -/
def valueWord : Str := "value".toList

/-- `if not isinstance(value, List): value = [value]`. -/
def Val.asList : Val → List Val
  | .list xs => xs
  | v => [v]

/-- The first loop of pairs to compare: values against a scalar, or two datetimes. -/
inductive Pairs where
  | vals (xs : List Val) (v : Prim)
  | dts (a b : DateTime)
deriving Repr

/-- The part of `_get_values_for_comparison` after the treatment of complex attributes
(src/data/operator.py:281-297). -/
def comparePairs (i : AttrInfo) (value : Val) (v : Prim) : PyM (Option Pairs) :=
  if i.type = .dateTime then
    match value with
    | .prim (.str s) =>
      match fromIso s with
      | none => .ok none
      | some a => match v with
        | .str t => match fromIso t with
          | none => .ok none
          | some b => .ok (some (.dts a b))
        | _ => .error .typeError
    | _ => .error .typeError
  else match v with
    | .str t =>
      if !i.caseExact then
        .ok (some (.vals (value.asList.filterMap (fun x => match x with
          | .prim (.str s) => some (.str (lower s))
          | _ => none)) (.str (lower t))))
      else .ok (some (.vals value.asList v))
    | _ => .ok (some (.vals value.asList v))

/-- `_get_values_for_comparison` (src/data/operator.py:261-297); `none` is Python's `None`. -/
def comparisonValues (o : CmpOp) (a : Attr) (value : Val) (v : Prim) : PyM (Option Pairs) :=
  if a.info.type = .unknown then .error .attributeError
  else if !o.supportsType a.info.type then .ok none
  else match a with
    | .simple i => comparePairs i value v
    | .complex i subs _ _ =>
      if !subs.any (fun s => s.rep.attr == valueWord) then .ok none
      else if !i.multi then .ok none
      else match value.iterate with
        | .error e => .error e
        | .ok items => match subscriptAll valueWord items with
          | .error e => .error e
          | .ok xs => comparePairs i (.list xs) v

/-- `for attr_value, op_value in values: if OPERATOR(…): return passed` (src/data/operator.py:321-324). -/
def anyApply (o : CmpOp) (v : Prim) : List Val → PyM MatchStatus
  | [] => .ok .failed
  | x :: xs => match o.apply x v with
    | .error e => .error e
    | .ok true => .ok .passed
    | .ok false => anyApply o v xs

/-- `BinaryAttributeOperator.match` (src/data/operator.py:299-324). -/
def matchCmp (o : CmpOp) (r : AttrRep) (v : Prim) (value : Val) (attrs : List Attr) (strict : Bool) :
    PyM MatchStatus :=
  match findAttr attrs r with
  | none => .ok .noAttr
  | some a =>
    if value.isNoneOrMissing then .ok (if !strict then .passed else .missing)
    else if value.isInvalid then .ok .failed
    else match comparisonValues o a value v with
      | .error e => .error e
      | .ok none => .ok .failed
      | .ok (some (.vals xs w)) => anyApply o w xs
      | .ok (some (.dts x y)) => match o.applyDt x y with
        | .error e => .error e
        | .ok b => .ok (if b then .passed else .failed)

/-- `[item.get("value") for item in value]` (src/data/operator.py:229): only dictionaries have `get`. -/
def getAllValues : List Val → PyM (List Val)
  | [] => .ok []
  | .dict kvs :: xs => match getAllValues xs with
    | .error e => .error e
    | .ok ys => .ok ((aget valueWord kvs).getD .null :: ys)
  | _ :: _ => .error .attributeError

/-- `Present.match` (src/data/operator.py:217-238). -/
def matchPr (r : AttrRep) (value : Val) (attrs : List Attr) : PyM MatchStatus :=
  match findAttr attrs r with
  | none => .ok .noAttr
  | some a =>
    let res : PyM Bool :=
      if a.isComplex then
        match value with
        | .list xs => match getAllValues xs with
          | .error e => .error e
          | .ok ys => .ok (ys.any Val.truthy)
        | _ => .ok false
      else match value with
        | .list xs => .ok (xs.any Val.truthy)
        | .prim (.str s) => .ok (!s.isEmpty)
        | v => .ok (!(v.isNoneOrMissing || v.isInvalid))
    match res with
    | .error e => .error e
    | .ok b => .ok (if b then .passed else .failed)

/-- The loop of `ComplexAttributeOperator.match` for an attribute operator (src/data/operator.py:507-514);
`f` is `self._sub_operator.match`. -/
def cplxAttrLoop (r : AttrRep) (f : Val → PyM MatchStatus) : List Val → Bool → PyM (Bool × Bool)
  | [], hasValue => .ok (false, hasValue)
  | item :: items, hasValue =>
    match item.getItem r with
    | .error e => .error e
    | .ok x =>
      let hasValue := hasValue || !x.isNoneOrMissing
      match f x with
      | .error e => .error e
      | .ok .passed => .ok (true, hasValue)
      | .ok _ => cplxAttrLoop r f items hasValue

/-- The loop of `ComplexAttributeOperator.match` for other operators (src/data/operator.py:519-525). -/
def cplxLoop (f : Val → PyM MatchStatus) : List Val → Bool → PyM (Bool × Bool)
  | [], missing => .ok (false, missing)
  | item :: items, missing =>
    match f item with
    | .error e => .error e
    | .ok .passed => .ok (true, missing)
    | .ok .missing => cplxLoop f items true
    | .ok _ => cplxLoop f items missing

/-- `value or {}` -/
def Val.orDict (v : Val) : Val := if v.truthy then v else .dict []

/-- The result of `Not.match` from the status of its operand (src/data/operator.py:175-191, both branches). -/
def notStatus (strict : Bool) : MatchStatus → MatchStatus
  | .failed => .passed
  | .missing => if strict then .failed else .passed
  | _ => .failed

/-- Matching an operand of a logical operator: a logical operator gets the whole object, any other one the value
of its attribute (src/data/operator.py:104-108, 175-184).  `f` is `operand.match`. -/
def onOperand (o : Op) (f : Val → PyM MatchStatus) (value : Val) : PyM MatchStatus :=
  match o.rep? with
  | none => f value
  | some r => match value.getItem r with
    | .error e => .error e
    | .ok x => f x

/-- The end of `ComplexAttributeOperator.match` (src/data/operator.py:513-517, 522-529): some item passed, or
there was nothing to decide on. -/
def cplxStatus (strict : Bool) : Bool × Bool → MatchStatus
  | (true, _) => .passed
  | (false, noData) => if noData && !strict then .passed else .failed

mutual
/-- `operator.match(value, attrs, strict)` (src/data/operator.py:101-529). -/
def Op.match : Op → Val → List Attr → Bool → PyM MatchStatus
  | .pr r, value, attrs, _ => matchPr r value attrs
  | .cmp o r v, value, attrs, strict => matchCmp o r v value attrs strict
  | .not sub, value, attrs, _strict =>
    match onOperand sub (fun x => Op.match sub x attrs true) value.orDict with
    | .error e => .error e
    | .ok st => .ok (notStatus _strict st)
  | .and subs, value, attrs, strict => andLoop subs value.orDict attrs strict false
  | .or subs, value, attrs, strict => orLoop subs value.orDict attrs strict false
  | .cplx r sub, value, attrs, strict =>
    match findAttr attrs r with
    | none => .ok .noAttr
    | some (.simple _) => .ok .noAttr
    | some (.complex i subAttrs _ _) =>
      if i.multi && !value.isList || !i.multi && value.isList then .ok .failed
      else
        let value := if value.truthy then value else if i.multi then .list [] else .emptyCont
        let items := value.asList
        let out : PyM (Bool × Bool) :=
          if sub.isAttrOp then
            match cplxAttrLoop (sub.rep?.getD {}) (fun x => Op.match sub x subAttrs strict) items false with
            | .error e => .error e
            | .ok (pass, hasValue) => .ok (pass, !hasValue)
          else cplxLoop (fun x => Op.match sub x subAttrs strict) items false
        match out with
        | .error e => .error e
        | .ok p => .ok (cplxStatus strict p)
/-- The loop of `And.match` (src/data/operator.py:120-129). -/
def andLoop : List Op → Val → List Attr → Bool → Bool → PyM MatchStatus
  | [], _, _, _, missing => .ok (if missing then .missing else .passed)
  | o :: os, value, attrs, strict, missing =>
    match onOperand o (fun x => Op.match o x attrs strict) value with
    | .error e => .error e
    | .ok .failed => .ok .failed
    | .ok .missing => andLoop os value attrs strict true
    | .ok _ => andLoop os value attrs strict missing
/-- The loop of `Or.match` (src/data/operator.py:141-150). -/
def orLoop : List Op → Val → List Attr → Bool → Bool → PyM MatchStatus
  | [], _, _, _, missing => .ok (if missing then .missing else .failed)
  | o :: os, value, attrs, strict, missing =>
    match onOperand o (fun x => Op.match o x attrs strict) value with
    | .error e => .error e
    | .ok .passed => .ok .passed
    | .ok .missing => orLoop os value attrs strict true
    | .ok _ => orLoop os value attrs strict missing
end

/-- An operand of a logical operator, matched against the whole object. -/
def Op.matchOn (o : Op) (value : Val) (attrs : List Attr) (strict : Bool) : PyM MatchStatus :=
  onOperand o (fun x => o.match x attrs strict) value

end
end Scim
