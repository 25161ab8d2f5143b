import Verif.Model.Base

/-!
# Values: attribute names, filter operators, data containers

Data types only; the functions on them are in the other model files.
-/

namespace Scim

/-- Scalar Python values that may occur as comparison values and canonical values. -/
inductive Prim where
  | none
  | bool (b : Bool)
  | int (i : Int)
  | flt (f : PyFloat)
  | str (s : Str)
deriving DecidableEq, Repr

/-- `AttrRep` (src/data/container.py:9-91): the four stored fields. -/
structure AttrRep where
  schema : Str := []
  attr : Str := []
  sub : Str := []
  ext : Bool := false
deriving DecidableEq, Repr

/-- The binary operator classes (src/data/operator.py:327-459). -/
inductive CmpOp where
  | eq | ne | co | sw | ew | gt | ge | lt | le
deriving DecidableEq, Repr

/-- Filter operator objects (src/data/operator.py): `Present`, the binary operators,
`ComplexAttributeOperator`, `Not`, `And`, `Or`. -/
inductive Op where
  | pr (rep : AttrRep)
  | cmp (o : CmpOp) (rep : AttrRep) (v : Prim)
  | cplx (rep : AttrRep) (sub : Op)
  | not (sub : Op)
  | and (subs : List Op)
  | or (subs : List Op)
deriving Repr

/-- `PatchPath` (src/data/path.py:10-50); the filter is given by its operator. -/
structure PatchPath where
  rep : AttrRep
  filter : Option Op
  subRep : Option AttrRep
deriving Repr

/-- `AttributePresenceChecker` (src/attributes_presence.py:8-25). -/
structure Checker where
  reps : List AttrRep := []
  incl : Option Bool := none
  ignore : List AttrRep := []
deriving DecidableEq, Repr

/-- `Sorter` (src/sorter.py:38-50). -/
structure SorterCfg where
  rep : AttrRep
  asc : Bool
deriving DecidableEq, Repr

/-- Parsed objects that are stored in containers. -/
inductive Obj where
  | rep (r : AttrRep)
  | filter (o : Op)
  | path (p : PatchPath)
  | checker (c : Checker)
  | sorter (s : SorterCfg)
deriving Repr

/-- Python values handled by the library.  `cont data lc` is a `SCIMDataContainer` with its two
dictionaries `_data` and `_lower_case_to_original` (src/data/container.py:116-119); `dict` is a raw
dictionary (string keys only). -/
inductive Val where
  | prim (p : Prim)
  | missing
  | invalid
  | list (xs : List Val)
  | dict (kvs : List (Str × Val))
  | cont (data : List (Str × Val)) (lc : List (Str × Str))
  | dt (d : DateTime)
  | obj (o : Obj)
deriving Repr

namespace Val
/-- `None` -/
abbrev null : Val := .prim .none
/-- a `str` value -/
abbrev str (s : Str) : Val := .prim (.str s)
/-- an `int` value -/
abbrev int (i : Int) : Val := .prim (.int i)
/-- a `bool` value -/
abbrev bool (b : Bool) : Val := .prim (.bool b)
/-- `SCIMDataContainer()` -/
abbrev emptyCont : Val := .cont [] []

/-- `isinstance(v, SCIMDataContainer)` -/
def isCont : Val → Bool
  | .cont _ _ => true
  | _ => false

/-- `isinstance(v, list)` -/
def isList : Val → Bool
  | .list _ => true
  | _ => false

/-- `v is Missing` -/
def isMissing : Val → Bool
  | .missing => true
  | _ => false

/-- `v is Invalid` -/
def isInvalid : Val → Bool
  | .invalid => true
  | _ => false

/-- `v is None` -/
def isNone : Val → Bool
  | .prim .none => true
  | _ => false

/-- `v in [None, Missing]` -/
def isNoneOrMissing : Val → Bool
  | .prim .none | .missing => true
  | _ => false

/-- `v in [None, "", [], Missing]` (src/attributes_presence.py:128). -/
def isEmptyish : Val → Bool
  | .prim .none | .prim (.str []) | .list [] | .missing => true
  | _ => false

/-- Python truth value.  Containers, dates and parsed objects define neither `__bool__` nor
`__len__`, hence are true; `Missing` and `Invalid` are false (src/data/container.py:94-113). -/
def truthy : Val → Bool
  | .prim .none => false
  | .prim (.bool b) => b
  | .prim (.int i) => i != 0
  | .prim (.flt (.fin q)) => q != 0
  | .prim (.flt _) => true
  | .prim (.str s) => s != []
  | .missing | .invalid => false
  | .list xs => !xs.isEmpty
  | .dict kvs => !kvs.isEmpty
  | .cont _ _ | .dt _ | .obj _ => true

/-- `v is True` -/
def isTrue : Val → Bool
  | .prim (.bool true) => true
  | _ => false
end Val

end Scim
