import Verif.Model.Container

/-! Specification vocabulary for containers. -/

namespace Scim

/-- The keys of a container as `to_dict()` shows them. -/
def Val.keys : Val → List Str
  | .cont data _ => data.map (·.1)
  | _ => []

/-- What is stored under a key, as `to_dict()` shows it (before conversion). -/
def Val.stored : Val → Str → Option Val
  | .cont data _, k => aget k data
  | _, _ => none

mutual
/-- JSON values: scalars, lists, objects (no containers or other Python objects), any depth. -/
def Val.isJson : Val → Bool
  | .prim _ => true
  | .list xs => isJsonList xs
  | .dict kvs => isJsonPairs kvs
  | _ => false
/-- all elements are JSON -/
def isJsonList : List Val → Bool
  | [] => true
  | v :: r => v.isJson && isJsonList r
/-- all values are JSON -/
def isJsonPairs : List (Str × Val) → Bool
  | [] => true
  | (_, v) :: r => v.isJson && isJsonPairs r
end

variable [PyEnv]

/-- The spelling under which the container's index knows a name. -/
def Val.spelling : Val → Str → Option Str
  | .cont _ lc, name => aget (lower name) lc
  | _, _ => none

/-- The containers a program can hold: built from a dictionary (whose keys are distinct) and changed by any
history of successful writes and deletions. -/
inductive Val.Reach : Val → Prop
  | ofDict (kvs : List (Str × Val)) : (kvs.map (·.1)).Nodup → Reach (Val.toCont (.dict kvs))
  | set {c c'} (r : AttrRep) (v : Val) : Reach c → c.setItem r v = .ok c' → Reach c'
  | del {c c'} (r : AttrRep) : Reach c → c.delItem r = .ok c' → Reach c'

/-- The schema of the name is not (up to letter case) a key of the container; in particular a name
without schema needs a container without empty-string key. -/
def Val.NoKeyFor (c : Val) (schema : Str) : Prop := ∀ k ∈ c.keys, lower k ≠ lower schema

end Scim
