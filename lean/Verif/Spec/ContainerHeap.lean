import Verif.Model.ContainerHeap

/-!
# Programs that work on containers, and what a container in memory stands for

The words used by the theorems about sharing (C108): programs, the objects a program leaves alone, and the
relation between objects in memory and plain values.
-/

namespace Scim.Shared
variable [PyEnv]

/-! ## Programs -/

/-- What a caller can do: make scalars, lists and dictionaries, build containers, read, write and delete
attributes, turn a container back into a dictionary, and look into lists and dictionaries.  Variables are
numbered; every command defines the next one. -/
inductive Cmd where
  | scalar (a : Scalar)
  | list (xs : List Nat)
  | dict (kvs : List (Str × Nat))
  | wrap (x : Nat)
  | get (x : Nat) (r : AttrRep)
  | set (x : Nat) (r : AttrRep) (y : Nat)
  | del (x : Nat) (r : AttrRep)
  | toDict (x : Nat)
  | item (x k : Nat)
  | entry (x : Nat) (k : Str)

/-- The memory and the variables of a caller. -/
structure State where
  mem : Mem
  vars : List HVal

/-- The value of a variable. -/
def State.var (s : State) (x : Nat) : HVal := (s.vars[x]?).getD (.atom (.prim .none))

/-- Store the result in the next variable.  An exception is caught by the caller, who carries on with
`None` and with the memory as the exception left it. -/
def State.keep (s : State) (out : Mem × PyM HVal) : State :=
  { mem := out.1
    vars := s.vars ++ [match out.2 with | .ok v => v | .error _ => .atom (.prim .none)] }

/-- Like `keep` for a method without result. -/
def State.done (s : State) (out : Mem × PyM Unit) : State :=
  { mem := out.1, vars := s.vars ++ [.atom (.prim .none)] }

/-- One command; `n` is the depth of nested calls that is allowed. -/
def State.step (n : Nat) (s : State) : Cmd → State
  | .scalar a => s.keep (s.mem, .ok (.atom a))
  | .list xs => s.keep (s.mem ++ [.list (xs.map s.var)], .ok (.list s.mem.length))
  | .dict kvs => s.keep (s.mem ++ [.dict (kvs.map fun p => (p.1, s.var p.2))], .ok (.dict s.mem.length))
  | .wrap x => s.keep (newCont n s.mem (s.var x))
  | .get x r => s.keep (getItem n s.mem (s.var x) r)
  | .set x r y => s.done (setItem s.mem (s.var x) r (s.var y))
  | .del x r => s.done (delItem n s.mem (s.var x) r)
  | .toDict x => s.keep (toDict n s.mem (s.var x))
  | .item x k => s.keep (s.mem, .ok (match s.var x with
      | .list r => ((s.mem.items r)[k]?).getD (.atom (.prim .none))
      | _ => .atom (.prim .none)))
  | .entry x k => s.keep (s.mem, .ok (match s.var x with
      | .dict r => (aget k (s.mem.entries r)).getD (.atom (.prim .none))
      | _ => .atom (.prim .none)))

/-- A program is a list of commands. -/
def State.run (n : Nat) (s : State) (p : List Cmd) : State := p.foldl (State.step n) s

/-! ## Objects a program leaves alone -/

/-- The lists and dictionaries in `S` exist, none of them is (part of) a container, and no container holds
one of the lists in `S` directly as the value of an attribute.  Lists inside lists, and anything else inside
a list, do not count. -/
def Guarded (S : Nat → Prop) (m : Mem) : Prop :=
  ∀ r, S r → r < m.length ∧ (∀ d l, m[r]? ≠ some (.body d l)) ∧
    ∀ c k, (k, HVal.list r) ∉ m.data c

/-- Writing `v` would make a list in `S` the value of an attribute: `v` is that list, or a list that has it
as an item (which is stored when a sub-attribute is written for a list of values). -/
def HandsOver (S : Nat → Prop) (m : Mem) (v : HVal) : Prop :=
  ∃ q, v = .list q ∧ (S q ∨ ∃ r, S r ∧ .list r ∈ m.items q)

/-- No command of the program hands over a list in `S`. -/
def Careful (S : Nat → Prop) (n : Nat) : State → List Cmd → Prop
  | _, [] => True
  | s, c :: p =>
    (match c with
      | .set _ _ y => ¬ HandsOver S s.mem (s.var y)
      | _ => True) ∧ Careful S n (s.step n c) p

/-! ## What objects in memory stand for -/

/-- A scalar as a value of the model. -/
def Scalar.toVal : Scalar → Val
  | .prim p => .prim p
  | .missing => .missing
  | .invalid => .invalid
  | .dt d => .dt d
  | .obj o => .obj o

mutual
/-- In memory `m` the reference `v` stands for the value `V`, and the cells that make it up are `fp`, each
listed as often as it occurs. -/
def Rep (m : Mem) : HVal → Val → List Nat → Prop
  | v, .list Vs, fp => ∃ r vs f, v = .list r ∧ m[r]? = some (.list vs) ∧ RepAll m vs Vs f ∧ fp = r :: f
  | v, .dict kvs, fp => ∃ r d f, v = .dict r ∧ m[r]? = some (.dict d) ∧ RepPairs m d kvs f ∧ fp = r :: f
  | v, .cont data lc, fp =>
    ∃ r d f, v = .cont r ∧ m[r]? = some (.body d lc) ∧ RepPairs m d data f ∧ fp = r :: f
  | v, .prim p, fp => v = .atom (.prim p) ∧ fp = []
  | v, .missing, fp => v = .atom .missing ∧ fp = []
  | v, .invalid, fp => v = .atom .invalid ∧ fp = []
  | v, .dt d, fp => v = .atom (.dt d) ∧ fp = []
  | v, .obj o, fp => v = .atom (.obj o) ∧ fp = []
/-- The same for the items of a list. -/
def RepAll (m : Mem) : List HVal → List Val → List Nat → Prop
  | vs, [], fp => vs = [] ∧ fp = []
  | vs, V :: Vs, fp => ∃ w ws f g, vs = w :: ws ∧ Rep m w V f ∧ RepAll m ws Vs g ∧ fp = f ++ g
/-- The same for the entries of a dictionary. -/
def RepPairs (m : Mem) : List (Str × HVal) → List (Str × Val) → List Nat → Prop
  | d, [], fp => d = [] ∧ fp = []
  | d, (k, V) :: kvs, fp =>
    ∃ w ws f g, d = (k, w) :: ws ∧ Rep m w V f ∧ RepPairs m ws kvs g ∧ fp = f ++ g
end

mutual
/-- How deep lists, dictionaries and containers are nested in a value. -/
def nest : Val → Nat
  | .list xs => nestAll xs + 1
  | .dict kvs => nestPairs kvs + 1
  | .cont data _ => nestPairs data + 1
  | _ => 0
/-- The deepest item. -/
def nestAll : List Val → Nat
  | [] => 0
  | v :: r => max (nest v) (nestAll r)
/-- The deepest entry. -/
def nestPairs : List (Str × Val) → Nat
  | [] => 0
  | (_, v) :: r => max (nest v) (nestPairs r)
end

mutual
/-- No list has a list among its items, and there are dictionaries but no containers (`b = false`, as in a JSON
document) or containers but no dictionaries (`b = true`, as in a container built from such a document). -/
def tidy (b : Bool) : Val → Bool
  | .list xs => tidyItems b xs
  | .dict kvs => !b && tidyPairs b kvs
  | .cont data _ => b && tidyPairs b data
  | _ => true
/-- The items of a list. -/
def tidyItems (b : Bool) : List Val → Bool
  | [] => true
  | v :: r => !v.isList && tidy b v && tidyItems b r
/-- The entries of a dictionary or container. -/
def tidyPairs (b : Bool) : List (Str × Val) → Bool
  | [] => true
  | (_, v) :: r => tidy b v && tidyPairs b r
end

/-! ## Histories -/

mutual
/-- A value written out by the caller: new objects all through. -/
def make : Mem → Val → Mem × HVal
  | m, .list xs => ((makeAll m xs).1 ++ [.list (makeAll m xs).2], .list (makeAll m xs).1.length)
  | m, .dict kvs => ((makePairs m kvs).1 ++ [.dict (makePairs m kvs).2], .dict (makePairs m kvs).1.length)
  | m, .cont data lc =>
    ((makePairs m data).1 ++ [.body (makePairs m data).2 lc], .cont (makePairs m data).1.length)
  | m, .prim p => (m, .atom (.prim p))
  | m, .missing => (m, .atom .missing)
  | m, .invalid => (m, .atom .invalid)
  | m, .dt d => (m, .atom (.dt d))
  | m, .obj o => (m, .atom (.obj o))
/-- The items of a list. -/
def makeAll : Mem → List Val → Mem × List HVal
  | m, [] => (m, [])
  | m, V :: Vs => ((makeAll (make m V).1 Vs).1, (make m V).2 :: (makeAll (make m V).1 Vs).2)
/-- The entries of a dictionary. -/
def makePairs : Mem → List (Str × Val) → Mem × List (Str × HVal)
  | m, [] => (m, [])
  | m, (k, V) :: D => ((makePairs (make m V).1 D).1, (k, (make m V).2) :: (makePairs (make m V).1 D).2)
end

/-- A change of a container: a value written out by the caller is stored, or an attribute is removed. -/
inductive Edit where
  | write (r : AttrRep) (V : Val)
  | erase (r : AttrRep)

/-- A history of changes in memory, up to the first exception. -/
def editMem (n : Nat) : Mem → HVal → List Edit → Mem × PyM Unit
  | m, _, [] => (m, .ok ())
  | m, c, .write r V :: es =>
    andThen (setItem (make m V).1 c r (make m V).2) fun m1 _ => editMem n m1 c es
  | m, c, .erase r :: es => andThen (delItem n m c r) fun m1 _ => editMem n m1 c es

/-- The same history on values. -/
def editVal : Val → List Edit → PyM Val
  | V, [] => .ok V
  | V, .write r W :: es => match V.setItem r W with
    | .ok V' => editVal V' es
    | .error e => .error e
  | V, .erase r :: es => match V.delItem r with
    | .ok V' => editVal V' es
    | .error e => .error e

end Scim.Shared
