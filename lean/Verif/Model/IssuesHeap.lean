import Verif.Model.Issues

/-!
# `ValidationIssues` as objects that share lists and sets (src/error.py:305-362)

`Verif.Model.Issues` treats a collection as a value.  In Python it is an object with two dictionaries,
whose values are lists and sets that are changed in place and that `get` and `pop` hand out to other
collections.  Here the lists and the sets live in a store and the dictionaries hold references to them,
so that a change made through one collection is seen through every other collection that holds the same
list or set.  An operation that raises leaves the store as it was when the exception was raised.

Locations are tuples, as everywhere in the code.
-/

namespace Scim

/-- The exceptions the methods of `ValidationIssues` can raise: `KeyError` from a plain dictionary and
`RuntimeError` when a dictionary changes its size while it is iterated over. -/
inductive HeapExn where
  | keyError
  | runtimeError
deriving DecidableEq, Repr

/-- The dictionaries of one kind (`_issues` or `_stop_proceeding`) of all the collections there are, and
the lists (or sets) they hold. -/
structure Store (α : Type) where
  /-- The contents of the lists or sets; a reference is a position in this list. -/
  cells : List (List α) := []
  /-- The dictionary of each collection: locations and references, in insertion order. -/
  tabs : List (List (Loc × Nat)) := []
deriving DecidableEq, Repr

namespace Store
variable {α : Type}

/-- The dictionary of collection `o`. -/
def tab (s : Store α) (o : Nat) : List (Loc × Nat) := (s.tabs[o]?).getD []

/-- The content of the list or set `r`. -/
def cell (s : Store α) (r : Nat) : List α := (s.cells[r]?).getD []

/-- The dictionary of collection `o` with the contents of its lists or sets: what a caller sees. -/
def val (s : Store α) (o : Nat) : List (Loc × List α) := (s.tab o).map fun p => (p.1, s.cell p.2)

/-- `self._issues[l]` or `self._stop_proceeding[l]`: a `defaultdict` (`auto`) stores a new list or set for
a missing key, a plain dictionary raises (src/error.py:307-308, 314-315, 324-326, 330, 335). -/
def fetch (s : Store α) (auto : Bool) (o : Nat) (l : Loc) : Store α × Except HeapExn Nat :=
  match aget l (s.tab o) with
  | some r => (s, .ok r)
  | none =>
    if auto then
      ({ cells := s.cells ++ [[]], tabs := s.tabs.set o (s.tab o ++ [(l, s.cells.length)]) }, .ok s.cells.length)
    else (s, .error .keyError)

/-- Change the list or set `r` in place. -/
def write (s : Store α) (r : Nat) (v : List α) : Store α := { s with cells := s.cells.set r v }

/-- Remove the key `l` from the dictionary of collection `o`. -/
def drop (s : Store α) (o : Nat) (l : Loc) : Store α := { s with tabs := s.tabs.set o (adel l (s.tab o)) }

/-- A new, empty dictionary. -/
def fresh (s : Store α) : Store α := { s with tabs := s.tabs ++ [[]] }

/-- The dictionary comprehensions of `get` (src/error.py:330-339): the new dictionary holds the *same*
lists or sets. -/
def view (s : Store α) (o : Nat) (loc : Loc) : Store α :=
  { s with tabs := s.tabs ++ [(s.tab o).filterMap fun p =>
      if p.1.take loc.length = loc then some (p.1.drop loc.length, p.2) else none] }

end Store

/-- All the collections there are.  A collection is a position in the dictionaries of both kinds; `auto`
says whether its dictionaries are `defaultdict`s (made by the constructor) or plain ones (made by
`get`). -/
structure Heap where
  issues : Store VErr := {}
  stop : Store Nat := {}
  auto : List Bool := []
deriving DecidableEq, Repr

namespace Heap

/-- The number of collections. -/
def size (h : Heap) : Nat := h.auto.length

/-- Whether the dictionaries of collection `o` create missing entries. -/
def isAuto (h : Heap) (o : Nat) : Bool := (h.auto[o]?).getD false

/-- What a caller sees of collection `o`. -/
def val (h : Heap) (o : Nat) : Issues := { issues := h.issues.val o, stop := h.stop.val o }

/-- `ValidationIssues()` (src/error.py:306-308): the new collection. -/
def new (h : Heap) : Heap × Nat :=
  ({ issues := h.issues.fresh, stop := h.stop.fresh, auto := h.auto ++ [true] }, h.size)

/-- `self._issues[l].extend(errs)` or `.append` (src/error.py:314, 324). -/
def extendIssues (h : Heap) (o : Nat) (l : Loc) (errs : Store VErr → List VErr) : Heap × Except HeapExn Unit :=
  match h.issues.fetch (h.isAuto o) o l with
  | (s, .error e) => ({ h with issues := s }, .error e)
  | (s, .ok r) => ({ h with issues := s.write r (s.cell r ++ errs s) }, .ok ())

/-- `ValidationIssues.add` (src/error.py:317-326). -/
def add (h : Heap) (o : Nat) (e : VErr) (proceed : Bool) (loc : Loc) : Heap × Except HeapExn Unit :=
  match h.extendIssues o loc (fun _ => [e]) with
  | (h, .error x) => (h, .error x)
  | (h, .ok ()) =>
    if proceed then (h, .ok ())
    else
      match h.stop.fetch (h.isAuto o) o loc with
      | (s, .error x) => ({ h with stop := s }, .error x)
      | (s, .ok r) => ({ h with stop := s.write r (Issues.unionCodes (s.cell r) [e.code]) }, .ok ())

/-- One round of the loop of `merge` (src/error.py:313-315) for the entry `(l, r)` of the argument `a`.
The set of `self` is looked up before that of the argument, and both lookups may create an entry. -/
def mergeOne (h : Heap) (o a : Nat) (loc : Loc) (l : Loc) (r : Nat) : Heap × Except HeapExn Unit :=
  match h.extendIssues o (loc ++ l) (fun s => s.cell r) with
  | (h, .error x) => (h, .error x)
  | (h, .ok ()) =>
    match h.stop.fetch (h.isAuto o) o (loc ++ l) with
    | (s, .error x) => ({ h with stop := s }, .error x)
    | (s, .ok mine) =>
      match s.fetch (h.isAuto a) a l with
      | (s, .error x) => ({ h with stop := s }, .error x)
      | (s, .ok theirs) =>
        ({ h with stop := s.write mine (Issues.unionCodes (s.cell mine) (s.cell theirs)) }, .ok ())

/-- The loop of `merge` (src/error.py:312): an iterator over the dictionary of the argument, which checks
that the dictionary still has the size `n` it had at the start.  `fuel` bounds the number of rounds. -/
def mergeLoop (n o a : Nat) (loc : Loc) : Nat → Nat → Heap → Heap × Except HeapExn Unit
  | 0, _, h => (h, .ok ())
  | fuel + 1, i, h =>
    if (h.issues.tab a).length ≠ n then (h, .error .runtimeError)
    else
      match (h.issues.tab a)[i]? with
      | none => (h, .ok ())
      | some (l, r) =>
        match h.mergeOne o a loc l r with
        | (h, .error x) => (h, .error x)
        | (h, .ok ()) => mergeLoop n o a loc fuel (i + 1) h

/-- `self.merge(issues, location)` (src/error.py:310-315), with `self` the collection `o` and `issues` the
collection `a`. -/
def merge (h : Heap) (o a : Nat) (loc : Loc) : Heap × Except HeapExn Unit :=
  let n := (h.issues.tab a).length
  mergeLoop n o a loc (n + 1) 0 h

/-- `ValidationIssues.get` (src/error.py:328-340): the new collection. -/
def get (h : Heap) (o : Nat) (loc : Loc) : Heap × Nat :=
  ({ issues := h.issues.view o loc, stop := h.stop.view o loc, auto := h.auto ++ [false] }, h.size)

/-- The loop of `pop` (src/error.py:350-354) over the list `r`, by position, while `remove` shortens it.
`set` is the set of blocking codes of the location, if there is one. -/
def popLoop (r : Nat) (set : Option Nat) (code : Nat) : Nat → Nat → Heap → Heap
  | 0, _, h => h
  | fuel + 1, i, h =>
    match (h.issues.cell r)[i]? with
    | none => h
    | some e =>
      if e.code = code then
        popLoop r set code fuel (i + 1)
          { h with
            issues := h.issues.write r ((h.issues.cell r).erase e)
            stop := match set with
              | some k => if e.code ∈ h.stop.cell k then h.stop.write k ((h.stop.cell k).erase e.code) else h.stop
              | none => h.stop }
      else popLoop r set code fuel (i + 1) h

/-- `ValidationIssues.pop` (src/error.py:342-362): the collection it returns. -/
def pop (h : Heap) (o : Nat) (loc : Loc) (code : Nat) : Heap × Nat :=
  match aget loc (h.issues.tab o) with
  | none => h.new
  | some r =>
    let (h, popped) := h.get o loc
    let h := popLoop r (aget loc (h.stop.tab o)) code (h.issues.cell r).length 0 h
    let h := if (h.issues.cell r).isEmpty then { h with issues := h.issues.drop o loc } else h
    let h := match aget loc (h.stop.tab o) with
      | some k => if (h.stop.cell k).isEmpty then { h with stop := h.stop.drop o loc } else h
      | none => h
    (h, popped)

end Heap
end Scim
