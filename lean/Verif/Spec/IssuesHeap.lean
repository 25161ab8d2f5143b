import Verif.Model.IssuesHeap
import Verif.Spec.Issues

/-!
# Which collections of validation issues may influence each other

A program creates collections, adds issues to them, merges them into each other, and takes parts of them
with `get` and `pop`.  The part that `get` returns (and `pop`, when there is something to pop) is a *view*
of the collection it was taken from; every other collection stands for itself.
-/

namespace Scim

/-- One step of a program that works with collections of validation issues. -/
inductive HeapOp where
  | new
  | add (o : Nat) (e : VErr) (proceed : Bool) (loc : Loc)
  | merge (o a : Nat) (loc : Loc)
  | get (o : Nat) (loc : Loc)
  | pop (o : Nat) (loc : Loc) (code : Nat)

/-- The collections of a program together with, for each of them, the collection it is a view of (itself,
when it is not a view). -/
structure Tracked where
  heap : Heap := {}
  origin : List Nat := []

/-- The collections a step works on exist. -/
def HeapOp.Valid (t : Tracked) : HeapOp → Prop
  | .new => True
  | .add o _ _ _ => o < t.heap.size
  | .merge o a _ => o < t.heap.size ∧ a < t.heap.size
  | .get o _ => o < t.heap.size
  | .pop o _ _ => o < t.heap.size

/-- One step.  A step that raises is caught by the program, which goes on with what the step left. -/
def Tracked.step (t : Tracked) : HeapOp → Tracked
  | .new => { heap := t.heap.new.1, origin := t.origin ++ [t.heap.size] }
  | .add o e p loc => { t with heap := (t.heap.add o e p loc).1 }
  | .merge o a loc => { t with heap := (t.heap.merge o a loc).1 }
  | .get o loc => { heap := (t.heap.get o loc).1, origin := t.origin ++ [(t.origin[o]?).getD o] }
  | .pop o loc code =>
    { heap := (t.heap.pop o loc code).1
      origin := t.origin ++ [if aget loc (t.heap.val o).issues = none
        then t.heap.size else (t.origin[o]?).getD o] }

/-- The states a program can reach. -/
inductive Tracked.Reach : Tracked → Prop
  | start : Tracked.Reach {}
  | step {t : Tracked} (op : HeapOp) : Tracked.Reach t → op.Valid t → Tracked.Reach (t.step op)

/-- Two collections are related when one is a view of the other, or both are views of the same one. -/
def Tracked.Related (t : Tracked) (i j : Nat) : Prop := t.origin[i]? = t.origin[j]?

/-- The step does not concern collection `j`: nothing is added to, merged into or popped from a related
collection, and `j` is not the argument of a merge. -/
def HeapOp.SparesOf (t : Tracked) (j : Nat) : HeapOp → Prop
  | .new => True
  | .add o _ _ _ => ¬ t.Related o j
  | .merge o a _ => ¬ t.Related o j ∧ a ≠ j
  | .get _ _ => True
  | .pop o _ _ => ¬ t.Related o j

/-- A stretch of a program, of any length, none of whose steps concerns collection `j`. -/
inductive Tracked.Spares (j : Nat) : Tracked → Tracked → Prop
  | done (t : Tracked) : Tracked.Spares j t t
  | step {t t' : Tracked} (op : HeapOp) : op.Valid t → op.SparesOf t j → Tracked.Spares j (t.step op) t' →
      Tracked.Spares j t t'

/-- `add` finds the entries it needs in a plain dictionary. -/
def Issues.Accepts (s : Issues) (proceed : Bool) (loc : Loc) : Prop :=
  (aget loc s.issues).isSome ∧ (proceed = true ∨ (aget loc s.stop).isSome)

end Scim
