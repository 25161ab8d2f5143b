import Verif.Model.Issues
import Verif.Model.Messages

/-!
# Issue collections with messages and contexts (`ValidationIssues`, src/error.py:305-415)

`Issues` is what the rest of the model uses; here the same operations work on whole errors, and errors are compared the
way the class does it, by their messages.
-/

namespace Scim.Messages

/-- `ValidationIssues` (src/error.py:305-308): `_issues` and `_stop_proceeding`. -/
structure Collection where
  issues : List (Loc × List Error) := []
  stop : List (Loc × List Nat) := []
deriving DecidableEq, Repr

namespace Collection

/-- `self._issues[l].extend(errs)` on a defaultdict (src/error.py:314, 324). -/
def extendAt (l : Loc) (errs : List Error) (m : List (Loc × List Error)) : List (Loc × List Error) :=
  aset l (((aget l m).getD []) ++ errs) m

/-- `ValidationIssues.add` (src/error.py:317-326). -/
def add (s : Collection) (e : Error) (proceed : Bool) (loc : Loc := []) : Collection :=
  { issues := extendAt loc [e] s.issues
    stop := if proceed then s.stop else Issues.updateAt loc [e.code] s.stop }

/-- `ValidationIssues.merge` (src/error.py:310-315). -/
def merge (s other : Collection) (loc : Loc := []) : Collection :=
  other.issues.foldl
    (fun acc p =>
      { issues := extendAt (loc ++ p.1) p.2 acc.issues
        stop := Issues.updateAt (loc ++ p.1) ((aget p.1 other.stop).getD []) acc.stop })
    s

/-- `ValidationIssues.get` (src/error.py:328-340). -/
def get (s : Collection) (loc : Loc) : Collection :=
  { issues := s.issues.filterMap fun p =>
      if p.1.take loc.length = loc then some (p.1.drop loc.length, p.2) else none
    stop := s.stop.filterMap fun p =>
      if p.1.take loc.length = loc then some (p.1.drop loc.length, p.2) else none }

/-- The loop of `pop` (src/error.py:350-354).  `remove` deletes the first error that equals the one at hand; errors are
equal when their messages are (src/error.py:300-301). -/
def popLoop (code : Nat) : Nat → Nat → List Error → List Error
  | 0, _, l => l
  | fuel + 1, i, l =>
    match l[i]? with
    | none => l
    | some e =>
      if e.code = code then popLoop code fuel (i + 1) (l.eraseP fun x => x.message = e.message)
      else popLoop code fuel (i + 1) l

/-- `ValidationIssues.pop` (src/error.py:342-362): the remaining issues. -/
def pop (s : Collection) (loc : Loc) (code : Nat) : Collection :=
  match aget loc s.issues with
  | none => s
  | some errs =>
    let errs' := popLoop code errs.length 0 errs
    let stop1 := if errs.any (·.code = code) then
        match aget loc s.stop with
        | some codes => aset loc (codes.erase code) s.stop
        | none => s.stop
      else s.stop
    { issues := if errs'.isEmpty then adel loc s.issues else aset loc errs' s.issues
      stop := match aget loc stop1 with
        | some [] => adel loc stop1
        | _ => stop1 }

end Collection

/-- One item of a report (src/error.py:397-401, 408-412): `code`, and `error` and `context` if they are there. -/
structure Item where
  code : Nat
  error : Option Str := none
  context : Option (List (Str × Arg)) := none
deriving DecidableEq, Repr

/-- The making of an item (src/error.py:397-401, 408-412). -/
def Error.item (msg ctx : Bool) (e : Error) : Item :=
  let item : Item := { code := e.code }
  let item := if msg then { item with error := some e.message } else item
  if ctx then { item with context := some e.context } else item

/-- The nested report. -/
inductive Report where
  | items (xs : List Item)
  | dict (kvs : List (Str × Report))
deriving Repr

namespace Report

/-- `if "_errors" not in level: level["_errors"] = []` followed by the `append`s (src/error.py:394-402, 405-413). -/
def append (xs : List Item) : Report → PyM Report
  | .items _ => .error .typeError
  | .dict kvs =>
    match aget errorsKey kvs with
    | none => .ok (.dict (aset errorsKey (.items xs) kvs))
    | some (.items old) => .ok (.dict (aset errorsKey (.items (old ++ xs)) kvs))
    | some (.dict _) => if xs.isEmpty then .ok (.dict kvs) else .error .attributeError

/-- Walk along the location parts, creating levels, and append at the last one (src/error.py:387-413). -/
def insert (xs : List Item) : List Str → Report → PyM Report
  | [], r => r.append xs
  | _ :: _, .items _ => .error .typeError
  | p :: ps, .dict kvs =>
    match insert xs ps ((aget p kvs).getD (.dict [])) with
    | .ok sub => .ok (.dict (aset p sub kvs))
    | .error e => .error e

end Report

/-- The loop of `to_dict` (src/error.py:386). -/
def reportLoop (msg ctx : Bool) : List (Loc × List Error) → Report → PyM Report
  | [], r => .ok r
  | (loc, errs) :: rest, r =>
    match r.insert (errs.map (·.item msg ctx)) (loc.map LKey.toStr) with
    | .ok r' => reportLoop msg ctx rest r'
    | .error e => .error e

/-- `ValidationIssues.to_dict(msg, ctx)` (src/error.py:384-415). -/
def Collection.toDict (msg ctx : Bool) (s : Collection) : PyM Report := reportLoop msg ctx s.issues (.dict [])

end Scim.Messages
