import Verif.Model.Base

/-!
# `ValidationError` and `ValidationIssues` (src/error.py)

An error carries its code and, where a message distinguishes errors of the same code that are later
popped, one context string.  Message texts are not modelled.
-/

namespace Scim

/-- One component of a location tuple: a name or an index. -/
inductive LKey where
  | name (s : Str)
  | idx (n : Nat)
deriving DecidableEq, Repr

/-- A location tuple. -/
abbrev Loc := List LKey

/-- `ValidationError` (src/error.py:5-77). -/
structure VErr where
  code : Nat
  ctx : Str := []
deriving DecidableEq, Repr

/-- `ValidationIssues` (src/error.py:305-308): `_issues` and `_stop_proceeding`. -/
structure Issues where
  issues : List (Loc × List VErr) := []
  stop : List (Loc × List Nat) := []
deriving DecidableEq, Repr

namespace Issues

/-- `ValidationIssues()` -/
abbrev empty : Issues := {}

/-- `self._issues[l].extend(errs)` on a defaultdict. -/
def extendAt (l : Loc) (errs : List VErr) (m : List (Loc × List VErr)) : List (Loc × List VErr) :=
  aset l (((aget l m).getD []) ++ errs) m

/-- Set union, keeping first occurrences. -/
def unionCodes (a b : List Nat) : List Nat := b.foldl (fun acc c => if c ∈ acc then acc else acc ++ [c]) a

/-- `self._stop_proceeding[l].update(codes)` on a defaultdict: the key is created even when `codes`
is empty. -/
def updateAt (l : Loc) (codes : List Nat) (m : List (Loc × List Nat)) : List (Loc × List Nat) :=
  aset l (unionCodes ((aget l m).getD []) codes) m

/-- `ValidationIssues.add` (src/error.py:317-326). -/
def add (s : Issues) (e : VErr) (proceed : Bool) (loc : Loc := []) : Issues :=
  { issues := extendAt loc [e] s.issues
    stop := if proceed then s.stop else updateAt loc [e.code] s.stop }

/-- `ValidationIssues.merge` (src/error.py:310-315). -/
def merge (s : Issues) (other : Issues) (loc : Loc := []) : Issues :=
  other.issues.foldl
    (fun acc p =>
      { issues := extendAt (loc ++ p.1) p.2 acc.issues
        stop := updateAt (loc ++ p.1) ((aget p.1 other.stop).getD []) acc.stop })
    s

/-- The effect of `merge` on its argument: reading `issues._stop_proceeding[l]` creates the key
(src/error.py:315). -/
def touched (other : Issues) : Issues :=
  { other with stop := other.issues.foldl (fun m p => updateAt p.1 [] m) other.stop }

/-- `ValidationIssues.get` (src/error.py:328-340).  The result holds plain dictionaries; merging from it
is `mergeCopy`. -/
def get (s : Issues) (loc : Loc) : Issues :=
  { issues := s.issues.filterMap fun p =>
      if p.1.take loc.length = loc then some (p.1.drop loc.length, p.2) else none
    stop := s.stop.filterMap fun p =>
      if p.1.take loc.length = loc then some (p.1.drop loc.length, p.2) else none }

/-- `merge` with the result of `get`: `_stop_proceeding` is a plain dictionary there, so a location
without entry raises `KeyError`. -/
def mergeCopy (s : Issues) (copy : Issues) (loc : Loc := []) : PyM Issues :=
  if copy.issues.all (fun p => (aget p.1 copy.stop).isSome) then .ok (s.merge copy loc)
  else .error .keyError

/-- The loop of `pop` (src/error.py:350-354): iterating over a list by position while `remove` deletes
the first equal element.  `i` is the position of the iterator, `fuel` bounds the number of steps by the
length of the list. -/
def popLoop (code : Nat) : Nat → Nat → List VErr → List VErr
  | 0, _, l => l
  | fuel + 1, i, l =>
    match l[i]? with
    | none => l
    | some e => if e.code = code then popLoop code fuel (i + 1) (l.erase e) else popLoop code fuel (i + 1) l

/-- Whether the loop of `pop` removes something. -/
def popHits (code : Nat) (l : List VErr) : Bool := l.any (·.code = code)

/-- `ValidationIssues.pop` (src/error.py:342-362): the remaining issues.  The first removal also removes
the code from the set of blocking codes. -/
def pop (s : Issues) (loc : Loc) (code : Nat) : Issues :=
  match aget loc s.issues with
  | none => s
  | some errs =>
    let errs' := popLoop code errs.length 0 errs
    let stop1 := if popHits code errs then
        match aget loc s.stop with
        | some codes => aset loc (codes.erase code) s.stop
        | none => s.stop
      else s.stop
    { issues := if errs'.isEmpty then adel loc s.issues else aset loc errs' s.issues
      stop := match aget loc stop1 with
        | some [] => adel loc stop1
        | _ => stop1 }

/-- The collection returned by `pop` (src/error.py:348, 362): `get(location)` taken before the loop, but
sharing the lists and sets the loop mutates, so at the location itself it shows what is *left*. -/
def popResult (s : Issues) (loc : Loc) (code : Nat) : Issues :=
  match aget loc s.issues with
  | none => {}
  | some errs =>
    let g := s.get loc
    { issues := aset [] (popLoop code errs.length 0 errs) g.issues
      stop := match aget [] g.stop with
        | some codes => if popHits code errs then aset [] (codes.erase code) g.stop else g.stop
        | none => g.stop }

/-- `can_proceed` for one location (src/error.py:368-370). -/
def canProceedAt (s : Issues) (loc : Loc) : Bool :=
  (List.range (loc.length + 1)).all fun i => (aget (loc.take i) s.stop).isNone

/-- `can_proceed(*locations)` (src/error.py:364-371). -/
def canProceed (s : Issues) (locs : List Loc := []) : Bool :=
  match locs with
  | [] => s.canProceedAt []
  | ls => ls.all s.canProceedAt

/-- `has_issues(location)` (src/error.py:377-380). -/
def hasIssuesAt (s : Issues) (loc : Loc) : Bool :=
  s.issues.any fun p => p.1.take loc.length = loc

/-- `has_issues(*locations)` (src/error.py:373-382). -/
def hasIssues (s : Issues) (locs : List Loc := []) : Bool :=
  match locs with
  | [] => s.hasIssuesAt []
  | ls => ls.any s.hasIssuesAt

/-- The errors recorded for exactly this location. -/
def errorsAt (s : Issues) (loc : Loc) : List VErr := (aget loc s.issues).getD []

end Issues

/-! ## `to_dict` (src/error.py:384-415) -/

/-- The nested report, codes only: a dictionary or a list of `{"code": …}` items. -/
inductive Report where
  | codes (cs : List Nat)
  | dict (kvs : List (Str × Report))
deriving Repr

/-- The key `"_errors"`. -/
def errorsKey : Str := "_errors".toList

namespace Report

/-- `if "_errors" not in level: level["_errors"] = []` followed by the `append`s
(src/error.py:394-402, 405-413). -/
def append (cs : List Nat) : Report → PyM Report
  | .codes _ => .error .typeError
  | .dict kvs =>
    match aget errorsKey kvs with
    | none => .ok (.dict (aset errorsKey (.codes cs) kvs))
    | some (.codes old) => .ok (.dict (aset errorsKey (.codes (old ++ cs)) kvs))
    | some (.dict _) => if cs.isEmpty then .ok (.dict kvs) else .error .attributeError

/-- Walk along the location parts, creating levels, and append at the last one
(src/error.py:387-413). -/
def insert (cs : List Nat) : List Str → Report → PyM Report
  | [], r => r.append cs
  | _ :: _, .codes _ => .error .typeError
  | p :: ps, .dict kvs =>
    match insert cs ps ((aget p kvs).getD (.dict [])) with
    | .ok sub => .ok (.dict (aset p sub kvs))
    | .error e => .error e

end Report

/-- `str(part)` of a location part. -/
def LKey.toStr : LKey → Str
  | .name s => s
  | .idx n => (toString n).toList

/-- The loop of `to_dict` (src/error.py:386). -/
def reportLoop : List (Loc × List VErr) → Report → PyM Report
  | [], r => .ok r
  | (loc, errs) :: rest, r =>
    match r.insert (errs.map (·.code)) (loc.map LKey.toStr) with
    | .ok r' => reportLoop rest r'
    | .error e => .error e

/-- `ValidationIssues.to_dict()` (src/error.py:384-415), codes only. -/
def Issues.toDict (s : Issues) : PyM Report := reportLoop s.issues (.dict [])

end Scim
