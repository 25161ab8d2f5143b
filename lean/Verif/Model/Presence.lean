import Verif.Model.Schemas

/-!
# Presence checks (src/attributes_presence.py)

`Checker` (`Verif.Model.Value`) is `AttributePresenceChecker`: `_attr_reps`, `_include`,
`_ignore_required`.
-/

namespace Scim

/-- The `direction` argument; everything but `"RESPONSE"` behaves like `"REQUEST"`. -/
inductive Direction where
  | request | response
deriving DecidableEq, Repr

variable [PyEnv]

/-- `attr_rep in list`: some element is equal (`AttrRep.__eq__`). -/
def repIn (r : AttrRep) (rs : List AttrRep) : Bool := rs.any (fun x => x.eqv r)

/-- The location used for an attribute (src/attributes_presence.py:37-39, 105-107). -/
def AttrRep.loc (r : AttrRep) : Loc :=
  if r.sub.isEmpty then [.name r.attr] else [.name r.attr, .name r.sub]

/-- The loop of `AttributePresenceChecker.parse` (src/attributes_presence.py:32-52): the names parsed so far,
`all_parsed` and the issues. -/
def parseNames : List Str → List AttrRep → Bool → Issues → List AttrRep × Bool × Issues
  | [], reps, all, issues => (reps, all, issues)
  | s :: ss, reps, all, issues =>
    match AttrRep.parse s with
    | some r =>
      if issues.canProceed [r.loc] then parseNames ss (reps ++ [r]) all issues
      else parseNames ss reps false issues
    | none =>
      let issues := issues.add ⟨111, s⟩ false [.name s]
      -- an entry was just added at this very location, so `can_proceed` is false
      parseNames ss reps false issues

/-- `AttributePresenceChecker.parse` (src/attributes_presence.py:27-56); `none` is `Invalid`. -/
def Checker.parse (names : List Str) (incl : Option Bool := none) : Option Checker × Issues :=
  match parseNames names [] true {} with
  | (reps, all, issues) => (if all then some { reps, incl, ignore := [] } else none, issues)

/-- `_sub_attr_or_top_attr_in_attr_reps` (src/attributes_presence.py:166-180). -/
def Checker.subOrTopIn (c : Checker) (r : AttrRep) : Bool :=
  c.reps.any fun x => r.topLevelEquals x && (r.sub.isEmpty || (!r.sub.isEmpty && x.sub.isEmpty))

/-- `_check_presence` (src/attributes_presence.py:120-164). -/
def Checker.checkPresence (c : Checker) (v : Val) (d : Direction) (a : Attr) : Issues :=
  if !v.isEmptyish then
    if d ≠ .response then {}
    else if a.info.returned = .never then Issues.empty.add ⟨19, []⟩ true
    else if a.info.returned ≠ .always &&
        ((repIn a.rep c.reps && c.incl == some false) ||
         (!repIn a.rep c.reps && !c.subOrTopIn a.rep && c.incl == some true)) then
      Issues.empty.add ⟨19, []⟩ true
    else {}
  else
    if a.info.required && !repIn a.rep c.ignore &&
        (c.incl != some true || repIn a.rep c.reps ||
          (d = .response && a.info.returned = .always)) then
      Issues.empty.add ⟨15, []⟩ false
    else {}

/-- The loop over the items of a multi-valued parent (src/attributes_presence.py:86-99). -/
def Checker.checkItems (c : Checker) (d : Direction) (a : Attr) : Nat → List Val → Issues → PyM Issues
  | _, [], issues => .ok issues
  | i, item :: rest, issues =>
    if !isAttrName a.rep.sub then .error .valueError
    else match item.getItem { attr := a.rep.sub } with
      | .error e => .error e
      | .ok .invalid => c.checkItems d a (i + 1) rest issues
      | .ok v =>
        c.checkItems d a (i + 1) rest
          (issues.merge (c.checkPresence v d a) [.name a.rep.attr, .idx i, .name a.rep.sub])

/-- One round of the loop of `__call__` (src/attributes_presence.py:67-116).  Iterating over a value of a
multi-valued attribute that is neither `Invalid`, `Missing` nor `None`: a list is a list of items; an empty
string or dictionary has no items; items of other strings and dictionaries are strings, which cannot be
subscripted with a name (`TypeError`), a container is probed with `0` (`AttributeError`), the rest cannot be
iterated over (`TypeError`). -/
def Checker.checkAttr (c : Checker) (data : Val) (attrs : Attributes) (d : Direction) (a : Attr)
    (issues : Issues) : PyM Issues :=
  if !isAttrName a.rep.attr then .error .valueError
  else
    let top : AttrRep := { schema := a.rep.schema, attr := a.rep.attr }
    let single : PyM Issues :=
      match data.getItem a.rep with
      | .error e => .error e
      | .ok .invalid => .ok issues
      | .ok v => .ok (issues.merge (c.checkPresence v d a) a.rep.loc)
    if a.rep.sub.isEmpty then single
    else match attrs.get top with
      | none => .error .attributeError
      | some t =>
        if !t.info.multi then single
        else match data.getItem top with
          | .error e => .error e
          | .ok .invalid => .ok issues
          | .ok .missing => .ok issues
          | .ok (.prim .none) => .ok (issues.merge (c.checkPresence .null d a) a.rep.loc)
          | .ok (.list xs) => c.checkItems d a 0 xs issues
          | .ok (.cont _ _) => .error .attributeError
          | .ok (.prim (.str [])) => .ok issues
          | .ok (.dict []) => .ok issues
          | .ok _ => .error .typeError

/-- The loop of `__call__` (src/attributes_presence.py:66-116). -/
def Checker.checkAll (c : Checker) (data : Val) (attrs : Attributes) (d : Direction) :
    List Attr → Issues → PyM Issues
  | [], issues => .ok issues
  | a :: as, issues =>
    match c.checkAttr data attrs d a issues with
    | .error e => .error e
    | .ok issues => c.checkAll data attrs d as issues

/-- `checker(data, attrs, direction)` (src/attributes_presence.py:58-118). -/
def Checker.call (c : Checker) (data : Val) (attrs : Attributes) (d : Direction) : PyM Issues :=
  c.checkAll data attrs d attrs.all {}

end Scim
