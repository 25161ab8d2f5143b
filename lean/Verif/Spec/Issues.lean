import Verif.Model.Issues

/-! Specification vocabulary for issue collections. -/

namespace Scim

/-- The collections a program can hold: any history of the public operations. -/
inductive Issues.Reach : Issues → Prop
  | empty : Reach {}
  | add {s} (e : VErr) (proceed : Bool) (loc : Loc) : Reach s → Reach (s.add e proceed loc)
  | merge {s o} (loc : Loc) : Reach s → Reach o → Reach (s.merge o loc)
  | pop {s} (loc : Loc) (code : Nat) : Reach s → Reach (s.pop loc code)
  | get {s} (loc : Loc) : Reach s → Reach (s.get loc)

/-- A consistent collection: one entry per location, none empty, and only recorded errors block.  Every reachable
collection is consistent. -/
structure Issues.WF (s : Issues) : Prop where
  keys : (s.issues.map (·.1)).Nodup
  nonempty : ∀ p ∈ s.issues, p.2 ≠ []
  stopKeys : (s.stop.map (·.1)).Nodup
  stopSub : ∀ q ∈ s.stop.map (·.1), q ∈ s.issues.map (·.1)
  codesSub : ∀ q codes, aget q s.stop = some codes → ∀ c ∈ codes, ∃ e ∈ s.errorsAt q, e.code = c
  codesNodup : ∀ q codes, aget q s.stop = some codes → codes.Nodup

/-- A history of `add` calls: the error, its `proceed` flag and its location. -/
abbrev AddHistory := List (VErr × Bool × Loc)

/-- The collection after a history of `add` calls. -/
def AddHistory.run (h : AddHistory) : Issues :=
  h.foldl (fun s x => s.add x.1 x.2.1 x.2.2) {}

/-- What a report lists under `_errors` at the nested path. -/
def Report.errorsAt : List Str → Report → Option (List Nat)
  | [], .dict kvs => match aget errorsKey kvs with
    | some (.codes cs) => some cs
    | _ => none
  | p :: ps, .dict kvs => (aget p kvs).bind (errorsAt ps)
  | _, .codes _ => none

end Scim
