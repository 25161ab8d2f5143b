import Verif.Model.IssueReport
import Verif.Spec.Issues
import Verif.Spec.Messages

/-! Words about issue collections with messages, and about reports (C111). -/

namespace Scim.Messages

/-- An error the way the program makes it: with one of the class methods. -/
def Error.Made (e : Error) : Prop := ∃ c : Call, c.Proper ∧ c.make = .ok e

/-- The collections a program can hold: any history of the public operations. -/
inductive Collection.Reach : Collection → Prop
  | empty : Reach {}
  | add {s} (e : Error) (proceed : Bool) (loc : Loc) : Reach s → e.Made → Reach (s.add e proceed loc)
  | merge {s o} (loc : Loc) : Reach s → Reach o → Reach (s.merge o loc)
  | pop {s} (loc : Loc) (code : Nat) : Reach s → Reach (s.pop loc code)
  | get {s} (loc : Loc) : Reach s → Reach (s.get loc)

/-- An error as the rest of the model has it: the code, and the message as what tells errors of a code apart. -/
def Error.plain (e : Error) : VErr := ⟨e.code, e.message⟩

/-- A collection as the rest of the model has it. -/
def Collection.plain (s : Collection) : Issues :=
  { issues := s.issues.map fun p => (p.1, p.2.map Error.plain), stop := s.stop }

/-- The errors recorded for exactly this location. -/
def Collection.errorsAt (s : Collection) (loc : Loc) : List Error := (aget loc s.issues).getD []

mutual
/-- A report with everything but the codes left out. -/
def Report.codes : Report → Scim.Report
  | .items xs => .codes (xs.map (·.code))
  | .dict kvs => .dict (Report.codesIn kvs)
/-- the members of a report with everything but the codes left out -/
def Report.codesIn : List (Str × Report) → List (Str × Scim.Report)
  | [] => []
  | (k, r) :: rest => (k, r.codes) :: codesIn rest
end

/-- What a report lists under `_errors` at the nested path. -/
def Report.itemsAt : List Str → Report → Option (List Item)
  | [], .dict kvs => match aget errorsKey kvs with
    | some (.items xs) => some xs
    | _ => none
  | p :: ps, .dict kvs => (aget p kvs).bind (itemsAt ps)
  | _, .items _ => none

end Scim.Messages
