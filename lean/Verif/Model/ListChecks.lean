import Verif.Model.Sorter
import Verif.Model.Presence
import Verif.Model.Filter

/-!
# The checks of a list of resources (src/request_validators.py:434-549)

The schema of a resource is given by its position in a table of schemas; `none` is `None`.
-/

namespace Scim

/-- The exceptions swallowed by `skip_if_bad_data` (src/request_validators.py:38-46); `UnicodeEncodeError` is a
`ValueError`. -/
def PyErr.isBadData : PyErr → Bool
  | .typeError | .attributeError | .indexError | .valueError | .unicodeEncodeError => true
  | _ => false

/-- `skip_if_bad_data` (src/request_validators.py:38-46). -/
def skipIfBad : PyM Issues → PyM Issues
  | .error e => if e.isBadData then .ok {} else .error e
  | .ok i => .ok i

/-- `schema.attrs` for a schema that may be `None`. -/
def attrsOf (table : List Schema) : Option Nat → PyM Attributes
  | none => .error .attributeError
  | some t => match table[t]? with
    | some s => .ok s.attrs
    | none => .error .attributeError

section
variable [PyEnv]

/-- `resources == sorted_resources` for lists of the same objects in another order: the objects at each position
are identical or equal. -/
def sameOrder (data : List Val) : Nat → List Nat → PyM Bool
  | _, [] => .ok true
  | i, j :: js =>
    if i = j then sameOrder data (i + 1) js
    else match (data.getD i .missing).pyEq (data.getD j .missing) with
      | .error e => .error e
      | .ok true => sameOrder data (i + 1) js
      | .ok false => .ok false

/-- `validate_resources_sorted` (src/request_validators.py:434-446). -/
def validateSorted (s : SorterCfg) (resources : List Val) (schemas : SortSchemas) : PyM Issues :=
  skipIfBad <|
    match s.order resources schemas with
    | .error e => .error e
    | .ok is => match sameOrder resources 0 is with
      | .error e => .error e
      | .ok true => .ok {}
      | .ok false => .ok (Issues.empty.add ⟨26, []⟩ true)

/-- The loop of `validate_resources_attributes_presence` (src/request_validators.py:455-460). -/
def presenceLoop (c : Checker) (table : List Schema) : Nat → List Val → List (Option Nat) → Issues → PyM Issues
  | i, r :: rs, t :: ts, issues =>
    match attrsOf table t with
    | .error e => .error e
    | .ok attrs => match c.call r attrs .response with
      | .error e => .error e
      | .ok is => presenceLoop c table (i + 1) rs ts (issues.merge is [.idx i])
  | _, _, _, issues => .ok issues

/-- `validate_resources_attributes_presence` (src/request_validators.py:449-460). -/
def validateResourcesPresence (c : Checker) (resources : List Val) (table : List Schema)
    (ids : List (Option Nat)) : PyM Issues := presenceLoop c table 0 resources ids {}

/-- `a < b` for a value and an integer. -/
def Val.ltInt (v : Val) (n : Int) : PyM Bool := v.pyLt (.int n)

/-- `validate_number_of_resources` (src/request_validators.py:463-487). -/
def validateNumber (count : Option Int) (total : Val) (n : Nat) : PyM Issues :=
  match total.pyLt (.int n) with
  | .error e => .error e
  | .ok low =>
    let issues : Issues := if low then Issues.empty.add ⟨22, []⟩ true else {}
    match count with
    | none => match (Val.int n).pyLt total with
      | .error e => .error e
      | .ok high => .ok (if high then issues.add ⟨23, []⟩ true else issues)
    | some c => .ok (if c < n then issues.add ⟨21, []⟩ true else issues)

/-- `validate_pagination_info` (src/request_validators.py:490-515). -/
def validatePagination (count : Option Int) (total : Val) (n : Nat) (startIndex itemsPerPage : Val) : PyM Issues :=
  skipIfBad <|
    if 0 < count.getD 0 then
      match (Val.int n).pyLt total with
      | .error e => .error e
      | .ok false => .ok {}
      | .ok true =>
        let issues : Issues :=
          if startIndex.isNoneOrMissing then Issues.empty.add ⟨15, []⟩ false [.name "startIndex".toList] else {}
        .ok (if itemsPerPage.isNoneOrMissing then issues.add ⟨15, []⟩ false [.name "itemsPerPage".toList]
          else issues)
    else .ok {}

/-- `validate_start_index_consistency` (src/request_validators.py:518-534). -/
def validateStartIndex (startIndex : Int) (body : Val) : PyM Issues :=
  match (Val.int startIndex).pyLt body with
  | .error e => .error e
  | .ok big => .ok (if big then Issues.empty.add ⟨24, []⟩ true else {})

/-- The loop of `validate_resources_filtered` (src/request_validators.py:541-549). -/
def filteredLoop (o : Op) (table : List Schema) (strict : Bool) :
    Nat → List Val → List (Option Nat) → Issues → PyM Issues
  | i, r :: rs, t :: ts, issues =>
    match attrsOf table t with
    | .error e => .error e
    | .ok attrs => match Filter.call o r attrs.all strict with
      | .error e => .error e
      | .ok st => match st.toBool with
        | .error e => .error e
        | .ok b =>
          filteredLoop o table strict (i + 1) rs ts (if b then issues else issues.add ⟨25, []⟩ true [.idx i])
  | _, _, _, issues => .ok issues

/-- `validate_resources_filtered` (src/request_validators.py:537-549). -/
def validateFiltered (resources : List Val) (o : Op) (table : List Schema) (ids : List (Option Nat))
    (strict : Bool) : PyM Issues :=
  skipIfBad (filteredLoop o table strict 0 resources ids {})

end
end Scim
