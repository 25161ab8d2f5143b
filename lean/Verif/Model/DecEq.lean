import Verif.Model.Value

/-! Decidable (structural) equality of operators and values, used to evaluate concrete examples.  It plays
no role in the model of the library; Python's `==` is `Val.pyEq`. -/

namespace Scim

deriving instance DecidableEq for Except

mutual
/-- structural equality test -/
def Op.beq : Op → Op → Bool
  | .pr r, .pr r' => r == r'
  | .cmp o r v, .cmp o' r' v' => o == o' && r == r' && v == v'
  | .cplx r s, .cplx r' s' => r == r' && s.beq s'
  | .not s, .not s' => s.beq s'
  | .and s, .and s' => opsBeq s s'
  | .or s, .or s' => opsBeq s s'
  | _, _ => false
/-- structural equality test -/
def opsBeq : List Op → List Op → Bool
  | [], [] => true
  | a :: r, b :: s => a.beq b && opsBeq r s
  | _, _ => false
end

mutual
theorem Op.beq_iff (a b : Op) : a.beq b = true ↔ a = b := by
  cases a with
  | cplx r s => cases b <;> simp [Op.beq, Op.beq_iff s]
  | not s => cases b <;> simp [Op.beq, Op.beq_iff s]
  | and s => cases b <;> simp [Op.beq, opsBeq_iff s]
  | or s => cases b <;> simp [Op.beq, opsBeq_iff s]
  | _ => cases b <;> simp [Op.beq, and_assoc]
theorem opsBeq_iff (a b : List Op) : opsBeq a b = true ↔ a = b := by
  cases a with
  | nil => cases b <;> simp [opsBeq]
  | cons x r => cases b <;> simp [opsBeq, Op.beq_iff x, opsBeq_iff r]
end

instance : DecidableEq Op := fun a b => decidable_of_iff (a.beq b = true) (Op.beq_iff a b)

deriving instance DecidableEq for PatchPath
deriving instance DecidableEq for Obj

mutual
/-- structural equality test -/
def Val.beq : Val → Val → Bool
  | .prim p, .prim q => p == q
  | .missing, .missing => true
  | .invalid, .invalid => true
  | .list xs, .list ys => valsBeq xs ys
  | .dict xs, .dict ys => pairsBeq xs ys
  | .cont xs l, .cont ys m => pairsBeq xs ys && l == m
  | .dt x, .dt y => x == y
  | .obj x, .obj y => x == y
  | _, _ => false
/-- structural equality test -/
def valsBeq : List Val → List Val → Bool
  | [], [] => true
  | a :: r, b :: s => a.beq b && valsBeq r s
  | _, _ => false
/-- structural equality test -/
def pairsBeq : List (Str × Val) → List (Str × Val) → Bool
  | [], [] => true
  | (k, a) :: r, (l, b) :: s => k == l && a.beq b && pairsBeq r s
  | _, _ => false
end

mutual
theorem Val.beq_iff (a b : Val) : a.beq b = true ↔ a = b := by
  cases a with
  | list s => cases b <;> simp [Val.beq, valsBeq_iff s]
  | dict s => cases b <;> simp [Val.beq, pairsBeq_iff s]
  | cont s l => cases b <;> simp [Val.beq, pairsBeq_iff s]
  | _ => cases b <;> simp [Val.beq]
theorem valsBeq_iff (a b : List Val) : valsBeq a b = true ↔ a = b := by
  cases a with
  | nil => cases b <;> simp [valsBeq]
  | cons x r => cases b <;> simp [valsBeq, Val.beq_iff x, valsBeq_iff r]
theorem pairsBeq_iff (a b : List (Str × Val)) : pairsBeq a b = true ↔ a = b := by
  cases a with
  | nil => cases b <;> simp [pairsBeq]
  | cons x r =>
    obtain ⟨k, v⟩ := x
    cases b with
    | nil => simp [pairsBeq]
    | cons y s =>
      obtain ⟨l, w⟩ := y
      simp [pairsBeq, Val.beq_iff v w, pairsBeq_iff r s, and_assoc]
end

instance : DecidableEq Val := fun a b => decidable_of_iff (a.beq b = true) (Val.beq_iff a b)

end Scim
