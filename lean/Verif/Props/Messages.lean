import Verif.Lemmas.ErrorMessages

/-!
# C102: error messages

The messages are written out in `Verif/Spec/Messages.lean`.
-/

namespace Scim
open Messages

/-- **C102** Making an error never raises, whatever the values it is about: the error has its code, the message is the
text written out in the specification, and the context holds the values under their names. -/
theorem C102_made (c : Call) :
    c.make = .ok { code := c.code, message := c.text, context := c.values.map fun p => (p.1.toList, p.2) } :=
  make_eq c

/-- **C102** An error of a code can be made directly with any context that has all the names its message shows; a
context without one of them raises `KeyError`. -/
theorem C102_names (c : Call) (context : List (Str × Arg)) :
    ((∀ p ∈ c.values, (aget p.1.toList context).isSome = true) → ∃ e, mk c.code context = .ok e) ∧
    ((∃ p ∈ c.values, aget p.1.toList context = none) → mk c.code context = .error .keyError) :=
  mk_names c context

/-- **C102** Every value an error is about is shown in the message. -/
theorem C102_shown (c : Call) : ∀ p ∈ c.values, p.2.str <:+: c.text ∨ p.2.repr <:+: c.text :=
  values_shown c

/-- **C102** The message tells the code: errors with the same message have the same code. -/
theorem C102_code (c d : Call) (e f : Error) (hc : c.Proper) (hd : d.Proper) (he : c.make = .ok e) (hf : d.make = .ok f)
    (h : e.message = f.message) : e.code = f.code := by
  rw [make_eq] at he hf
  cases he; cases hf
  exact text_code hc hd h

/-- **C102** An error equals its message and the errors with the same message, and nothing else. -/
theorem C102_equal (e : Error) (o : Obj) :
    e.eq o = true ↔ o = .text e.message ∨ ∃ f, o = .err f ∧ f.message = e.message := by
  cases o with
  | err f =>
    simp only [Error.eq, Obj.eqText, decide_eq_true_eq]
    constructor
    · intro h; exact Or.inr ⟨f, rfl, h.symm⟩
    · rintro (h | ⟨g, h, hm⟩)
      · cases h
      · cases h; exact hm.symm
  | text s =>
    simp only [Error.eq, Obj.eqText, decide_eq_true_eq]
    constructor
    · rintro rfl; exact Or.inl rfl
    · rintro (h | ⟨g, h, hm⟩)
      · cases h; rfl
      · cases h
  | other =>
    simp only [Error.eq, Obj.eqText]
    constructor
    · intro h; cases h
    · rintro (h | ⟨g, h, hm⟩)
      · cases h
      · cases h

end Scim

namespace Scim.Examples.Messages
open Scim.Messages

/-- a text without quotation marks -/
def arg (s : String) : Arg := { str := s.toList, repr := '\'' :: s.toList ++ ['\''] }

/-- **C102** -/
example : ((Call.badType (arg "str") (arg "int")).make.toOption.map (·.message)) =
    some "expected type 'str', got 'int' instead".toList := by decide +kernel
example : ((Call.badAttributeName (arg "a b")).make.toOption.map (·.message)) =
    some "attribute 'a b' does not conform the rules".toList := by decide +kernel
example : ((Call.multiplePrimaryValues [0, 12] []).make.toOption.map (·.message)) =
    some ("'primary' attribute, in multi-valued attribute item, set to 'True', MUST appear no more than once, " ++
      "but these items have it: 0, 12").toList := by decide +kernel
/-- values that look like replacement fields are left alone -/
example : ((Call.badUrl (arg "{value}")).make.toOption.map (·.message)) = some "'{value}' is not a valid URL".toList := by
  decide +kernel
/-- a name too little, and one too much -/
example : (match mk 2 [("expected".toList, arg "str")] with | .error e => some e | .ok _ => none) = some .keyError ∧
    ((mk 8 [("value".toList, arg "x"), ("more".toList, arg "y")]).toOption.map (·.message)) =
      some "'x' is not a valid URL".toList := by decide +kernel
/-- the hypotheses of `C102_code` are met -/
example : (Call.badAttributeName (arg "a b")).Proper ∧ (Call.unknownOperator (arg "unary") (arg "x") (arg "a x")).Proper :=
  ⟨Or.inl rfl, Or.inl rfl⟩

/-- **C102** the kind of the operator is needed: other words could make the message of an unknown operator look like that
of an unknown expression -/
theorem C102_operator_type :
    ∃ c d : Call, c.text = d.text ∧ c.code ≠ d.code :=
  ⟨.unknownOperator (arg "expression 'a") (arg "b") (arg "c"), .unknownExpression (arg "a operator 'b' in expression 'c"),
    by decide +kernel, by decide⟩

end Scim.Examples.Messages
