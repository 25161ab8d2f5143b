import Verif.Model.Container
import Verif.Model.Issues
import Verif.Model.DecEq

/-!
# Attribute types (src/data/type.py)
-/

namespace Scim

/-! ## base64 (Python's `base64.b64encode`, `base64.b64decode`, i.e. `binascii.b2a_base64` and
`binascii.a2b_base64` in non-strict mode) -/

/-- A byte. -/
abbrev Byte := Fin 256

/-- The base64 alphabet. -/
def b64Alphabet : Str := "ABCDEFGHIJKLMNOPQRSTUVWXYZabcdefghijklmnopqrstuvwxyz0123456789+/".toList

/-- The character for a six-bit number. -/
def b64Char (n : Nat) : Char := b64Alphabet.getD n '='

/-- The six-bit number of a character of the alphabet. -/
def b64Val (c : Char) : Option Nat := b64Alphabet.findIdx? (· == c)

/-- `base64.b64encode` -/
def b64Encode : List Byte → Str
  | [] => []
  | [a] => [b64Char (a / 4), b64Char (a % 4 * 16), '=', '=']
  | [a, b] => [b64Char (a / 4), b64Char (a % 4 * 16 + b / 16), b64Char (b % 16 * 4), '=']
  | a :: b :: c :: r =>
    b64Char (a / 4) :: b64Char (a % 4 * 16 + b / 16) :: b64Char (b % 16 * 4 + c / 64)
      :: b64Char (c % 64) :: b64Encode r

/-- The decoding loop of `binascii.a2b_base64` (non-strict): `quad` is the position in the group of four,
`left` the pending bits, `pads` the number of consecutive `=`.  Characters outside the alphabet are
skipped; `none` stands for `binascii.Error`. -/
def b64Loop (quad left pads : Nat) : Str → Option (List Byte)
  | [] => if quad = 0 then some [] else none
  | c :: cs =>
    if c = '=' then
      if 2 ≤ quad then
        if 4 ≤ quad + (pads + 1) then some [] else b64Loop quad left (pads + 1) cs
      else b64Loop quad left pads cs
    else match b64Val c with
      | none => b64Loop quad left pads cs
      | some v =>
        match quad with
        | 0 => b64Loop 1 v 0 cs
        | 1 => (b64Loop 2 (v % 16) 0 cs).map (Fin.ofNat 256 (left * 4 + v / 16) :: ·)
        | 2 => (b64Loop 3 (v % 4) 0 cs).map (Fin.ofNat 256 (left * 16 + v / 4) :: ·)
        | _ => (b64Loop 0 0 0 cs).map (Fin.ofNat 256 (left * 64 + v) :: ·)

/-- `base64.b64decode(value)`; `none` stands for `binascii.Error`. -/
def b64Decode (s : Str) : Option (List Byte) := b64Loop 0 0 0 s

/-- `bytes(value, "ascii")` succeeds. -/
def isAscii (s : Str) : Bool := s.all (fun c => c.toNat < 128)

/-! ## The types -/

/-- The subclasses of `AttributeType` (src/data/type.py:46-235). -/
inductive AttrType where
  | unknown | boolean | decimal | integer | string | binary | extRef | uriRef | scimRef | dateTime | complex
deriving DecidableEq, Repr

/-- An `ValidationIssues` with one blocking issue. -/
def blocking (code : Nat) (loc : Loc := []) : Issues := Issues.empty.add ⟨code, []⟩ false loc

/-- `Invalid` with a blocking `bad_type` issue (src/data/type.py:21-29). -/
def badType : Val × Issues := (.invalid, blocking 2)

/-- `isinstance(value, int)`; `bool` is a subclass of `int`. -/
def Val.isPyInt : Val → Bool
  | .prim (.int _) | .prim (.bool _) => true
  | _ => false

/-- The integer value of an `int` or `bool`. -/
def Prim.asInt : Prim → Int
  | .int i => i
  | .bool b => if b then 1 else 0
  | _ => 0

/-- `Integer.parse` and `Integer.dump`, which have the same text (src/data/type.py:93-109). -/
def integerConv (v : Val) : PyM (Val × Issues) :=
  match v with
  | .prim (.flt f) =>
    match intOfFloat f with
    | .error e => .error e
    | .ok i => if f.isIntegral then .ok (.int i, {}) else .ok badType
  | .prim (.int i) => .ok (.int i, {})
  | .prim (.bool b) => .ok (.bool b, {})
  | _ => .ok badType

/-- `Decimal.parse` and `Decimal.dump`, which have the same text (src/data/type.py:68-90). -/
def decimalConv (v : Val) : PyM (Val × Issues) :=
  match v with
  | .prim (.flt f) => .ok (.prim (.flt f), {})
  | .prim p =>
    if v.isPyInt then
      match floatOfInt p.asInt with
      | .ok f => .ok (.prim (.flt f), {})
      | .error e => .error e
    else .ok badType
  | _ => .ok badType

/-- `String.parse` and `String.dump` (src/data/type.py:19-43, 112-115). -/
def stringConv (v : Val) : PyM (Val × Issues) :=
  match v with
  | .prim (.str s) => .ok (.str s, {})
  | _ => .ok badType

/-- `Boolean.parse` and `Boolean.dump` (src/data/type.py:19-43, 62-65). -/
def booleanConv (v : Val) : PyM (Val × Issues) :=
  match v with
  | .prim (.bool b) => .ok (.bool b, {})
  | _ => .ok badType

/-- `Binary.parse`, `Binary.dump`, `Binary._validate_encoding` (src/data/type.py:118-157). -/
def binaryConv (v : Val) : PyM (Val × Issues) :=
  match v with
  | .prim (.str s) =>
    if !isAscii s then .error .unicodeEncodeError
    else match b64Decode s with
      | none => .ok (.invalid, blocking 3)
      | some bs => if b64Encode bs ≠ s then .ok (.invalid, blocking 3) else .ok (.str s, {})
  | _ => .ok badType

section
variable [PyEnv]

/-- `ExternalReference.parse` and `.dump` with `validate_absolute_url` (src/data/type.py:160-183,
253-270); `urlOk` stands for `urlparse` succeeding with non-empty scheme and netloc. -/
def extRefConv (v : Val) : PyM (Val × Issues) :=
  match v with
  | .prim (.str s) => if urlOk s then .ok (.str s, {}) else .ok (.invalid, Issues.empty.merge (blocking 8))
  | _ => .ok badType

/-- `cls.parse(value)` (src/data/type.py:19-235). -/
def AttrType.parse (t : AttrType) (v : Val) : PyM (Val × Issues) :=
  match t with
  | .unknown => .ok (v, {})
  | .boolean => booleanConv v
  | .decimal => decimalConv v
  | .integer => integerConv v
  | .string | .uriRef | .scimRef => stringConv v
  | .binary => binaryConv v
  | .extRef => extRefConv v
  | .dateTime =>
    match v with
    | .prim (.str s) => match fromIso s with
      | some d => .ok (.dt d, {})
      | none => .ok (.invalid, blocking 1)
    | _ => .ok badType
  | .complex => if v.isCont then .ok (v, {}) else .ok badType

/-- `cls.dump(value)` (src/data/type.py:32-235). -/
def AttrType.dump (t : AttrType) (v : Val) : PyM (Val × Issues) :=
  match t with
  | .dateTime =>
    match v with
    | .dt d => .ok (.str (isoFormat d), {})
    | _ => .ok badType
  | _ => t.parse v

end

end Scim
