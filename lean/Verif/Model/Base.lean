/-!
# Python run-time fragments used by the model

Text, exceptions as values, the run-time library as a parameter (`PyEnv`), floats and
insertion-ordered dictionaries.
-/

namespace Scim

/-- Python `str` as a list of code points (lone surrogates are not modelled). -/
abbrev Str := List Char

/-- The exception classes the modelled code can raise.  `recursion` is raised by the fuel of the filter parser,
which theorem `C53_…` shows never to happen, and by the dump of schemas nested deeper than the allowed depth
of calls (Verif/Model/Assets/SchemaDef.lean). -/
inductive PyErr where
  | typeError | valueError | keyError | attributeError | indexError | overflowError
  | unicodeEncodeError | recursion
deriving DecidableEq, Repr

/-- A Python computation that may raise. -/
abbrev PyM := Except PyErr

/-- `except ValueError` also catches `UnicodeEncodeError`, its subclass. -/
def PyErr.isValueError : PyErr → Bool
  | .valueError | .unicodeEncodeError => true
  | _ => false

/-! ## Floats -/

/-- Python `float`: IEEE doubles seen as extended rationals (the sign of zero is dropped). -/
inductive PyFloat where
  | fin (q : Rat)
  | inf (neg : Bool)
  | nan
deriving DecidableEq, Repr

/-- Round a natural number to 53 significant bits, ties to even. -/
def roundNat53 (n : Nat) : Nat :=
  if n < 2 ^ 53 then n
  else
    let sh := n.log2 - 52
    let q := n / 2 ^ sh
    let r := n % 2 ^ sh
    let h := 2 ^ (sh - 1)
    let q' := if r > h then q + 1 else if r = h then (if q % 2 = 0 then q else q + 1) else q
    q' * 2 ^ sh

/-- `float(n)` for a Python int: nearest double, `OverflowError` when it is not finite. -/
def floatOfInt (n : Int) : PyM PyFloat :=
  let m := roundNat53 n.natAbs
  if m < 2 ^ 1024 then .ok (.fin (if n < 0 then -(m : Rat) else (m : Rat)))
  else .error .overflowError

/-- `int(f)` for a float: truncation towards zero; `OverflowError` for infinities and `ValueError`
for NaN. -/
def intOfFloat : PyFloat → PyM Int
  | .fin q => .ok (Int.tdiv q.num q.den)
  | .inf _ => .error .overflowError
  | .nan => .error .valueError

/-- `int(f) == f` for a finite float. -/
def PyFloat.isIntegral : PyFloat → Bool
  | .fin q => q.den == 1
  | _ => false

/-! ## Dates -/

/-- `datetime`: local wall-clock time and UTC offset (microseconds); naive when the offset is absent. -/
structure DateTime where
  wall : Int
  off : Option Int
deriving DecidableEq, Repr

/-! ## The run-time library as a parameter -/

/-- Lower-casing of ASCII letters. -/
def asciiLower (c : Char) : Char :=
  if 65 ≤ c.toNat ∧ c.toNat ≤ 90 then Char.ofNat (c.toNat + 32) else c

/-- `[0-9A-Za-z_]`. -/
def asciiWord (c : Char) : Bool :=
  (48 ≤ c.toNat && c.toNat ≤ 57) || (65 ≤ c.toNat && c.toNat ≤ 90) ||
  (97 ≤ c.toNat && c.toNat ≤ 122) || c.toNat == 95

/-- ASCII characters for which `str.isspace` holds. -/
def asciiSpace (c : Char) : Bool :=
  (9 ≤ c.toNat && c.toNat ≤ 13) || (28 ≤ c.toNat && c.toNat ≤ 32)

/-- Value of an ASCII decimal digit. -/
def asciiDigit (c : Char) : Option Nat :=
  if 48 ≤ c.toNat ∧ c.toNat ≤ 57 then some (c.toNat - 48) else none

/-- The parts of the Python library that depend on Unicode tables or external standards, together
with the laws about them used in the proofs.  `asciiEnv` below is an instance. -/
class PyEnv where
  /-- `str.lower` -/
  lower : Str → Str
  /-- `re` class `\w` -/
  isWord : Char → Bool
  /-- `re` class `\s`, `str.isspace`, the characters removed by `str.strip()` -/
  isSpace : Char → Bool
  /-- `re` class `\d`, with the digit's value -/
  digit : Char → Option Nat
  /-- `float(s)`; `none` stands for `ValueError` -/
  parseFloat : Str → Option PyFloat
  /-- `int(s)`; `none` stands for `ValueError` -/
  parseInt : Str → Option Int
  /-- `datetime.fromisoformat(s)`; `none` stands for `ValueError` -/
  fromIso : Str → Option DateTime
  /-- `datetime.isoformat()` -/
  isoFormat : DateTime → Str
  /-- `urlparse(s)` succeeds with non-empty scheme and netloc -/
  urlOk : Str → Bool
  lower_idem : ∀ s, lower (lower s) = lower s
  lower_eq_nil : ∀ s, lower s = [] ↔ s = []
  lower_ascii : ∀ s : Str, (∀ c ∈ s, c.toNat < 128) → lower s = s.map asciiLower
  isWord_ascii : ∀ c : Char, c.toNat < 128 → isWord c = asciiWord c
  isSpace_ascii : ∀ c : Char, c.toNat < 128 → isSpace c = asciiSpace c
  digit_ascii : ∀ c : Char, c.toNat < 128 → digit c = asciiDigit c
  space_not_word : ∀ c, isSpace c = true → isWord c = false
  digit_word : ∀ c, (digit c).isSome = true → isWord c = true
  parseFloat_chars : ∀ s f, parseFloat s = some f → '|' ∉ s ∧ '"' ∉ s ∧ '\'' ∉ s
  parseInt_nil : parseInt [] = none
  urlOk_nil : urlOk [] = false
  fromIso_nil : fromIso [] = none
  isoFormat_ne_nil : ∀ d, isoFormat d ≠ []

export PyEnv (lower isWord isSpace digit parseFloat parseInt fromIso isoFormat urlOk)

/-! ### A concrete instance -/

/-- Decimal digits to a number (most significant first). -/
def decNat (acc : Nat) : Str → Option Nat
  | [] => some acc
  | c :: cs => match asciiDigit c with
    | some d => decNat (acc * 10 + d) cs
    | none => none

/-- `[+-]?[0-9]+`. -/
def decInt : Str → Option Int
  | [] => none
  | c :: cs =>
    if c = '-' then (if cs = [] then none else (decNat 0 cs).map (fun n => -(n : Int)))
    else if c = '+' then (if cs = [] then none else (decNat 0 cs).map (fun n => (n : Int)))
    else (decNat 0 (c :: cs)).map (fun n => (n : Int))

/-- `[+-]?[0-9]+(\.[0-9]+)?`, `inf`, `nan` (a fragment of `float`'s syntax). -/
def decFloat (s : Str) : Option PyFloat :=
  if s = "inf".toList then some (.inf false)
  else if s = "nan".toList then some .nan
  else
    let a := s.takeWhile (· ≠ '.')
    let b := s.dropWhile (· ≠ '.')
    match decInt a with
    | none => none
    | some n =>
      match b with
      | [] => match floatOfInt n with | .ok f => some f | .error _ => some (.inf (n < 0))
      | _ :: fr =>
        if fr = [] then none
        else match decNat 0 fr with
          | none => none
          | some m =>
            let q : Rat := (m : Rat) / ((10 : Rat) ^ fr.length)
            some (.fin (if a.head? = some '-' then (n : Rat) - q else (n : Rat) + q))

theorem asciiLower_idem (c : Char) : asciiLower (asciiLower c) = asciiLower c := by
  unfold asciiLower
  by_cases h : 65 ≤ c.toNat ∧ c.toNat ≤ 90
  · rw [if_pos h]
    have hv : (c.toNat + 32).isValidChar := by left; omega
    have : (Char.ofNat (c.toNat + 32)).toNat = c.toNat + 32 := by
      unfold Char.ofNat
      rw [dif_pos hv]; rfl
    rw [if_neg]; omega
  · rw [if_neg h, if_neg h]

theorem decNat_chars {acc n : Nat} {s : Str} (h : decNat acc s = some n) : '|' ∉ s ∧ '"' ∉ s ∧ '\'' ∉ s := by
  induction s generalizing acc with
  | nil => simp
  | cons c cs ih =>
    rw [decNat] at h
    split at h
    · rename_i d hd
      obtain ⟨h1, h2, h3⟩ := ih h
      refine ⟨?_, ?_, ?_⟩ <;> rw [List.mem_cons, not_or] <;> refine ⟨?_, by assumption⟩ <;> rintro rfl <;>
        revert hd <;> simp [asciiDigit]
    · cases h

theorem decInt_chars {n : Int} {s : Str} (h : decInt s = some n) : '|' ∉ s ∧ '"' ∉ s ∧ '\'' ∉ s := by
  cases s with
  | nil => cases h
  | cons c cs =>
    rw [decInt] at h
    split at h
    · rename_i hc
      split at h
      · cases h
      · subst hc
        cases hm : decNat 0 cs with
        | none => rw [hm] at h; cases h
        | some m => simpa using decNat_chars hm
    · split at h
      · rename_i hc
        split at h
        · cases h
        · subst hc
          cases hm : decNat 0 cs with
          | none => rw [hm] at h; cases h
          | some m => simpa using decNat_chars hm
      · cases hm : decNat 0 (c :: cs) with
        | none => rw [hm] at h; cases h
        | some m => exact decNat_chars hm

theorem decFloat_chars {s : Str} {f : PyFloat} (h : decFloat s = some f) : '|' ∉ s ∧ '"' ∉ s ∧ '\'' ∉ s := by
  unfold decFloat at h
  split at h
  · rename_i hs; subst hs; decide
  split at h
  · rename_i hs; subst hs; decide
  dsimp only at h
  split at h
  · cases h
  · rename_i n hn
    obtain ⟨a1, a2, a3⟩ := decInt_chars hn
    rw [← List.takeWhile_append_dropWhile (p := (· ≠ '.')) (l := s)]
    simp only [List.mem_append, not_or]
    split at h
    · rename_i hb
      rw [hb]
      exact ⟨⟨a1, by simp⟩, ⟨a2, by simp⟩, ⟨a3, by simp⟩⟩
    · rename_i d fr hb
      have hd : d = '.' := by
        have := List.head?_dropWhile_not (fun c => decide (c ≠ '.')) s
        rw [hb] at this
        simpa using this
      split at h
      · cases h
      · split at h
        · cases h
        · rename_i m hm
          obtain ⟨b1, b2, b3⟩ := decNat_chars hm
          rw [hb, hd]
          exact ⟨⟨a1, by simp [b1]⟩, ⟨a2, by simp [b2]⟩, ⟨a3, by simp [b3]⟩⟩

/-- The text of an integer is not empty. -/
theorem intText_ne_nil (n : Int) : (toString n).toList ≠ [] := by
  cases n with
  | ofNat n =>
    show (Nat.repr n).toList ≠ []
    rw [Nat.toList_repr]
    exact Nat.toDigits_ne_nil
  | negSucc n =>
    show ("-" ++ Nat.repr (n + 1)).toList ≠ []
    simp

/-- A run-time library that knows ASCII only: the laws of `PyEnv` are satisfiable, and the concrete
examples and counterexamples are evaluated in it. -/
@[reducible] def asciiEnv : PyEnv where
  lower s := s.map asciiLower
  isWord := asciiWord
  isSpace := asciiSpace
  digit := asciiDigit
  parseFloat := decFloat
  parseInt := decInt
  fromIso s := (decInt s).map (fun n => { wall := n, off := none })
  isoFormat d := (toString d.wall).toList
  urlOk s := s.take 8 == "https://".toList && s.length > 8
  lower_idem s := by simp [asciiLower_idem]
  lower_eq_nil s := by simp
  lower_ascii s _ := rfl
  isWord_ascii _ _ := rfl
  isSpace_ascii _ _ := rfl
  digit_ascii _ _ := rfl
  space_not_word c := by
    simp only [asciiSpace, asciiWord, Bool.or_eq_true, Bool.and_eq_true, decide_eq_true_eq,
      Bool.or_eq_false_iff, Bool.and_eq_false_iff, decide_eq_false_iff_not,
      beq_eq_false_iff_ne]
    omega
  digit_word c := by
    simp only [asciiDigit, asciiWord]
    split <;> simp_all
  parseInt_nil := by rfl
  urlOk_nil := by rfl
  fromIso_nil := by rfl
  isoFormat_ne_nil d := intText_ne_nil d.wall
  parseFloat_chars _ _ h := decFloat_chars h

/-! ## Insertion-ordered dictionaries -/

section Dict
variable {κ : Type} [DecidableEq κ] {β : Type}

/-- `d.get(k)` -/
def aget (k : κ) : List (κ × β) → Option β
  | [] => none
  | (k', v) :: r => if k' = k then some v else aget k r

/-- `d[k] = v`: overwrite in place or append. -/
def aset (k : κ) (v : β) : List (κ × β) → List (κ × β)
  | [] => [(k, v)]
  | (k', v') :: r => if k' = k then (k', v) :: r else (k', v') :: aset k v r

/-- `d.pop(k)` (the remaining dictionary). -/
def adel (k : κ) : List (κ × β) → List (κ × β)
  | [] => []
  | (k', v') :: r => if k' = k then r else (k', v') :: adel k r

end Dict

/-- `sep.join(parts)` for a one-character separator. -/
def joinWith (sep : Char) : List Str → Str
  | [] => []
  | [s] => s
  | s :: r => s ++ sep :: joinWith sep r

/-- `s.split(sep)` for a one-character separator: never empty. -/
def splitChar (sep : Char) : Str → List Str
  | [] => [[]]
  | c :: cs =>
    if c = sep then [] :: splitChar sep cs
    else match splitChar sep cs with
      | [] => [[c]]
      | p :: ps => (c :: p) :: ps

section
variable [PyEnv]

/-- `s.lstrip()` -/
def lstrip (s : Str) : Str := s.dropWhile isSpace

/-- `s.strip()` -/
def strip (s : Str) : Str := (lstrip (lstrip s).reverse).reverse

end

/-- `s.startswith(p)` -/
def startsWith (p s : Str) : Bool := p.isPrefixOf s
/-- `s.endswith(p)` -/
def endsWith (p s : Str) : Bool := p.isSuffixOf s

/-- `needle in hay` -/
def isInfix (needle : Str) : Str → Bool
  | [] => needle.isEmpty
  | c :: cs => needle.isPrefixOf (c :: cs) || isInfix needle cs

/-- `hay.replace(needle, new, 1)` for a non-empty needle. -/
def replaceFirst (needle new : Str) : Str → Str
  | [] => []
  | c :: cs =>
    if needle.isPrefixOf (c :: cs) then new ++ (c :: cs).drop needle.length
    else c :: replaceFirst needle new cs

/-- `hay.replace(needle, new)` for a non-empty needle; `skip` characters of a match are pending. -/
def replaceAllAux (needle new : Str) : Nat → Str → Str
  | _, [] => []
  | 0, c :: cs =>
    if needle.isPrefixOf (c :: cs) then new ++ replaceAllAux needle new (needle.length - 1) cs
    else c :: replaceAllAux needle new 0 cs
  | k + 1, _ :: cs => replaceAllAux needle new k cs

/-- `hay.replace(needle, new)` for a non-empty needle. -/
def replaceAll (needle new hay : Str) : Str := replaceAllAux needle new 0 hay

/-- Lexicographic order of strings by code point: `a < b`. -/
def strLt : Str → Str → Bool
  | _, [] => false
  | [], _ :: _ => true
  | a :: as, b :: bs => if a.toNat < b.toNat then true else if a = b then strLt as bs else false

end Scim
