import Verif.Model.Base

/-! A minimal declarative semantics of regular expressions, used to state what the hand-written matchers
of the model have to agree with. -/

namespace Scim

/-- Regular expressions over character classes. -/
inductive Re where
  | eps
  | chr (p : Char → Bool)
  | seq (a b : Re)
  | alt (a b : Re)
  | star (a : Re)

namespace Re

/-- `r.fullmatch(s)` succeeds. -/
inductive Matches : Re → Str → Prop
  | eps : Matches .eps []
  | chr {p c} : p c = true → Matches (.chr p) [c]
  | seq {a b s t} : Matches a s → Matches b t → Matches (.seq a b) (s ++ t)
  | altL {a b s} : Matches a s → Matches (.alt a b) s
  | altR {a b s} : Matches b s → Matches (.alt a b) s
  | starNil {a} : Matches (.star a) []
  | starCons {a s t} : Matches a s → Matches (.star a) t → Matches (.star a) (s ++ t)

/-- `r+` -/
def plus (r : Re) : Re := .seq r (.star r)
/-- `r?` -/
def opt (r : Re) : Re := .alt r .eps
/-- A literal character. -/
def lit (c : Char) : Re := .chr (· == c)
/-- A literal string. -/
def str : Str → Re
  | [] => .eps
  | c :: cs => .seq (lit c) (str cs)

section
variable [PyEnv]
/-- `\w` -/
def w : Re := .chr isWord
/-- `_ATTR_NAME`: `(\w+|\$ref)` (src/data/container.py:4) -/
def attrName : Re := .alt (plus w) (str "$ref".toList)
/-- `_URI_PREFIX`: `(?:[\w.-]+:)*` (src/data/container.py:5) -/
def uriPrefix : Re :=
  .star (.seq (plus (.chr (fun c => isWord c || c == '.' || c == '-'))) (lit ':'))
/-- The second group of `_ATTR_REP`: `(\w+|\$ref)(\.\w+)?` (src/data/container.py:6) -/
def localName : Re := .seq attrName (opt (.seq (lit '.') (plus w)))
end

end Re
end Scim
