import Verif.Model.Attributes
import Verif.Spec.Container
import Verif.Spec.Types
import Verif.Spec.Issues

/-! Specification vocabulary for attribute processing. -/

namespace Scim
variable [PyEnv]

/-- The scalar is this canonical value: strings compare ignoring case unless the attribute is case-exact,
everything else by Python's `==`. -/
def IsCanonicalValue (caseExact : Bool) (p c : Prim) : Prop :=
  match p, c with
  | .str a, .str b => if caseExact then a = b else lower a = lower b
  | p, c => p.pyEq c = true

/-- A name usable for a sub-attribute: no schema, no further sub-attribute. -/
def AttrRep.Plain (r : AttrRep) : Prop := r.schema = [] ∧ r.sub = [] ∧ r.ext = false

/-- Sub-attribute declarations as written in the assets: plain names, distinct up to letter case. -/
structure PlainSubs (subs : List Attr) : Prop where
  plain : ∀ s ∈ subs, s.rep.Plain
  named : ∀ s ∈ subs, s.rep.attr ≠ []
  distinct : (subs.map (fun s => lower s.rep.attr)).Nodup

/-- A post-processor that only validates: it returns the value it was given. -/
def ValidatesOnly (p : Proc) : Prop := ∀ v r is, p v = .ok (r, is) → r = v ∧ is.WF

/-- A post-processor that reports its issues in a consistent collection. -/
def ProcSane (p : Proc) : Prop := ∀ v r is, p v = .ok (r, is) → is.WF

mutual
/-- All post-processors of an attribute and of its sub-attributes are sane. -/
def Attr.Sane : Attr → Prop
  | .simple i => ∀ p, p ∈ i.parsers ∨ p ∈ i.dumpers → ProcSane p
  | .complex i subs ps ds =>
    (∀ p, p ∈ i.parsers ∨ p ∈ i.dumpers ∨ p ∈ ps ∨ p ∈ ds → ProcSane p) ∧ SaneAll subs
/-- All attributes of a list are sane. -/
def SaneAll : List Attr → Prop
  | [] => True
  | a :: r => a.Sane ∧ SaneAll r
end

/-- The post-processors of a complex attribute for one of the two methods. -/
def Attr.cprocs (m : Mode) : Attr → List Proc
  | .complex _ _ ps ds => match m with | .parse => ps | .dump => ds
  | .simple _ => []

/-- `out` is the complex value made from the input `item`: it holds exactly the declared sub-attributes the
input has, each processed on its own. -/
structure SubResult (m : Mode) (subs : List Attr) (item out : Val) : Prop where
  cont : out.isCont = true
  declared : ∀ k ∈ out.keys, ∃ s ∈ subs, s.rep.attr = k ∧ ∃ x, item.getItem s.rep = .ok x ∧ x.isMissing = false
  present : ∀ s ∈ subs, ∀ x, item.getItem s.rep = .ok x → x.isMissing = false →
    ∃ y i, s.process m x = .ok (y, i) ∧ out.getItem s.rep = .ok y
  absent : ∀ s ∈ subs, item.getItem s.rep = .ok .missing → out.getItem s.rep = .ok .missing
  read : ∀ s ∈ subs, ∃ x, item.getItem s.rep = .ok x

end Scim
