import Verif.Spec.Schemas

/-!
# What a schema looks at in a body

The words of C109: what a body holds for a declared attribute, and when two bodies hold the same.
-/

namespace Scim.Declared
variable [PyEnv]

/-- What an object holds under a name, whatever the spelling: the entry of the last key that differs from the name by
letter case only (the keys of a dictionary are distinct). -/
def found (n : Str) (D : List (Str × Val)) : Option Val :=
  (((D.map (·.1)).filter (fun k => lower k = lower n)).getLast?).bind (fun k => aget k D)

/-- What a body holds for a declared attribute: it is looked for in the object under the URN of its schema if there is
one, otherwise in the body itself. -/
def look (r : AttrRep) (D : List (Str × Val)) : Option Val :=
  match found r.schema D with
  | some (.dict E) => found r.attr E
  | _ => found r.attr D

/-- If there is something under the URN of the attribute's schema, then an object, without the empty text as a name.
(For a sub-attribute the schema is the empty text: its object has no such name, or again an object there.) -/
def Clear (r : AttrRep) (D : List (Str × Val)) : Prop :=
  found r.schema D = none ∨ ∃ E, found r.schema D = some (.dict E) ∧ found [] E = none

/-- Equal up to what is inside objects. -/
inductive Blunt : Val → Val → Prop
  | same (v : Val) : Blunt v v
  | objects (D D' : List (Str × Val)) : Blunt (.dict D) (.dict D')
  | lists (xs ys : List Val) (len : xs.length = ys.length)
      (items : ∀ (i : Nat) x y, xs[i]? = some x → ys[i]? = some y → Blunt x y) : Blunt (.list xs) (.list ys)

mutual
/-- The two values hold the same for the attribute.  For a simple attribute they are equal up to what is inside objects
(which a simple attribute does not accept); for a complex attribute they are objects, or lists of objects, that hold the
same for each of the sub-attributes. -/
def AlikeAt : Attr → Val → Val → Prop
  | .simple _, V, W => Blunt V W
  | .complex _ subs _ _, V, W =>
    V = W ∨ (∃ D D', V = .dict D ∧ W = .dict D' ∧ AlikeIn subs D D') ∨
    ∃ xs ys, V = .list xs ∧ W = .list ys ∧ xs.length = ys.length ∧
      ∀ (i : Nat) x y, xs[i]? = some x → ys[i]? = some y →
        x = y ∨ (∃ D D', x = .dict D ∧ y = .dict D' ∧ AlikeIn subs D D') ∨ ∃ us vs, x = .list us ∧ y = .list vs
/-- The two objects hold the same for each of the attributes, or both nothing. -/
def AlikeIn : List Attr → List (Str × Val) → List (Str × Val) → Prop
  | [], _, _ => True
  | a :: as, D, D' =>
    Clear a.rep D ∧ Clear a.rep D' ∧
    (match look a.rep D, look a.rep D' with
      | none, none => True
      | some x, some y => AlikeAt a x y
      | _, _ => False) ∧ AlikeIn as D D'
end

mutual
/-- An attribute as usually declared: it accepts values of a declared type only, a complex attribute has no processors that
see its value before the sub-attributes were processed, and the names of sub-attributes have no schema.  All attributes of
users and groups are such. -/
def Direct (m : Mode) : Attr → Prop
  | .simple i => i.rep.sub = [] ∧ i.type ≠ .unknown ∧ i.type ≠ .complex
  | .complex i subs _ _ =>
    i.rep.sub = [] ∧ i.procs m = [] ∧ DirectAll m subs ∧ ∀ s ∈ subs, s.rep.schema = []
/-- all attributes are direct -/
def DirectAll (m : Mode) : List Attr → Prop
  | [] => True
  | a :: as => Direct m a ∧ DirectAll m as
end

/-- The same document up to the spelling of names and the order of the entries, on all levels: for each name the objects
hold the same, or both nothing.  Objects that differ have no empty name. -/
inductive Respelt : Val → Val → Prop
  | same (v : Val) : Respelt v v
  | list (xs ys : List Val) (len : xs.length = ys.length)
      (items : ∀ (i : Nat) x y, xs[i]? = some x → ys[i]? = some y → Respelt x y) : Respelt (.list xs) (.list ys)
  | obj (D D' : List (Str × Val)) (named : found [] D = none)
      (names : ∀ n, found n D = none ↔ found n D' = none)
      (entries : ∀ n x y, found n D = some x → found n D' = some y → Respelt x y) : Respelt (.dict D) (.dict D')

end Scim.Declared
