import Verif.Model.Assets.Messages
import Verif.Spec.Declared
import Verif.Spec.Totality
import Verif.Spec.Presence
import Verif.Spec.Validators
import Verif.Spec.RoundTrip
import Verif.Spec.AttrRep

/-!
# Valid resources

The words of C112: when a JSON document is a valid resource of a schema, said about the document itself.
-/

namespace Scim.Valid
variable [PyEnv]
open Declared

/-- The value is one the type accepts, as it comes in a request (`parse`) or from the application (`dump`).  Booleans
count as numbers, as they do in Python. -/
def TypeOk (m : Mode) : AttrType → Val → Prop
  | .boolean, v => ∃ b, v = .bool b
  | .decimal, v => (∃ f, v = .prim (.flt f)) ∨ (∃ i, v = .int i) ∨ ∃ b, v = .bool b
  | .integer, v => (∃ f, v = .prim (.flt f) ∧ f.isIntegral = true) ∨ (∃ i, v = .int i) ∨ ∃ b, v = .bool b
  | .string, v => ∃ s, v = .str s
  | .uriRef, v => ∃ s, v = .str s
  | .scimRef, v => ∃ s, v = .str s
  | .binary, v => ∃ s, v = .str s ∧ Canonical64 s
  | .extRef, v => ∃ s, v = .str s ∧ urlOk s = true
  | .dateTime, v => match m with
    | .parse => ∃ s d, v = .str s ∧ fromIso s = some d
    | .dump => ∃ d, v = .dt d
  | .complex, v => ∃ D, v = .dict D
  | .unknown, _ => True

/-- One value of a simple attribute: of its type, and one of the canonical values where these are enforced. -/
def OneOk (m : Mode) (i : AttrInfo) (v : Val) : Prop :=
  TypeOk m i.type v ∧
    (i.validateCanon = true → ∀ cs, i.canonical = some cs → ∃ p c, v = .prim p ∧ c ∈ cs ∧ IsCanonicalValue i.caseExact p c)

/-- The object says it is the primary one. -/
def Primary (D : List (Str × Val)) : Prop := found "primary".toList D = some (.bool true)

/-- At most one of the objects is primary. -/
def OnePrimary (xs : List Val) : Prop :=
  ∀ (j k : Nat) D E, j < k → xs[j]? = some (.dict D) → xs[k]? = some (.dict E) → ¬ (Primary D ∧ Primary E)

/-- There is a sub-attribute `primary`. -/
def HasPrimary (subs : List Attr) : Prop := ∃ s ∈ subs, s.rep.attr = "primary".toList

mutual
/-- The value is one the attribute accepts.  `null` always is.  A multi-valued attribute wants a list, a complex one
objects whose sub-attributes are accepted, at most one of them primary; an identifier must not contain `bulkId`. -/
def ValidFor (m : Mode) : Attr → Val → Prop
  | .simple i, v => v = .null ∨
    (if i.multi then ∃ xs, v = .list xs ∧ ∀ x ∈ xs, OneOk m i x
     else OneOk m i v ∧ (bulkIdValidator ∈ i.procs m → ∀ s, v = .str s → ¬ Contains "bulkId".toList s))
  | .complex i subs _ _, v => v = .null ∨
    (if i.multi then ∃ xs, v = .list xs ∧ (∀ x ∈ xs, ∃ D, x = .dict D ∧ ValidIn m subs D) ∧
        (HasPrimary subs → OnePrimary xs)
     else ∃ D, v = .dict D ∧ ValidIn m subs D)
/-- What the object holds for each of the attributes is accepted. -/
def ValidIn (m : Mode) : List Attr → List (Str × Val) → Prop
  | [], _ => True
  | a :: as, D => (∀ x, look a.rep D = some x → ValidFor m a x) ∧ ValidIn m as D
end

/-- A simple attribute without processors, single-valued, for truth values, called `primary`. -/
def PlainPrimary (m : Mode) (a : Attr) : Prop :=
  a.rep = { attr := "primary".toList } ∧ ∃ i, a = .simple i ∧ i.type = .boolean ∧ i.multi = false ∧ i.procs m = [] ∧
    i.validateCanon = false

mutual
/-- Attributes as usually declared: no processors but the checks for `bulkId` and for a single primary item; enforced
canonical values are texts, in the spelling the constructor gives them; `primary` is a truth value.  All attributes of users
and groups are such. -/
def Usual (m : Mode) : Attr → Prop
  | .simple i => i.rep.sub = [] ∧ i.type ≠ .complex ∧
    (i.procs m = [] ∨ (i.type = .string ∧ i.multi = false ∧ i.procs m = [bulkIdValidator])) ∧
    (i.validateCanon = true → i.type = .string ∧ normCanonical i.caseExact i.canonical = i.canonical)
  | .complex i subs ps ds => i.rep.sub = [] ∧ i.type = .complex ∧ i.validateCanon = false ∧ i.procs m = [] ∧
    (Attr.complex i subs ps ds).cprocs m = (if i.multi then [validateSinglePrimary] else []) ∧
    PlainSubs subs ∧ (∀ s ∈ subs, lower s.rep.attr = lower "primary".toList → PlainPrimary m s) ∧ UsualAll m subs
/-- all attributes are usual -/
def UsualAll (m : Mode) : List Attr → Prop
  | [] => True
  | a :: as => Usual m a ∧ UsualAll m as
end

/-- The document uses the extension: it holds something for one of the attributes of the extension. -/
def Uses (s : Schema) (D : List (Str × Val)) (u : Str) : Prop :=
  ∃ a ∈ s.attrs.top, a.rep.ext = true ∧ a.rep.schema = u ∧ look a.rep D ≠ none

/-- If the document lists schemas: all of them are known, the schema of the resource is one of them, and so are the
extensions that are used; letter case does not matter. -/
def SchemasListed (s : Schema) (D : List (Str × Val)) : Prop :=
  ∀ strs : List Str, strs ≠ [] → look { schema := s.urn, attr := "schemas".toList } D = some (.list (strs.map Val.str)) →
    (∀ t ∈ strs, ∃ u ∈ s.schemas, lower t = lower u) ∧ (∃ t ∈ strs, lower t = lower s.urn) ∧
    ∀ u, Uses s D u → ∃ t ∈ strs, lower t = lower u

/-- The document holds acceptable values only: what it holds for each declared attribute is accepted by the attribute, and
the list of schemas is right. -/
def ValidDoc (m : Mode) (s : Schema) (D : List (Str × Val)) : Prop := ValidIn m s.attrs.top D ∧ SchemasListed s D

/-- The attribute `t` of the schema is the one that the declared sub-attribute `a` belongs to. -/
def Parent (s : Schema) (a t : Attr) : Prop :=
  t ∈ s.attrs.top ∧ t.rep.schema = a.rep.schema ∧ t.rep.attr = a.rep.attr

/-- What an object, if there is one, holds under a name. -/
def under (n : Str) : Option Val → Option Val
  | some (.dict E) => found n E
  | _ => none

/-- What the document holds in the places of a declared attribute; `none` if there is nothing.  An attribute of the resource
has one place.  A sub-attribute of an attribute with one value has one place too, in its object; one of an attribute with many
values has a place in each of the objects (none if there are none), and `null` in place of the list counts as `null`. -/
inductive Holds (s : Schema) (D : List (Str × Val)) (a : Attr) : Option Val → Prop
  | top : a.rep.sub = [] → Holds s D a (look a.rep D)
  | sub {t : Attr} : a.rep.sub ≠ [] → Parent s a t → t.info.multi = false → Holds s D a (under a.rep.sub (look t.rep D))
  | null {t : Attr} : a.rep.sub ≠ [] → Parent s a t → t.info.multi = true → look t.rep D = some .null →
      Holds s D a (some .null)
  | item {t : Attr} {xs : List Val} {E : List (Str × Val)} : a.rep.sub ≠ [] → Parent s a t → t.info.multi = true →
      look t.rep D = some (.list xs) → .dict E ∈ xs → Holds s D a (found a.rep.sub E)

/-- The declared attribute is given in the document: in each of its places there is something, neither `null` nor an empty text
or list. -/
def Given (s : Schema) (D : List (Str × Val)) (a : Attr) : Prop := ∀ o, Holds s D a o → ∃ x, o = some x ∧ ¬ x.Empty

/-- The declared attribute is shown by the document: in one of its places there is something, neither `null` nor an empty text
or list. -/
def Shown (s : Schema) (D : List (Str × Val)) (a : Attr) : Prop := ∃ x, Holds s D a (some x) ∧ ¬ x.Empty

/-- All required attributes are given, but for those excused. -/
def Complete (s : Schema) (excused : Attr → Prop) (D : List (Str × Val)) : Prop :=
  ∀ a ∈ s.attrs.all, a.info.required = true → ¬ excused a → Given s D a

/-- The declared sub-attributes are those of the declared complex attributes. -/
def Regular (s : Schema) : Prop :=
  ∀ a ∈ s.attrs.all, a.rep.sub ≠ [] → ∀ t, Parent s a t → ∃ b ∈ t.subs, b.rep.attr = a.rep.sub

/-- A schema whose resources C112 speaks about: well-formed, with standard, usual attributes.  The schemas of users and groups
are such. -/
structure Proper (s : Schema) : Prop where
  wf : s.WF
  noShadow : s.NoShadow
  owned : s.Owned
  sane : SaneAll s.attrs.top
  standard : ∀ m, StandardAll m s.attrs.top
  usual : ∀ m, UsualAll m s.attrs.top
  regular : Regular s

/-- The query string, if there is one, gives the names of attributes as texts separated by commas or as lists of texts. -/
def QueryShape (query : Val) : Prop :=
  ∀ q, query = .dict q → ∀ incl, ∃ names, NamesIn (aget (namesParam incl) q) names

/-- The query string does not name attributes both to include and to leave out, and all names are written properly. -/
def QueryFine (query : Val) : Prop :=
  ∀ q, query = .dict q → ∀ a b, NamesIn (aget (namesParam true) q) a → NamesIn (aget (namesParam false) q) b →
    (a = [] ∨ b = []) ∧ ∀ n ∈ a ++ b, ∃ r : AttrRep, r.Proper ∧ n = r.toStr

/-- What the document holds under a name in `meta`. -/
def inMeta (s : Schema) (n : Str) (D : List (Str × Val)) : Option Val :=
  under n (look { schema := s.urn, attr := "meta".toList } D)

/-- A response must hold the attribute: it is required and, if attributes were requested, it is one of them or one that is
always returned.  (`c` says which attributes were requested or left out.) -/
def Demanded (c : Checker) (a : Attr) : Prop :=
  a.info.required = true ∧ ¬ Listed a.rep c.ignore ∧
    (c.incl = some true → Listed a.rep c.reps ∨ a.info.returned = .always)

/-- A response must not show the attribute: it is never returned; or it is not always returned, and it was left out or others
were requested. -/
def Withheld (c : Checker) (a : Attr) : Prop :=
  a.info.returned = .never ∨ (a.info.returned ≠ .always ∧
    ((c.incl = some false ∧ Listed a.rep c.reps) ∨
     (c.incl = some true ∧ ¬ Listed a.rep c.reps ∧ ¬ RelativeListed a.rep c.reps)))

/-- The document is one to be sent for a resource of the schema: acceptable values only; the type of the resource, if it is given
in `meta`, is the right one; what must be there is there, what must not be shown is not. -/
structure Sendable (s : Schema) (c : Checker) (D : List (Str × Val)) : Prop where
  valid : ValidDoc .dump s D
  type : ∀ x, inMeta s "resourceType".toList D = some x → x = .str s.name
  demanded : ∀ a ∈ s.attrs.all, Demanded c a → Given s D a
  withheld : ∀ a ∈ s.attrs.all, Withheld c a → ¬ Shown s D a

/-- The header `Location`, if it is there and not `null`, is the location given in `meta`. -/
def LocationAgrees (s : Schema) (headers : Val) (D : List (Str × Val)) : Prop :=
  ∀ kvs loc, headers = .dict kvs → aget "Location".toList kvs = some loc → loc ≠ .null →
    inMeta s "location".toList D = some loc

/-- The headers hold `Location`. -/
def HasLocation (headers : Val) : Prop := ∃ kvs loc, headers = .dict kvs ∧ aget "Location".toList kvs = some loc

/-- What a message, the error body say, holds for a declared name. -/
def errorHolds (D : List (Str × Val)) (n : String) : Option Val := look { schema := ErrorA.urn, attr := n.toList } D

/-- The document is the body of an error with the status: it lists the schema of errors and no other, its `status` is the status
in decimal digits, and `scimType` and `detail` are texts, `null`, or absent. -/
structure ErrorDoc (status : Int) (D : List (Str × Val)) : Prop where
  schemas : ∃ strs : List Str, strs ≠ [] ∧ errorHolds D "schemas" = some (.list (strs.map Val.str)) ∧
    ∀ t ∈ strs, lower t = lower ErrorA.urn
  status : errorHolds D "status" = some (.str (toString status).toList)
  scimType : ∀ x, errorHolds D "scimType" = some x → x = .null ∨ ∃ t, x = .str t
  detail : ∀ x, errorHolds D "detail" = some x → x = .null ∨ ∃ t, x = .str t

end Scim.Valid
