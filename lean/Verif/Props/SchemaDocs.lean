import Verif.Lemmas.SchemaWhole

/-! C89, C90: representations of schemas. -/

namespace Scim
variable [PyEnv]
open SchemaA

/-- **C89** The representation of a schema is accepted by the Schema resource without an issue, and what comes out says
exactly what the schema is: its URN, name and description, and every attribute with all its characteristics and
sub-attributes, at every depth and in order. -/
theorem C89_representation (depth : Nat) (s : Schema) (hdoc : DocumentableAll s.attrs.top)
    (hnest : nestingAll s.attrs.top ≤ depth) : ∃ rep r ys, getSchemaRep s = .ok rep ∧
      (SchemaA.schema depth).dump rep = .ok (r, {}) ∧
      r.Has "id".toList (.str s.urn) ∧ r.Has "name".toList (.str s.name) ∧
      r.Has "description".toList (.str s.description) ∧ r.Has "schemas".toList (.list [.str "urn:ietf:params:scim:schemas:core:2.0:Schema".toList]) ∧
      r.Has "attributes".toList (.list ys) ∧ AllDescribedBy s.attrs.top ys := schemaDef_accepts hdoc hnest

omit [PyEnv] in
theorem toEntries_untyped {i : AttrInfo} : (i.type = .unknown → i.toEntries = .error .attributeError) ∧
    (i.type ≠ .unknown → ∃ es, i.toEntries = .ok es) := by
  constructor
  · intro h; unfold AttrInfo.toEntries; rw [h]; rfl
  · intro h
    unfold AttrInfo.toEntries
    cases ht : i.type <;> first | exact absurd ht h | exact ⟨_, rfl⟩

omit [PyEnv] in
mutual
theorem toDict_untyped : ∀ (a : Attr), (a.untyped = true → a.toDict = .error .attributeError) ∧
    (a.untyped = false → ∃ d, a.toDict = .ok d)
  | .simple i => by
    rw [Attr.toDict, Attr.untyped]
    constructor
    · intro h; rw [toEntries_untyped.1 (of_decide_eq_true h)]
    · intro h
      obtain ⟨es, e⟩ := toEntries_untyped.2 (of_decide_eq_false h)
      rw [e]; exact ⟨_, rfl⟩
  | .complex i subs ps ds => by
    rw [Attr.toDict, Attr.untyped]
    by_cases hi : i.type = .unknown
    · rw [toEntries_untyped.1 hi]
      exact ⟨fun _ => rfl, fun h => by simp [hi] at h⟩
    · obtain ⟨es, e⟩ := toEntries_untyped.2 hi
      rw [e]
      simp only [hi, decide_false, Bool.false_or]
      constructor
      · intro h; rw [(attrDicts_untyped subs).1 h]
      · intro h
        obtain ⟨d, e⟩ := (attrDicts_untyped subs).2 h
        rw [e]; exact ⟨_, rfl⟩
theorem attrDicts_untyped : ∀ (as : List Attr), (untypedAny as = true → attrDicts as = .error .attributeError) ∧
    (untypedAny as = false → ∃ ds, attrDicts as = .ok ds)
  | [] => ⟨fun h => (by rw [untypedAny] at h; cases h), fun _ => ⟨[], by rw [attrDicts]⟩⟩
  | a :: r => by
    rw [attrDicts, untypedAny]
    cases ha : a.untyped with
    | true =>
      rw [(toDict_untyped a).1 ha]
      exact ⟨fun _ => rfl, fun h => by simp at h⟩
    | false =>
      obtain ⟨d, e⟩ := (toDict_untyped a).2 ha
      rw [e]
      simp only [Bool.false_or]
      constructor
      · intro h; rw [(attrDicts_untyped r).1 h]
      · intro h
        obtain ⟨d, e⟩ := (attrDicts_untyped r).2 h
        rw [e]; exact ⟨_, rfl⟩
end

omit [PyEnv] in
/-- **C89** The representation cannot be made exactly when some attribute, at some depth, has no type; then the attempt
raises `AttributeError`. -/
theorem C89_raises (s : Schema) : (untypedAny s.attrs.top = true → getSchemaRep s = .error .attributeError) ∧
    (untypedAny s.attrs.top = false → ∃ rep, getSchemaRep s = .ok rep) := by
  unfold getSchemaRep
  constructor
  · intro h; rw [(attrDicts_untyped _).1 h]
  · intro h
    obtain ⟨ds, e⟩ := (attrDicts_untyped _).2 h
    rw [e]; exact ⟨_, rfl⟩

omit [PyEnv] in
theorem untypedAny_of {as : List Attr} {a : Attr} (ha : a ∈ as) (h : a.untyped = true) : untypedAny as = true := by
  induction as with
  | nil => cases ha
  | cons b r ih =>
    rw [untypedAny]
    rcases List.mem_cons.mp ha with rfl | hr
    · rw [h]; rfl
    · rw [ih hr, Bool.or_true]

/-- **C89** In particular the Schema resource itself has no representation. -/
theorem C89_schema_itself (depth : Nat) : getSchemaRep (SchemaA.schema depth) = .error .attributeError := by
  apply (C89_raises _).1
  have hm := schemaDef_mem depth (d := attributesA depth) (by simp)
  rw [attributesA_name] at hm
  apply untypedAny_of hm
  obtain ⟨info, e, hd, _⟩ := boundAttributes depth
  rw [e, Attr.untyped, Bool.or_eq_true]
  exact .inr (untypedAny_of (a := attributesSubAttributesA) (by simp [attributesSubs]) (by rfl))

/-- **C89** Not every representation is accepted: the Schema resource knows no name for decimal attributes. -/
theorem C89_decimal (depth : Nat) (s : Schema) (a : Attr) (ha : a ∈ s.attrs.top) (ht : a.info.type = .decimal)
    (rep r : Val) (is : Issues) (hrep : getSchemaRep s = .ok rep) (h : (SchemaA.schema depth).dump rep = .ok (r, is)) :
    is.hasIssues = true := schemaDef_rejects ha ht hrep h

/-- **C90** Whatever is given to the Schema resource: a result without issues describes its attributes consistently, at
every depth. -/
theorem C90_consistent (depth : Nat) (data r : Val) (is : Issues) (h : (SchemaA.schema depth).dump data = .ok (r, is))
    (hn : is.hasIssues = false) :
    ∃ v, r.Has "attributes".toList v ∧ (v.Unset ∨ ∃ ys, v = .list ys ∧ ∀ y ∈ ys, ConsistentDoc y) :=
  schemaDef_consistent h hn

end Scim

namespace Scim.Examples.SchemaDocs
open SchemaA

local instance schemaDocsEnv : PyEnv := asciiEnv

mutual
/-- `Attr.Documentable`, computed. -/
def documentable : Attr → Bool
  | .simple i => i.type.documentName.isSome
  | .complex i subs _ _ => decide (i.type = .complex) && documentableAll subs
/-- `DocumentableAll`, computed. -/
def documentableAll : List Attr → Bool
  | [] => true
  | a :: r => documentable a && documentableAll r
end

mutual
theorem documentable_sound : ∀ (a : Attr), documentable a = true → a.Documentable
  | .simple i, h => by rw [documentable] at h; exact h
  | .complex i subs ps ds, h => by
    rw [documentable, Bool.and_eq_true] at h
    exact ⟨of_decide_eq_true h.1, documentableAll_sound subs h.2⟩
theorem documentableAll_sound : ∀ (as : List Attr), documentableAll as = true → DocumentableAll as
  | [], _ => trivial
  | a :: r, h => by
    rw [documentableAll, Bool.and_eq_true] at h
    exact ⟨documentable_sound a h.1, documentableAll_sound r h.2⟩
end

/-- **C89** applies to the schemas of groups, users and resource types -/
example : DocumentableAll GroupA.schema.attrs.top ∧ nestingAll GroupA.schema.attrs.top ≤ 1 ∧
    GroupA.schema.attrs.top.length = 6 :=
  ⟨documentableAll_sound _ (by decide +kernel), by decide +kernel, by decide +kernel⟩
example : DocumentableAll ResourceTypeA.schema.attrs.top ∧ nestingAll ResourceTypeA.schema.attrs.top ≤ 1 :=
  ⟨documentableAll_sound _ (by decide +kernel), by decide +kernel⟩

/-- A schema with a decimal attribute. -/
def decimalSchema : Schema :=
  mkSchema "urn:x".toList [mkAttr { rep := { attr := "amount".toList }, type := .decimal }]

/-- Its representation. -/
def decimalRep : Val := ((getSchemaRep decimalSchema).toOption).getD .null

/-- The errors of a dump at a location. -/
def outcome (l : Loc) (r : PyM (Val × Issues)) : Option (List VErr) :=
  match r with
  | .error _ => none
  | .ok (_, is) => some (is.errorsAt l)

/-- the type is reported -/
example : outcome [.name "attributes".toList, .idx 1, .name "type".toList]
    ((SchemaA.schema 3).dump decimalRep) = some [⟨14, []⟩] := by decide +kernel

/-- A document that describes attributes. -/
def doc (attrs : List Val) : Val :=
  .dict [("schemas".toList, .list [.str schemaUrn]), ("name".toList, .str "Car".toList), ("attributes".toList, .list attrs)]

/-- A description of an attribute. -/
def attr (name type : String) (rest : List (Str × Val)) : Val :=
  .dict ([("name".toList, .str name.toList), ("type".toList, .str type.toList)] ++ rest)

/-- What is dumped for `attributes`, with the number of locations with issues. -/
def dumped (depth : Nat) (attrs : List Val) : PyM (Nat × Val) :=
  match (SchemaA.schema depth).dump (doc attrs) with
  | .error e => .error e
  | .ok (r, is) => .ok (is.issues.length, (r.getItem { attr := "attributes".toList }).toOption.getD .null)

/-- **C90** an accepted document with two levels of sub-attributes -/
example : dumped 3 [attr "wheels" "complex" [("subAttributes".toList, .list
      [attr "tyre" "complex" [("subAttributes".toList, .list [attr "size" "integer" [("caseExact".toList, .bool true)]])]])]] =
    .ok (0, .list [.cont
      [("name".toList, .str "wheels".toList), ("type".toList, .str "complex".toList), ("subAttributes".toList, .list [.cont
        [("name".toList, .str "tyre".toList), ("type".toList, .str "complex".toList), ("subAttributes".toList, .list [.cont
          [("name".toList, .str "size".toList), ("type".toList, .str "integer".toList)]
          [("name".toList, "name".toList), ("type".toList, "type".toList)]])]
        [("name".toList, "name".toList), ("type".toList, "type".toList), ("subattributes".toList, "subAttributes".toList)]])]
      [("name".toList, "name".toList), ("type".toList, "type".toList), ("subattributes".toList, "subAttributes".toList)]]) := by
  decide +kernel

/-- **C90** A description of a string attribute that does not say whether letter case matters is not reported: the attempt
to report it raises. -/
theorem C90_caseExact : dumped 3 [attr "colour" "string" []] = .error .typeError := by decide +kernel

/-- the type is compared exactly, although any letter case is accepted: sub-attributes of "Complex" are dropped -/
example : dumped 3 [attr "wheels" "Complex" [("subAttributes".toList, .list [attr "size" "integer" []])]] =
    .ok (0, .list [.cont [("name".toList, .str "wheels".toList), ("type".toList, .str "Complex".toList)]
      [("name".toList, "name".toList), ("type".toList, "type".toList)]]) := by decide +kernel

/-- an unknown type in a nested description is reported -/
example : (dumped 3 [attr "wheels" "complex" [("subAttributes".toList, .list [attr "size" "number" []])]]).toOption.map (·.1) =
    some 1 := by decide +kernel

end Scim.Examples.SchemaDocs
