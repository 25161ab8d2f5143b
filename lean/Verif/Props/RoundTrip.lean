import Verif.Lemmas.RoundTripAssets

/-! # Reading what was written, and writing what was read (C91) -/

namespace Scim
variable [PyEnv]
open Issues

/-- **C91** (reading first) an object accepted by `parse` is accepted by `dump`, and what `dump` returns is accepted by
`parse` again and gives the same object: nothing is lost or changed on the way.  The only thing `dump` may find
is a `meta.resourceType` of another resource. -/
theorem C91_read_write (s : Schema) (hs : s.WF) (hns : s.NoShadow) (hsym : AllSymmetric s.attrs.top)
    (hmeta : s.isResource = true → ∀ a ∈ bindWithSubs s.urn false metaAttr, a ∈ s.attrs.all)
    (hd : DatesSurvive .parse) (data v : Val) (is : Issues) (h : s.parse data = .ok (v, is)) (hn : is.hasIssues = false) :
    ∃ w is', s.dump v = .ok (w, is') ∧ s.parse w = .ok (v, {}) ∧
      (is' = {} ∨ s.isResource = true ∧ (∀ l, is'.errorsAt l = if l = resourceTypeLoc then [⟨17, []⟩] else []) ∧
        v.getItem (metaTypeRep s.urn) ≠ .ok .missing ∧ v.getItem (metaTypeRep s.urn) ≠ .ok (.str s.name)) := by
  obtain ⟨rfl, w, h1, h2⟩ := schema_returns (m := .parse) hd hs hns hsym h hn
  obtain ⟨is', h3, h4⟩ := dump_of_process hs hmeta h1
  refine ⟨w, is', h3, h2, ?_⟩
  rcases h4 with h4 | ⟨h4, h5, h6, h7⟩
  · exact .inl h4
  · obtain ⟨hobj, _⟩ := process_noIssues h rfl
    obtain ⟨_, hk, _⟩ := process_spec hs hobj h
    obtain ⟨u, hu, _, hv⟩ := metaType_dump hs (hmeta h4) h1 rfl
    obtain ⟨d, lc, rfl, hn⟩ := hk
    rw [hu] at h6 h7
    rw [hv rfl ⟨d, lc, rfl, hn⟩]
    exact .inr ⟨h4, h5, h6, h7⟩

/-- **C91** (writing first) an object accepted by `dump` is accepted by `parse`, and what `parse` returns is accepted by
`dump` again and gives the same object. -/
theorem C91_write_read (s : Schema) (hs : s.WF) (hns : s.NoShadow) (hsym : AllSymmetric s.attrs.top)
    (hd : DatesSurvive .dump) (data v : Val) (is : Issues) (h : s.dump data = .ok (v, is)) (hn : is.hasIssues = false) :
    ∃ w, s.parse v = .ok (w, {}) ∧ s.dump w = .ok (v, {}) := by
  obtain ⟨_, _, hp⟩ := dump_noIssues h hn
  obtain ⟨rfl, w, h1, h2⟩ := schema_returns (m := .dump) hd hs hns hsym hp hn
  refine ⟨w, h1, ?_⟩
  rw [← h]
  unfold Schema.dump
  rw [h2, hp]

/-- **C91** for users, with the enterprise extension. -/
theorem C91_user (hd : DatesSurvive .parse) (data v : Val) (is : Issues) (h : userSchema.parse data = .ok (v, is))
    (hn : is.hasIssues = false) : ∃ w is', userSchema.dump v = .ok (w, is') ∧ userSchema.parse w = .ok (v, {}) ∧
      (is' = {} ∨ ∀ l, is'.errorsAt l = if l = resourceTypeLoc then [⟨17, []⟩] else []) := by
  obtain ⟨w, is', h1, h2, h3⟩ := C91_read_write userSchema user_wf user_noShadow user_top_sym (fun _ => user_meta_mem) hd
    data v is h hn
  exact ⟨w, is', h1, h2, h3.imp_right (fun h => h.2.1)⟩

/-- **C91** for groups. -/
theorem C91_group (hd : DatesSurvive .parse) (data v : Val) (is : Issues) (h : GroupA.schema.parse data = .ok (v, is))
    (hn : is.hasIssues = false) : ∃ w is', GroupA.schema.dump v = .ok (w, is') ∧ GroupA.schema.parse w = .ok (v, {}) ∧
      (is' = {} ∨ ∀ l, is'.errorsAt l = if l = resourceTypeLoc then [⟨17, []⟩] else []) := by
  obtain ⟨w, is', h1, h2, h3⟩ := C91_read_write GroupA.schema group_wf (noShadow_of_noExt group_wf rfl) group_top_sym
    (fun _ => meta_mem group_decl) hd data v is h hn
  exact ⟨w, is', h1, h2, h3.imp_right (fun h => h.2.1)⟩

/-- **C91** for the resources that describe the service. -/
theorem C91_service (hd : DatesSurvive .dump) (s : Schema) (hs : s = ResourceTypeA.schema ∨ s = ConfigA.schema)
    (data v : Val) (is : Issues) (h : s.dump data = .ok (v, is)) (hn : is.hasIssues = false) :
    ∃ w, s.parse v = .ok (w, {}) ∧ s.dump w = .ok (v, {}) := by
  rcases hs with rfl | rfl
  · exact C91_write_read _ resourceType_wf (noShadow_of_noExt resourceType_wf rfl) resourceType_top_sym hd data v is h hn
  · exact C91_write_read _ config_wf (noShadow_of_noExt config_wf rfl) config_top_sym hd data v is h hn

end Scim

namespace Scim.Examples.RoundTrip
open Scim

/-- A sign and ones. -/
def encode (n : Int) : Str := (if n < 0 then '-' else '+') :: List.replicate n.natAbs '1'

/-- The number for a sign and some ones, and the rest. -/
def decode : Str → Option (Int × Str)
  | [] => none
  | c :: r =>
    let n := (r.takeWhile (· == '1')).length
    some (if c = '-' then -(n : Int) else n, r.dropWhile (· == '1'))

/-- Dates as texts and back. -/
def readDate (s : Str) : Option DateTime :=
  match decode s with
  | none => none
  | some (n, []) => some { wall := n, off := none }
  | some (n, r) => match decode r with
    | some (o, []) => some { wall := n, off := some o }
    | _ => none

/-- The text of a date. -/
def writeDate (d : DateTime) : Str := encode d.wall ++ (match d.off with | none => [] | some o => encode o)

theorem decode_encode (n : Int) (r : Str) (hr : ∀ c ∈ r.head?, c ≠ '1') : decode (encode n ++ r) = some (n, r) := by
  have h1 : (List.replicate n.natAbs '1' ++ r).takeWhile (· == '1') = List.replicate n.natAbs '1' := by
    rw [List.takeWhile_append_of_pos (by simp)]
    cases r with
    | nil => simp
    | cons c r => rw [List.takeWhile_cons_of_neg (by simpa using hr c (by simp))]; simp
  have h2 : (List.replicate n.natAbs '1' ++ r).dropWhile (· == '1') = r := by
    rw [List.dropWhile_append_of_pos (by simp)]
    cases r with
    | nil => rfl
    | cons c r => rw [List.dropWhile_cons_of_neg (by simpa using hr c (by simp))]
  simp only [encode, List.cons_append, decode, h1, h2, List.length_replicate]
  by_cases h : n < 0
  · simp [h]; omega
  · simp [h]; omega

theorem read_write (d : DateTime) : readDate (writeDate d) = some d := by
  obtain ⟨w, o⟩ := d
  cases o with
  | none => simp only [writeDate, readDate, decode_encode w [] (by simp)]
  | some o =>
    have hne : ∀ c ∈ (encode o).head?, c ≠ '1' := by
      intro c hc
      simp only [encode, List.head?_cons, Option.mem_def, Option.some.injEq] at hc
      subst hc
      split <;> decide
    have h2 := decode_encode o [] (by simp)
    rw [List.append_nil] at h2
    simp only [writeDate, readDate, decode_encode w (encode o) hne]
    cases he : encode o with
    | nil => simp [encode] at he
    | cons c r => rw [he] at h2; simp only [h2]

@[reducible] def dateEnv : PyEnv :=
  { asciiEnv with
    fromIso := readDate
    isoFormat := writeDate
    fromIso_nil := by rfl
    isoFormat_ne_nil := fun d => by simp [writeDate, encode] }

local instance roundTripEnv : PyEnv := dateEnv

/-- The dates of this environment survive. -/
example : DatesSurvive .parse ∧ DatesSurvive .dump := ⟨fun _ d _ => read_write d, fun d => read_write d⟩

/-- A group as it arrives: another spelling of the names, an unknown attribute, a date. -/
def groupData : Val := .dict [
  ("SCHEMAS".toList, .list [.str "urn:ietf:params:scim:schemas:core:2.0:Group".toList]),
  ("id".toList, .str "g1".toList),
  ("DISPLAYNAME".toList, .str "Tour Guides".toList),
  ("nonsense".toList, .dict []),
  ("members".toList, .list [.dict [("VALUE".toList, .str "u1".toList), ("type".toList, .str "User".toList)]]),
  ("meta".toList, .dict [("resourceType".toList, .str "Group".toList), ("created".toList, .str "+11".toList)])]

/-- The group is accepted; what is written holds a text where what was read holds a date; reading it again gives the
same. -/
example : (match GroupA.schema.parse groupData with
    | .ok (v, is) => !is.hasIssues && (match GroupA.schema.dump v with
      | .ok (w, is') => !is'.hasIssues && w.keys == v.keys &&
        (match w.getName "meta.created".toList, v.getName "meta.created".toList with
          | .ok (.prim (.str t)), .ok (.dt d) => t == "+11".toList && d.wall == 2
          | _, _ => false) &&
        (match GroupA.schema.parse w with
          | .ok (v', is'') => !is''.hasIssues && v'.keys == v.keys
          | _ => false)
      | _ => false)
    | _ => false) = true := by decide +kernel

/-- A group of another type is read, and complained about when written. -/
example : (match GroupA.schema.parse (.dict [("meta".toList, .dict [("resourceType".toList, .str "User".toList)])]) with
    | .ok (v, is) => !is.hasIssues && (match GroupA.schema.dump v with
      | .ok (_, is') => (is'.errorsAt resourceTypeLoc).map (·.code) == [17]
      | _ => false)
    | _ => false) = true := by decide +kernel

/-- An attribute `x`. -/
def xAttr : Attr := mkAttr { rep := { attr := "x".toList }, type := .string }

/-- A schema with an attribute `x`, and an extension with another `x`. -/
def shadowed : PyM Schema :=
  (mkSchema "urn:core".toList [xAttr]).withExtension { urn := "urn:ext".toList, name := "Ext".toList, attrs := Attributes.ofList [xAttr] }

/-- Without `NoShadow` the statement is false: the attribute of the extension, absent when read, is taken from the
schema itself when written. -/
example : (match shadowed with
    | .ok s => match s.parse (.dict [("x".toList, .str "1".toList), ("urn:ext".toList, .dict [])]) with
      | .ok (v, is) => !is.hasIssues && v.keys == ["x".toList] && (match s.dump v with
        | .ok (w, is') => !is'.hasIssues && w.keys == ["x".toList, "urn:ext".toList] && (match s.parse w with
          | .ok (v', is'') => !is''.hasIssues && v'.keys == ["x".toList, "urn:ext".toList]
          | _ => false)
        | _ => false)
      | _ => false
    | _ => false) = true := by decide +kernel

end Scim.Examples.RoundTrip
