import Verif.Lemmas.Config
import Verif.Props.BulkRequests

/-!
# C101: making the configuration of a service provider

The specification is in `Verif/Spec/Config.lean`.
-/

namespace Scim
open Config

/-- **C101** A configuration is made exactly when no option has an unknown setting, the authentication schemes are
complete, and the limits are given for bulk operations and filtering if these are supported; then it says what the
arguments say, and `False` or `None` where they say nothing. -/
theorem C101_created (a : Args) (c : Provider) :
    create a = .ok c ↔ ∃ ss, WellFormed a ss ∧ ¬BulkUnlimited a ∧ ¬FilterUnlimited a ∧ c = configured a ss := by
  constructor
  · intro h
    by_cases hw : ∃ ss, WellFormed a ss
    · obtain ⟨ss, hw⟩ := hw
      by_cases hl : Limited a
      · refine ⟨ss, hw, hl.1, hl.2, ?_⟩
        rw [(create_wf hw).1 hl] at h
        exact (Except.ok.inj h).symm
      · rw [(create_wf hw).2 hl] at h
        cases h
    · rcases create_not_wf hw with e | e <;> rw [e] at h <;> cases h
  · rintro ⟨ss, hw, h1, h2, rfl⟩
    exact (create_wf hw).1 ⟨h1, h2⟩

/-- **C101** Otherwise making it raises `TypeError` or `ValueError`; if only limits are missing, it is `ValueError`. -/
theorem C101_refused (a : Args) (e : PyErr) (h : create a = .error e) :
    (e = .typeError ∨ e = .valueError) ∧
      ∀ ss, WellFormed a ss → e = .valueError ∧ (BulkUnlimited a ∨ FilterUnlimited a) := by
  refine ⟨?_, fun ss hw => ?_⟩
  · by_cases hw : ∃ ss, WellFormed a ss
    · obtain ⟨ss, hw⟩ := hw
      by_cases hl : Limited a
      · rw [(create_wf hw).1 hl] at h; cases h
      · rw [(create_wf hw).2 hl] at h; cases h; exact Or.inr rfl
    · rcases create_not_wf hw with e' | e' <;> rw [e'] at h <;> cases h
      · exact Or.inl rfl
      · exact Or.inr rfl
  · by_cases hl : Limited a
    · rw [(create_wf hw).1 hl] at h; cases h
    · rw [(create_wf hw).2 hl] at h; cases h
      refine ⟨rfl, Classical.byContradiction fun hn => hl ⟨fun hb => hn (Or.inl hb), fun hf => hn (Or.inr hf)⟩⟩

/-- **C101** So whoever has a configuration that supports bulk operations or filtering has the limits. -/
theorem C101_limits (a : Args) (c : Provider) (h : create a = .ok c) :
    (c.bulk.supported.truthy = true → c.bulk.maxOperations.truthy = true ∧ c.bulk.maxPayloadSize.truthy = true) ∧
      (c.filter.supported.truthy = true → c.filter.maxResults.truthy = true) := by
  obtain ⟨ss, -, hb, hf, rfl⟩ := (C101_created a c).mp h
  constructor
  · intro hs
    constructor
    · cases e : (configured a ss).bulk.maxOperations.truthy with
      | true => rfl
      | false => exact absurd ⟨hs, Or.inl e⟩ hb
    · cases e : (configured a ss).bulk.maxPayloadSize.truthy with
      | true => rfl
      | false => exact absurd ⟨hs, Or.inr e⟩ hb
  · intro hs
    cases e : (configured a ss).filter.maxResults.truthy with
    | true => rfl
    | false => exact absurd ⟨hs, e⟩ hf

end Scim

namespace Scim.Examples.Config
open Scim.Config V
local instance configEnv : PyEnv := asciiEnv

/-- an option -/
def opt (kvs : List (String × Val)) : Val := .dict (kvs.map fun p => (p.1.toList, p.2))

/-- an authentication scheme -/
def scheme (n : String) : Val :=
  opt [("name", .str n.toList), ("description", .str []), ("spec_uri", .str []), ("type", .str "oauth2".toList),
    ("documentation_uri", .null)]

/-- the arguments of a server that supports everything -/
def all : Args where
  documentationUri := .str "d".toList
  patch := opt [("supported", .bool true)]
  bulk := opt [("max_operations", .int 10), ("supported", .bool true), ("max_payload_size", .int 4096)]
  filter := opt [("supported", .bool true), ("max_results", .int 100)]
  schemes := .list [scheme "a", scheme "b"]

/-- some properties of what is made -/
def outcome (r : PyM Provider) : Except PyErr (Option Int × Nat × Bool) :=
  r.map fun c => (c.maxOps, c.schemes.length, c.sort.supported.truthy)

/-- **C101** it is made -/
example : outcome (create all) = .ok (some 10, 2, false) := by decide +kernel
/-- and it meets the specification -/
example : ∃ c, create all = .ok c ∧ ∃ ss, WellFormed all ss ∧ c = configured all ss := by
  cases h : create all with
  | error e =>
    have h2 : outcome (create all) = .ok (some 10, 2, false) := by decide +kernel
    rw [h] at h2; cases h2
  | ok c =>
    obtain ⟨ss, hw, -, -, e⟩ := (C101_created all c).mp h
    exact ⟨c, rfl, ss, hw, e⟩
/-- no arguments at all are fine -/
example : outcome (create {}) = .ok (none, 0, false) := by decide +kernel
/-- a missing limit, a limit of zero -/
example : outcome (create { bulk := opt [("supported", .bool true), ("max_operations", .int 3)] }) = .error .valueError := by
  decide +kernel
example : outcome (create { filter := opt [("supported", .bool true), ("max_results", .int 0)] }) = .error .valueError := by
  decide +kernel
/-- an unknown setting, an incomplete scheme, `None` as a scheme -/
example : outcome (create { sort := opt [("supportd", .bool true)] }) = .error .typeError := by decide +kernel
example : outcome (create { schemes := .list [opt [("name", .null)]] }) = .error .typeError := by decide +kernel
example : outcome (create { schemes := .list [.null] }) = .error .typeError := by decide +kernel
/-- a negative limit passes (and then every bulk request is too large) -/
example : outcome (create { bulk := opt [("supported", .bool true), ("max_operations", .int (-1)), ("max_payload_size", .int 1)] }) =
    .ok (some (-1), 0, false) := by decide +kernel

/-- whether the call raised -/
def raised {α : Type} : PyM α → Option PyErr
  | .ok _ => none
  | .error e => some e

/-- **C101** without a limit, that is when bulk operations are not supported, an acceptable bulk request raises `TypeError` -/
theorem C101_unsupported :
    ∃ c, create {} = .ok c ∧
      raised (parseBulk c.maxOps BulkRequests.known
        (BulkRequests.bulk [BulkRequests.create (.str "a".toList), BulkRequests.delete]) .null .null) = some .typeError := by
  refine ⟨configured {} [], rfl, ?_⟩
  decide +kernel

end Scim.Examples.Config
