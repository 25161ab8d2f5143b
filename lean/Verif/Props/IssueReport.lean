import Verif.Lemmas.IssueReport
import Verif.Props.Issues

/-!
# C111: issue collections with messages, and the full report

The collections with whole errors do what the collections of the rest of the model do, and the report shows the errors.
-/

namespace Scim
open Messages

/-- **C111** The full report holds, at every nested path, one item for every error of the locations whose string form is
that path, in order: its code, its message when messages are asked for, its context when contexts are asked for; and
nothing where there is no such location. -/
theorem C111_report {s : Collection} (msg ctx : Bool) (hs : ∀ p ∈ s.issues, errorsKey ∉ p.1.map LKey.toStr) :
    ∃ r, s.toDict msg ctx = .ok r ∧ ∀ path, errorsKey ∉ path →
      r.itemsAt path =
        let here := s.issues.filter (fun p => p.1.map LKey.toStr = path)
        if here = [] then none else some (here.flatMap fun p => p.2.map fun e =>
          { code := e.code, error := if msg then some e.message else none, context := if ctx then some e.context else none }) := by
  obtain ⟨r, he, hat⟩ := reportLoop_items msg ctx s.issues (.dict []) .empty hs
  refine ⟨r, he, ?_⟩
  intro path hp
  rw [hat path hp]
  have hn : Messages.Report.itemsAt path (.dict []) = none := by cases path <;> simp [Messages.Report.itemsAt]
  have hi : (fun e : Error => e.item msg ctx) = fun e : Error =>
      ({ code := e.code, error := if msg then some e.message else none,
         context := if ctx then some e.context else none } : Item) := by
    funext e
    cases msg <;> cases ctx <;> rfl
  simp [hn, hi]

/-- **C111** Asking for messages or contexts changes nothing else in the report: without them it is the plain report,
and the full report raises exactly when the plain one does. -/
theorem C111_plain (s : Collection) (msg ctx : Bool) :
    (s.toDict msg ctx).map Messages.Report.codes = s.plain.toDict :=
  codes_reportLoop msg ctx s.issues (.dict [])

/-- **C111** The errors of a location, with and without messages. -/
theorem C111_errors (s : Collection) (loc : Loc) : s.plain.errorsAt loc = (s.errorsAt loc).map Error.plain :=
  plain_errorsAt s loc

/-- **C111** Adding, merging and looking at a location do the same to collections with whole errors as to the plain
ones. -/
theorem C111_operations (s o : Collection) (e : Error) (proceed : Bool) (loc : Loc) :
    (s.add e proceed loc).plain = s.plain.add e.plain proceed loc ∧
    (s.merge o loc).plain = s.plain.merge o.plain loc ∧
    (s.get loc).plain = s.plain.get loc :=
  ⟨plain_add s e proceed loc, plain_merge s o loc, plain_get s loc⟩

/-- **C111** Errors are removed by comparing messages; as the messages of made errors tell their codes, removing does
the same to both kinds of collections. -/
theorem C111_pop {s : Collection} (hs : s.Reach) (loc : Loc) (code : Nat) :
    (s.pop loc code).plain = s.plain.pop loc code :=
  plain_pop hs.made loc code

/-- **C111** What holds for every plain collection a program can hold (C12–C17) holds for the collections with
messages. -/
theorem C111_reach {s : Collection} (hs : s.Reach) : s.plain.Reach := by
  induction hs with
  | empty => exact .empty
  | add e proceed loc _ _ ih => rw [plain_add]; exact .add _ _ _ ih
  | merge loc _ _ ih1 ih2 => rw [plain_merge]; exact .merge _ ih1 ih2
  | pop loc code h ih => rw [plain_pop h.made]; exact .pop _ _ ih
  | get loc _ ih => rw [plain_get]; exact .get _ ih

/-- **C111** A message in a report tells the code: two items with the same message have the same code. -/
theorem C111_message_code {s t : Collection} (hs : s.Reach) (ht : t.Reach) (l m : Loc) (e f : Error)
    (he : e ∈ s.errorsAt l) (hf : f ∈ t.errorsAt m) (h : e.message = f.message) : e.code = f.code := by
  have key : ∀ {u : Collection} {k : Loc} {x : Error}, u.Reach → x ∈ u.errorsAt k → x.Made := by
    intro u k x hu hx
    unfold Collection.errorsAt at hx
    cases hg : aget k u.issues with
    | none => simp [hg] at hx
    | some es => rw [hg] at hx; exact hu.made _ (mem_of_aget hg) x hx
  exact made_code (key hs he) (key ht hf) h

end Scim

namespace Scim.Examples.IssueReport
open Scim.Messages

/-- a text without quotation marks -/
def text (s : String) : Arg := { str := s.toList, repr := '\'' :: s.toList ++ ['\''] }

/-- two errors -/
def badType : Error :=
  { code := 2, message := "expected type 'str', got 'int' instead".toList,
    context := [("expected".toList, text "str"), ("provided".toList, text "int")] }
def missing : Error := { code := 15, message := "missing".toList, context := [] }

theorem badType_made : badType.Made := ⟨.badType (text "str") (text "int"), trivial, by rw [C102_made]; exact congrArg Except.ok (by decide +kernel)⟩
theorem missing_made : missing.Made := ⟨.missing, trivial, by rw [C102_made]; exact congrArg Except.ok (by decide +kernel)⟩

/-- a collection -/
def sample : Collection :=
  (({} : Collection).add badType false [.name "emails".toList, .idx 0]).add missing true [.name "emails".toList]

example : sample.Reach := .add _ _ _ (.add _ _ _ .empty badType_made) missing_made
example : ∀ p ∈ sample.issues, errorsKey ∉ p.1.map LKey.toStr := by decide +kernel

/-- **C111** -/
example : ((sample.toDict true false).toOption.bind (Messages.Report.itemsAt ["emails".toList, "0".toList])) =
    some [{ code := 2, error := some "expected type 'str', got 'int' instead".toList }] := by decide +kernel
example : ((sample.toDict false true).toOption.bind (Messages.Report.itemsAt ["emails".toList])) =
    some [{ code := 15, context := some [] }] := by decide +kernel
example : (sample.pop [.name "emails".toList, .idx 0] 2).errorsAt [.name "emails".toList, .idx 0] = [] ∧
    (sample.pop [.name "emails".toList, .idx 0] 2).errorsAt [.name "emails".toList] = [missing] := by decide +kernel

/-- **C111** the condition is needed: an attribute called `_errors` with an issue, and an issue of the whole -/
theorem C111_name_raises : ∃ s : Collection, s.Reach ∧ ∀ msg ctx, s.toDict msg ctx = .error .attributeError :=
  ⟨(({} : Collection).add missing true [.name "_errors".toList]).add badType true [],
    .add _ _ _ (.add _ _ _ .empty missing_made) badType_made, by
      intro msg ctx
      cases msg <;> cases ctx <;> rfl⟩

end Scim.Examples.IssueReport
