import Verif.Lemmas.ContainerHeapHistory

/-! Containers as objects that are changed in place and can be shared: C108. -/

namespace Scim
open Shared
variable [PyEnv]

/-- **C108** Whatever a program does with containers (build them, read, write and delete attributes, convert them back), also
when methods raise half-way: a list or dictionary of the caller that no container holds directly as the value of an
attribute, and that the program does not hand over to one by a write, is never changed. -/
theorem C108_untouched (n : Nat) (p : List Cmd) (s : State) (S : Nat → Prop) (hg : Guarded S s.mem)
    (hc : Careful S n s p) (r : Nat) (hr : S r) : (s.run n p).mem[r]? = s.mem[r]? :=
  (run_kept n p s hg hc).2 r hr

/-- **C108** Building containers, reading and converting back change no object at all; they only add new ones. -/
theorem C108_reading (n : Nat) (p : List Cmd) (s : State)
    (hp : ∀ c ∈ p, (∀ x r y, c ≠ .set x r y) ∧ ∀ x r, c ≠ .del x r) : s.mem <+: (s.run n p).mem := by
  induction p generalizing s with
  | nil => exact List.prefix_refl _
  | cons c p ih =>
    have h1 := hp c List.mem_cons_self
    have step : s.mem <+: (s.step n c).mem := by
      cases c with
      | scalar a => exact List.prefix_refl _
      | list xs => exact List.prefix_append _ _
      | dict kvs => exact List.prefix_append _ _
      | wrap x => exact newCont_prefix n _ _
      | get x r => exact getX_prefix n false _ _ _
      | set x r y => exact absurd rfl (h1.1 x r y)
      | del x r => exact absurd rfl (h1.2 x r)
      | toDict x => exact toDict_prefix n _ _
      | item x k => exact List.prefix_refl _
      | entry x k => exact List.prefix_refl _
    exact step.trans (ih _ fun c hc => hp c (List.mem_cons_of_mem _ hc))

/-- **C108** `SCIMDataContainer(d)` for a document without shared parts: the result stands for the converted value, no
object of the document changes, and the two share no object if no list of the document has a list as an item. -/
theorem C108_new (n : Nat) (m : Mem) (v : HVal) (D : List (Str × Val)) (f : List Nat) (hv : Rep m v (.dict D) f)
    (hn : f.Nodup) (hl : nest (.dict D) ≤ n) :
    ∃ c g, (newCont n m v).2 = .ok c ∧ Rep (newCont n m v).1 c (Val.toCont (.dict D)) g ∧ g.Nodup ∧
      m <+: (newCont n m v).1 ∧ (∀ x ∈ g, x ∈ f ∨ m.length ≤ x) ∧
      (tidy false (.dict D) = true → ∀ x ∈ g, m.length ≤ x) := by
  obtain ⟨r, -, -, e, -⟩ := id hv
  subst e
  obtain ⟨c, g, e, hr, hn', hs⟩ := newCont_rep n m r D f hv hn hl
  refine ⟨c, g, e, hr, hn', newCont_prefix n m _, fun x hx => (hs x hx).imp And.left id, fun ht x hx => ?_⟩
  rcases hs x hx with ⟨-, j⟩ | i
  · exact absurd ht j
  · exact i

/-- **C108** Reading an attribute of an object without shared parts gives what reading gives on values, or the same exception;
what is handed out is part of the object or new, and nothing changes. -/
theorem C108_get (n : Nat) (m : Mem) (v : HVal) (V : Val) (f : List Nat) (r : AttrRep) (hv : Rep m v V f)
    (hn : f.Nodup) (hl : nest V < n) :
    m <+: (getItem n m v r).1 ∧
    (∀ e, V.getItem r = .error e → (getItem n m v r).2 = .error e) ∧
    ∀ W, V.getItem r = .ok W → ∃ w g, (getItem n m v r).2 = .ok w ∧ Rep (getItem n m v r).1 w W g ∧ g.Nodup ∧
      ∀ x ∈ g, x ∈ f ∨ m.length ≤ x := by
  have h := getX_rep n false m v V f r hv hn hl
  refine ⟨getX_prefix n false m v r, fun e he => ?_, fun W hW => ?_⟩
  · rw [show Val.getX false V r = V.getItem r from rfl, he] at h; exact h
  · rw [show Val.getX false V r = V.getItem r from rfl, hW] at h
    obtain ⟨w, g, e, hr, hn', hs⟩ := h
    exact ⟨w, g, e, hr, hn', fun x hx => (hs x hx).imp And.left id⟩

/-- **C108** Writing to an object without shared parts, a value that shares nothing with it: afterwards the object stands for
what writing gives on values, or the same exception is raised; in both cases no object outside changes, the written value
included. -/
theorem C108_set (m : Mem) (v x : HVal) (V X : Val) (f g : List Nat) (r : AttrRep) (hv : Rep m v V f)
    (hx : Rep m x X g) (hn : (f ++ g).Nodup) :
    (∀ i, i < m.length → i ∉ f → (setItem m v r x).1[i]? = m[i]?) ∧
    (∀ e, V.setItem r X = .error e → (setItem m v r x).2 = .error e) ∧
    ∀ W, V.setItem r X = .ok W → (setItem m v r x).2 = .ok () ∧ ∃ h, Rep (setItem m v r x).1 v W h ∧ h.Nodup ∧
      ∀ i ∈ h, i ∈ f ∨ i ∈ g ∨ m.length ≤ i := by
  obtain ⟨⟨-, fr⟩, h⟩ := setItem_rep r hv hx hn
  refine ⟨fr, fun e he => ?_, fun W hW => ?_⟩
  · rw [he] at h; exact h
  · rw [hW] at h; exact h

/-- **C108** Deleting from an object without shared parts, likewise. -/
theorem C108_del (n : Nat) (m : Mem) (v : HVal) (V : Val) (f : List Nat) (r : AttrRep) (hv : Rep m v V f)
    (hn : f.Nodup) (hl : nest V < n) :
    (∀ i, i < m.length → i ∉ f → (delItem n m v r).1[i]? = m[i]?) ∧
    (∀ e, V.delItem r = .error e → (delItem n m v r).2 = .error e) ∧
    ∀ W, V.delItem r = .ok W → (delItem n m v r).2 = .ok () ∧ ∃ h, Rep (delItem n m v r).1 v W h ∧ h.Nodup ∧
      ∀ i ∈ h, i ∈ f ∨ m.length ≤ i := by
  obtain ⟨⟨-, fr⟩, h⟩ := delX_rep n false m v V f r hv hn hl
  refine ⟨fr, fun e he => ?_, fun W hW => ?_⟩
  · rw [show Val.delX false V r = V.delItem r from rfl, he] at h; exact h
  · rw [show Val.delX false V r = V.delItem r from rfl, hW] at h
    obtain ⟨e, g, hr, hn', hs⟩ := h
    refine ⟨e, g, hr, hn', fun i hi => ?_⟩
    rcases hs i hi with h | h | h
    · exact .inl h
    · exact absurd h List.not_mem_nil
    · exact .inr h

/-- **C108** `to_dict` of a container without shared parts stands for the dictionary computed on values, changes nothing, and
shares no object with the container if that holds no dictionaries and no lists inside lists. -/
theorem C108_toDict (n : Nat) (m : Mem) (v : HVal) (D : List (Str × Val)) (lc : List (Str × Str)) (f : List Nat)
    (hv : Rep m v (.cont D lc) f) (hn : f.Nodup) (hl : nest (.cont D lc) ≤ n) :
    ∃ w g, (toDict n m v).2 = .ok w ∧ Rep (toDict n m v).1 w (Val.toDict (.cont D lc)) g ∧ g.Nodup ∧
      m <+: (toDict n m v).1 ∧ (∀ x ∈ g, x ∈ f ∨ m.length ≤ x) ∧
      (tidy true (.cont D lc) = true → ∀ x ∈ g, m.length ≤ x) := by
  obtain ⟨r, -, -, e, -⟩ := id hv
  subst e
  obtain ⟨c, g, e, hr, hn', hs⟩ := toDict_rep n m r _ f hv hn hl
  refine ⟨c, g, e, hr, hn', toDict_prefix n m _, fun x hx => (hs x hx).imp And.left id, fun ht x hx => ?_⟩
  rcases hs x hx with ⟨-, j⟩ | i
  · exact absurd ht j
  · exact i

/-- **C108** There and back: from a document without lists inside lists a container is built and converted back; document,
container and result share no object with each other. -/
theorem C108_separate (n : Nat) (m : Mem) (v : HVal) (D : List (Str × Val)) (f : List Nat) (hv : Rep m v (.dict D) f)
    (hn : f.Nodup) (ht : tidy false (.dict D) = true) (hl : nest (.dict D) ≤ n) :
    ∃ c g w h, (newCont n m v).2 = .ok c ∧ (toDict n (newCont n m v).1 c).2 = .ok w ∧
      Rep (toDict n (newCont n m v).1 c).1 v (.dict D) f ∧
      Rep (toDict n (newCont n m v).1 c).1 c (Val.toCont (.dict D)) g ∧
      Rep (toDict n (newCont n m v).1 c).1 w (Val.toDict (Val.toCont (.dict D))) h ∧ (f ++ g ++ h).Nodup := by
  obtain ⟨c, g, e1, r1, n1, p1, -, s1⟩ := C108_new n m v D f hv hn hl
  have ht' : tidy true (Val.toCont (.dict D)) = true := by
    unfold tidy at ht
    unfold Val.toCont tidy
    exact tidy_convPairs D ht
  have hl' : nest (Val.toCont (.dict D)) ≤ n := by rw [nest_toCont]; exact hl
  obtain ⟨w, h, e2, r2, n2, p2, -, s2⟩ := C108_toDict n (newCont n m v).1 c _ _ g r1 n1 hl'
  have s1' := s1 ht
  have s2' := s2 ht'
  have b := hv.bound
  have b1 := r1.bound
  have l1 := p1.length_le
  refine ⟨c, g, w, h, e1, e2, hv.later (p1.trans p2), r1.later p2, r2, ?_⟩
  generalize (newCont n m v).1 = m1 at *
  clear r1 r2 p1 p2 e1 e2 s1 s2 hv
  foot

/-- **C108** A whole history: a container is built from a document and then changed by any sequence of writes and deletions.
It ends as the same history on values says, or with the same exception; the document still stands for the same value. -/
theorem C108_history (D : List (Str × Val)) (es : List Edit) : ∃ N, ∀ n, N ≤ n → ∀ (m : Mem) (v : HVal) (f : List Nat),
    Rep m v (.dict D) f → f.Nodup → Guarded (· ∈ f) m →
    ∃ c, (newCont n m v).2 = .ok c ∧
      (∀ W, editVal (Val.toCont (.dict D)) es = .ok W → (editMem n (newCont n m v).1 c es).2 = .ok () ∧
        ∃ g, Rep (editMem n (newCont n m v).1 c es).1 c W g) ∧
      (∀ e, editVal (Val.toCont (.dict D)) es = .error e → (editMem n (newCont n m v).1 c es).2 = .error e) ∧
      Rep (editMem n (newCont n m v).1 c es).1 v (.dict D) f := by
  obtain ⟨N, hN⟩ := editMem_rep es (Val.toCont (.dict D))
  refine ⟨max N (nest (.dict D)), fun n hn m v f hv hf hg => ?_⟩
  obtain ⟨c, g, e1, r1, n1, p1, -, -⟩ := C108_new n m v D f hv hf (by omega)
  obtain ⟨a, b⟩ := hN n (by omega) c _ g r1 n1
  refine ⟨c, e1, fun W hW => ?_, b, ?_⟩
  · obtain ⟨x, g, y, -⟩ := a W hW
    exact ⟨x, g, y⟩
  · have k1 := (newCont_kept (S := (· ∈ f)) n m v hg).1
    have k2 := k1.trans (editMem_kept n c es _ k1.1)
    exact hv.frame k2.2

end Scim

namespace Scim.Examples.ContainerHeap
open Scim Scim.Shared

local instance contHeapEnv : PyEnv := asciiEnv

def name (a : String) (s : String := "") : AttrRep := { attr := a.toList, sub := s.toList }
def text (s : String) : Val := .str s.toList

/-- `{"userName": "bj", "name": {"givenName": "B"}, "emails": [{"value": "a"}]}`. -/
def body : List (Str × Val) :=
  [("userName".toList, text "bj"), ("name".toList, .dict [("givenName".toList, text "B")]),
    ("emails".toList, .list [.dict [("value".toList, text "a")]])]

def mem0 : Mem := (make [] (.dict body)).1
def doc : HVal := (make [] (.dict body)).2

theorem doc_rep : Rep mem0 doc (.dict body) [3, 0, 2, 1] := by
  refine ⟨3, _, [0, 2, 1], rfl, rfl, ?_, rfl⟩
  refine ⟨_, _, [], [0, 2, 1], rfl, ⟨rfl, rfl⟩, ?_, rfl⟩
  refine ⟨_, _, [0], [2, 1], rfl, ⟨0, _, [], rfl, rfl, ?_, rfl⟩, ?_, rfl⟩
  · exact ⟨_, _, [], [], rfl, ⟨rfl, rfl⟩, ⟨rfl, rfl⟩, rfl⟩
  · refine ⟨_, _, [2, 1], [], rfl, ⟨2, _, [1], rfl, rfl, ?_, rfl⟩, ⟨rfl, rfl⟩, rfl⟩
    refine ⟨_, _, [1], [], rfl, ⟨1, _, [], rfl, rfl, ?_, rfl⟩, ⟨rfl, rfl⟩, rfl⟩
    exact ⟨_, _, [], [], rfl, ⟨rfl, rfl⟩, ⟨rfl, rfl⟩, rfl⟩

theorem doc_guarded : Guarded (· ∈ [3, 0, 2, 1]) mem0 := by
  refine guarded_of_plain ?_ ?_
  · intro c hc d l e
    rw [e] at hc
    revert hc
    simp [mem0, make, makePairs, makeAll, body, text]
  · intro r hr
    show r < 4
    simp at hr
    omega

/-- The hypotheses of the theorems on single operations are met. -/
example : [3, 0, 2, 1].Nodup ∧ nest (.dict body) = 3 ∧ tidy false (.dict body) = true := by decide +kernel

/-- A history: two writes, one of them for the items of the list, and a deletion. -/
def history : List Edit :=
  [.write (name "userName") (text "jj"), .write (name "emails" "value") (.list [text "b", text "c"]),
    .erase (name "name" "givenName")]

example : editVal (Val.toCont (.dict body)) history = .ok (.cont
    [("userName".toList, text "jj"), ("name".toList, .cont [] []),
      ("emails".toList, .list [.cont [("value".toList, text "b")] [("value".toList, "value".toList)],
        .cont [("value".toList, text "c")] [("value".toList, "value".toList)]])]
    [("username".toList, "userName".toList), ("name".toList, "name".toList), ("emails".toList, "emails".toList)]) := by
  have h : ((editVal (Val.toCont (.dict body)) history).toOption == some (.cont
    [("userName".toList, text "jj"), ("name".toList, .cont [] []),
      ("emails".toList, .list [.cont [("value".toList, text "b")] [("value".toList, "value".toList)],
        .cont [("value".toList, text "c")] [("value".toList, "value".toList)]])]
    [("username".toList, "userName".toList), ("name".toList, "name".toList), ("emails".toList, "emails".toList)])) = true := by
    decide +kernel
  cases he : editVal (Val.toCont (.dict body)) history with
  | error e => rw [he] at h; cases h
  | ok W => rw [he] at h; exact congrArg Except.ok (Option.some.inj (eq_of_beq h))

/-- A program that works on the document's container: it reads, writes, writes for the items of the list, fails and goes
on; variable 0 is the document. -/
def program : List Cmd :=
  [.wrap 0, .scalar (.prim (.str "b".toList)), .set 1 (name "userName") 2, .get 1 (name "emails"), .item 4 0,
    .list [2, 2, 2], .set 1 (name "emails" "value") 6, .set 1 (name "userName" "x") 2, .toDict 1,
    .del 1 (name "name")]

theorem program_careful : Careful (· < 4) 9 { mem := mem0, vars := [doc] } program := by
  refine ⟨trivial, trivial, ?_, trivial, trivial, trivial, ?_, ?_, trivial, trivial, trivial⟩
  · rintro ⟨q, e, -⟩
    have : HVal.atom (.prim (.str "b".toList)) = .list q := e
    cases this
  · rintro ⟨q, e, h⟩
    have hq : q = 8 := by
      have : HVal.list 8 = .list q := e
      cases this; rfl
    subst hq
    rcases h with h | ⟨r, -, h⟩
    · exact absurd h (by decide)
    · have : HVal.list r ∈ [HVal.atom (.prim (.str "b".toList)), .atom (.prim (.str "b".toList)),
        .atom (.prim (.str "b".toList))] := h
      simp at this
  · rintro ⟨q, e, -⟩
    have : HVal.atom (.prim (.str "b".toList)) = .list q := e
    cases this

example : (State.run 9 { mem := mem0, vars := [doc] } program).mem.take 4 = mem0 := by decide +kernel

/-! ### Where sharing shows -/

/-- A container, and a list with one container in it that is written to it. -/
def shared : State := State.run 9 { mem := [], vars := [] }
  [.dict [], .wrap 0, .dict [], .wrap 2, .list [3], .set 1 (name "emails") 4,
    .scalar (.prim (.str "a".toList)), .scalar (.prim (.str "b".toList)), .list [6, 7]]

/-- **C108** A list that the caller hands over is not copied: a later write to the container extends the caller's list. -/
theorem C108_list_handed_over : (shared.mem.items 4).length = 1 ∧ shared.var 4 = .list 4 ∧
    ((shared.step 9 (.set 1 (name "emails" "value") 8)).mem.items 4).length = 2 := by decide +kernel

/-- **C108** What reading hands out is the part itself: what is written to it is seen in the container. -/
theorem C108_live : (State.run 9 { mem := [], vars := [] }
    [.dict [], .dict [("name".toList, 0)], .wrap 1, .get 2 (name "name"), .scalar (.prim (.str "B".toList)),
      .set 3 (name "givenName") 4, .get 2 (name "name" "givenName")]).var 6 = .atom (.prim (.str "B".toList)) := by
  decide +kernel

/-- **C108** A container made from a container is not a copy: it has the same two dictionaries, and what is written to one
is written to both (a reference to a container stands for its two dictionaries). -/
theorem C108_same (n : Nat) (m : Mem) (r : Nat) : newCont (n + 1) m (.cont r) = (m, .ok (.cont r)) := rfl

/-- **C108** A list inside a list stays shared between the document and the container built from it. -/
theorem C108_inner_list :
    let s := State.run 9 { mem := [], vars := [] }
      [.list [], .list [0], .dict [("a".toList, 1)], .wrap 2, .get 3 (name "a"), .item 4 0]
    s.var 5 = s.var 0 ∧ s.var 0 = .list 0 ∧ s.var 4 ≠ s.var 1 := by decide +kernel

end Scim.Examples.ContainerHeap
