import Verif.Spec.Sorter
import Verif.Props.Operator

/-! Lemmas about sorting. -/

namespace Scim

/-! ## Orders -/

theorem NumLe.trans {x y z : PyFloat} (h : NumLe x y) (h' : NumLe y z) : NumLe x z := by
  rcases x with x | (_|_) | _ <;> rcases y with y | (_|_) | _ <;> rcases z with z | (_|_) | _ <;>
    simp_all [NumLe]
  exact Rat.le_trans h h'

theorem num_lt_false {x y : PyFloat} (hx : x ≠ .nan) (hy : y ≠ .nan) : x.lt y = false ↔ NumLe y x := by
  rcases x with x | (_|_) | _ <;> rcases y with y | (_|_) | _ <;> simp_all [NumLe, PyFloat.lt]
  exact Rat.not_lt

theorem num_total {x y : PyFloat} (hx : x ≠ .nan) (hy : y ≠ .nan) : NumLe x y ∨ NumLe y x := by
  rcases x with x | (_|_) | _ <;> rcases y with y | (_|_) | _ <;> simp_all [NumLe]
  exact Rat.le_total

theorem NumLe.ne_nan {x y : PyFloat} (h : NumLe x y) : x ≠ .nan ∧ y ≠ .nan := by
  rcases x with x | (_|_) | _ <;> rcases y with y | (_|_) | _ <;> simp_all [NumLe]

theorem CodeLe.trans {s t u : Str} (h : CodeLe s t) (h' : CodeLe t u) : CodeLe s u := by
  simp only [CodeLe, List.not_lt] at *
  exact List.le_trans h h'

theorem CodeLe.total (s t : Str) : CodeLe s t ∨ CodeLe t s := by
  simp only [CodeLe, List.not_lt]
  exact List.le_total _ _

theorem strLt_false (s t : Str) : strLt s t = false ↔ CodeLe t s := by
  rw [← Bool.not_eq_true, strLt_iff]; rfl

theorem DateLe.trans {a b c : DateTime} (h : DateLe a b) (h' : DateLe b c) : DateLe a c := by
  unfold DateLe at *
  rcases ha : a.off <;> rcases hb : b.off <;> rcases hc : c.off <;> simp_all
  · omega
  · omega

theorem date_lt {a b : DateTime} {r : Bool} (h : a.pyLt b = .ok r) :
    (r = true → DateLe a b ∧ ¬ DateLe b a) ∧ (r = false → DateLe b a) := by
  unfold DateTime.pyLt at h
  unfold DateLe
  rcases ha : a.off <;> rcases hb : b.off <;> simp_all
  · subst h; simp; omega
  · subst h; simp; omega

theorem date_lt_of_le {a b : DateTime} (h : DateLe a b) : b.pyLt a = .ok false := by
  unfold DateLe at h
  unfold DateTime.pyLt
  rcases ha : a.off <;> rcases hb : b.off <;> simp_all

section
variable [PyEnv]

theorem SortKey.Plain.num {c : Bool} {p : Prim} (h : SortKey.Plain c (.val (.prim p))) {x : PyFloat}
    (hx : p.num? = some x) : x ≠ .nan := by
  rintro rfl
  cases p <;> simp [Prim.num?] at hx
  subst hx
  simp [SortKey.Plain] at h

theorem KeyLe.trans {c : Bool} {a b d : SortKey} (ha : a.Plain c) (hb : b.Plain c) (hd : d.Plain c)
    (h : KeyLe a b) (h' : KeyLe b d) : KeyLe a d := by
  cases d with
  | last => cases a <;> exact True.intro
  | str s e =>
    cases b with
    | last => simp [KeyLe] at h'
    | val v => cases v <;> simp [KeyLe] at h'
    | str t f =>
      cases a with
      | last => simp [KeyLe] at h
      | val v => cases v <;> simp [KeyLe] at h
      | str u g =>
        simp only [SortKey.Plain] at ha hb hd
        subst ha hb hd
        simp only [KeyLe] at *
        cases e <;> simp at * <;> exact CodeLe.trans h h'
  | val v =>
    cases b with
    | last => cases v <;> simp [KeyLe] at h'
    | str t f => cases v <;> simp [KeyLe] at h'
    | val w =>
      cases a with
      | last => cases w <;> simp [KeyLe] at h
      | str t f => cases w <;> simp [KeyLe] at h
      | val u =>
        cases v <;> cases w <;> simp only [KeyLe] at h' <;> cases u <;> simp only [KeyLe] at h
        · obtain ⟨x, y, hx, hy, hxy⟩ := h
          obtain ⟨y', z, hy', hz, hyz⟩ := h'
          rw [hy] at hy'; injection hy' with hy'; subst hy'
          exact ⟨x, z, hx, hz, hxy.trans hyz⟩
        · exact h.trans h'

theorem key_lt {c : Bool} {a b : SortKey} (ha : a.Plain c) (hb : b.Plain c) {r : Bool} (h : a.lt b = .ok r) :
    (r = true → KeyLe a b ∧ ¬ KeyLe b a) ∧ (r = false → KeyLe b a) := by
  cases a with
  | last => cases b <;> simp_all [SortKey.lt, KeyLe]
  | str s e =>
    cases b with
    | last => simp_all [SortKey.lt, KeyLe]
    | val v => simp [SortKey.lt] at h
    | str t f =>
      simp only [SortKey.Plain] at ha hb
      subst ha hb
      simp only [SortKey.lt, KeyLe] at *
      injection h with h
      subst h
      cases f <;> simp only [Bool.or_self, if_true, Bool.false_eq_true, if_false]
      · rw [strLt_false, strLt_iff]
        refine ⟨fun hl => ⟨?_, ?_⟩, fun hf => hf⟩
        · rcases CodeLe.total (lower s) (lower t) with h | h
          · exact h
          · exact absurd hl h
        · exact fun hh => hh hl
      · rw [strLt_false, strLt_iff]
        refine ⟨fun hl => ⟨?_, ?_⟩, fun hf => hf⟩
        · rcases CodeLe.total s t with h | h
          · exact h
          · exact absurd hl h
        · exact fun hh => hh hl
  | val v =>
    cases b with
    | last => cases v <;> simp_all [SortKey.lt, KeyLe]
    | str t f => simp [SortKey.lt] at h
    | val w =>
      simp only [SortKey.lt] at h
      cases v <;> cases w <;> simp only [Val.pyLt, reduceCtorEq] at h
      · rename_i p q
        have hnum : ∃ x y, p.num? = some x ∧ q.num? = some y ∧ x.lt y = r := by
          unfold Prim.pyLt at h
          split at h
          · simp [SortKey.Plain] at ha
          · split at h
            · injection h with h
              exact ⟨_, _, by assumption, by assumption, h⟩
            · simp at h
        obtain ⟨x, y, hx, hy, hr⟩ := hnum
        have nx := ha.num hx
        have ny := hb.num hy
        subst hr
        constructor
        · intro ht
          have nle : ¬ NumLe y x := by rw [← num_lt_false nx ny, ht]; simp
          refine ⟨⟨x, y, hx, hy, (num_total nx ny).resolve_right nle⟩, ?_⟩
          rintro ⟨y', x', hy', hx', hle⟩
          rw [hy] at hy'; rw [hx] at hx'
          injection hy' with hy'; injection hx' with hx'
          subst hy' hx'
          exact nle hle
        · intro hf
          exact ⟨y, x, hy, hx, (num_lt_false nx ny).mp hf⟩
      · simp [SortKey.Plain] at ha
      · exact date_lt h

theorem key_lt_of_le {c : Bool} {a b : SortKey} (ha : a.Plain c) (hb : b.Plain c) (h : KeyLe a b) :
    b.lt a = .ok false := by
  cases b with
  | last => cases a <;> rfl
  | str t f =>
    cases a with
    | last => simp [KeyLe] at h
    | val v => cases v <;> simp [KeyLe] at h
    | str s e =>
      simp only [SortKey.Plain] at ha hb
      subst ha hb
      simp only [KeyLe, SortKey.lt] at *
      cases f <;> simp at * <;> rw [strLt_false] <;> exact h
  | val w =>
    cases a with
    | last => cases w <;> simp [KeyLe] at h
    | str t f => cases w <;> simp [KeyLe] at h
    | val v =>
      simp only [SortKey.lt]
      cases v <;> cases w <;> simp only [KeyLe] at h
      · rename_i p q
        obtain ⟨x, y, hx, hy, hle⟩ := h
        simp only [Val.pyLt]
        unfold Prim.pyLt
        split
        · simp [SortKey.Plain] at hb
        · rw [hx, hy]
          simp only []
          rw [(num_lt_false hle.ne_nan.2 hle.ne_nan.1).mpr hle]
      · exact date_lt_of_le h

/-- Two keys that are ordered one way or the other can be compared. -/
theorem key_lt_ok {c : Bool} {a b : SortKey} (ha : a.Plain c) (hb : b.Plain c) (h : KeyLe a b ∨ KeyLe b a) :
    ∃ r, a.lt b = .ok r := by
  cases a with
  | last => exact ⟨_, rfl⟩
  | str s e =>
    cases b with
    | last => exact ⟨_, rfl⟩
    | str t f => exact ⟨_, rfl⟩
    | val v => cases v <;> simp [KeyLe] at h
  | val v =>
    cases b with
    | last => exact ⟨_, rfl⟩
    | str t f => cases v <;> simp [KeyLe] at h
    | val w =>
      rcases h with h | h
      · cases v <;> cases w <;> simp only [KeyLe] at h
        · rename_i p q
          obtain ⟨x, y, hx, hy, -⟩ := h
          simp only [SortKey.lt, Val.pyLt]
          unfold Prim.pyLt
          split
          · exact ⟨_, rfl⟩
          · rw [hx, hy]; exact ⟨_, rfl⟩
        · rename_i a b
          simp only [SortKey.lt, Val.pyLt]
          unfold DateLe at h
          unfold DateTime.pyLt
          rcases ha : a.off <;> rcases hb : b.off <;> simp_all
      · exact ⟨_, key_lt_of_le hb ha h⟩

/-! ## The sort -/

variable {c : Bool}

/-- All keys are plain. -/
def AllPlain (c : Bool) (l : List (SortKey × Nat)) : Prop := ∀ p ∈ l, p.1.Plain c

theorem insertKey_perm {p : SortKey × Nat} {l r : List (SortKey × Nat)} (h : insertKey p l = .ok r) :
    r.Perm (p :: l) := by
  induction l generalizing r with
  | nil => simp only [insertKey, Except.ok.injEq] at h; subst h; exact .refl _
  | cons e l ih =>
    simp only [insertKey] at h
    split at h
    · simp at h
    · injection h with h; subst h; exact .refl _
    · split at h
      · simp at h
      · rename_i r' hr
        injection h with h; subst h
        exact ((ih hr).cons e).trans (.swap _ _ _)

theorem sortKeys_perm {ps acc r : List (SortKey × Nat)} (h : sortKeys acc ps = .ok r) : r.Perm (acc ++ ps) := by
  induction ps generalizing acc with
  | nil => simp only [sortKeys, Except.ok.injEq] at h; subst h; simp
  | cons p ps ih =>
    simp only [sortKeys] at h
    split at h
    · simp at h
    · rename_i acc' ha
      refine (ih h).trans ?_
      refine ((insertKey_perm ha).append_right ps).trans ?_
      exact List.perm_middle.symm

/-- `p` stands before `q` in the result, `T` being the order of the input. -/
def StableLe (T : Nat → Nat → Prop) (p q : SortKey × Nat) : Prop :=
  KeyLe p.1 q.1 ∧ (KeyLe q.1 p.1 → T p.2 q.2)

theorem insertKey_sorted {T : Nat → Nat → Prop} {p : SortKey × Nat} {l r : List (SortKey × Nat)}
    (hp : p.1.Plain c) (hl : AllPlain c l) (hT : ∀ e ∈ l, T e.2 p.2) (hs : l.Pairwise (StableLe T))
    (h : insertKey p l = .ok r) : r.Pairwise (StableLe T) := by
  induction l generalizing r with
  | nil => simp only [insertKey, Except.ok.injEq] at h; subst h; simp
  | cons e l ih =>
    have he := hl e (List.mem_cons_self ..)
    rw [List.pairwise_cons] at hs
    simp only [insertKey] at h
    split at h
    · simp at h
    · rename_i hlt
      injection h with h; subst h
      have hk := (key_lt hp he hlt).1 rfl
      rw [List.pairwise_cons, List.pairwise_cons]
      refine ⟨?_, hs⟩
      intro x hx
      rcases List.mem_cons.mp hx with rfl | hx
      · exact ⟨hk.1, fun hh => absurd hh hk.2⟩
      · have hex := (hs.1 x hx).1
        have hxp := hl x (List.mem_cons_of_mem _ hx)
        exact ⟨hk.1.trans hp he hxp hex, fun hh => absurd (hex.trans he hxp hp hh) hk.2⟩
    · rename_i hlt
      have hk := (key_lt hp he hlt).2 rfl
      split at h
      · simp at h
      · rename_i r' hr
        injection h with h; subst h
        rw [List.pairwise_cons]
        refine ⟨?_, ih (fun x hx => hl x (List.mem_cons_of_mem _ hx))
          (fun x hx => hT x (List.mem_cons_of_mem _ hx)) hs.2 hr⟩
        intro x hx
        rcases List.mem_cons.mp ((insertKey_perm hr).mem_iff.mp hx) with rfl | hx
        · exact ⟨hk, fun _ => hT e (List.mem_cons_self ..)⟩
        · exact hs.1 x hx

theorem sortKeys_sorted {T : Nat → Nat → Prop} {ps acc r : List (SortKey × Nat)}
    (hp : AllPlain c ps) (ha : AllPlain c acc) (hT : ∀ e ∈ acc, ∀ p ∈ ps, T e.2 p.2)
    (hpT : ps.Pairwise (fun p q => T p.2 q.2)) (hs : acc.Pairwise (StableLe T))
    (h : sortKeys acc ps = .ok r) : r.Pairwise (StableLe T) := by
  induction ps generalizing acc with
  | nil => simp only [sortKeys, Except.ok.injEq] at h; subst h; exact hs
  | cons p ps ih =>
    simp only [sortKeys] at h
    rw [List.pairwise_cons] at hpT
    split at h
    · simp at h
    · rename_i acc' hi
      have hpp := hp p (List.mem_cons_self ..)
      have hm := fun x => (insertKey_perm hi).mem_iff (a := x)
      refine ih (fun x hx => hp x (List.mem_cons_of_mem _ hx)) ?_ ?_ hpT.2
        (insertKey_sorted hpp ha (fun e he => hT e he p (List.mem_cons_self ..)) hs hi) h
      · intro x hx
        rcases List.mem_cons.mp ((hm x).mp hx) with rfl | hx
        · exact hpp
        · exact ha x hx
      · intro e he q hq
        rcases List.mem_cons.mp ((hm e).mp he) with rfl | he
        · exact hpT.1 q hq
        · exact hT e he q (List.mem_cons_of_mem _ hq)

/-- The relation between pairs in the result of `sorted`. -/
def PairBefore (asc : Bool) (p q : SortKey × Nat) : Prop :=
  if asc then KeyLe p.1 q.1 ∧ (KeyLe q.1 p.1 → p.2 < q.2)
  else KeyLe q.1 p.1 ∧ (KeyLe p.1 q.1 → p.2 < q.2)

theorem sortedPairs_spec {asc : Bool} {ps r : List (SortKey × Nat)} (hp : AllPlain c ps)
    (hpT : ps.Pairwise (fun p q => p.2 < q.2)) (h : sortedPairs (!asc) ps = .ok r) :
    r.Pairwise (PairBefore asc) := by
  unfold sortedPairs at h
  cases asc with
  | true =>
    simp only [Bool.not_true, Bool.false_eq_true, if_false] at h
    exact (sortKeys_sorted (T := (· < ·)) hp (by intro p hp; simp at hp) (by simp) hpT (by simp) h).imp
      (fun hh => by simpa only [PairBefore, if_true, StableLe] using hh)
  | false =>
    simp only [Bool.not_false, if_true] at h
    split at h
    · simp at h
    · rename_i r' hr
      injection h with h; subst h
      have := sortKeys_sorted (c := c) (T := (· > ·)) (fun p hq => hp p (by simpa using hq))
        (by intro p hp; simp at hp) (by simp) (by rw [List.pairwise_reverse]; exact hpT) (by simp) hr
      rw [List.pairwise_reverse]
      exact this.imp (fun hh => by simpa only [PairBefore, Bool.false_eq_true, if_false, StableLe] using hh)

theorem sortedPairs_perm {rv : Bool} {ps r : List (SortKey × Nat)} (h : sortedPairs rv ps = .ok r) : r.Perm ps := by
  unfold sortedPairs at h
  split at h
  · split at h
    · simp at h
    · rename_i r' hr
      injection h with h; subst h
      exact (List.reverse_perm _).trans ((sortKeys_perm hr).trans (List.reverse_perm _))
  · exact sortKeys_perm h

/-! ### Sorting sorted keys, and totality -/

theorem insertKey_last {p : SortKey × Nat} {l : List (SortKey × Nat)} (hp : p.1.Plain c) (hl : AllPlain c l)
    (h : ∀ e ∈ l, KeyLe e.1 p.1) : insertKey p l = .ok (l ++ [p]) := by
  induction l with
  | nil => rfl
  | cons e l ih =>
    have he := hl e (List.mem_cons_self ..)
    simp only [insertKey]
    rw [key_lt_of_le he hp (h e (List.mem_cons_self ..))]
    simp only [ih (fun x hx => hl x (List.mem_cons_of_mem _ hx)) (fun x hx => h x (List.mem_cons_of_mem _ hx)),
      List.cons_append]

theorem sortKeys_of_sorted {ps acc : List (SortKey × Nat)} (hp : AllPlain c (acc ++ ps))
    (h : (acc ++ ps).Pairwise (fun p q => KeyLe p.1 q.1)) : sortKeys acc ps = .ok (acc ++ ps) := by
  induction ps generalizing acc with
  | nil => simp [sortKeys]
  | cons p ps ih =>
    simp only [sortKeys]
    rw [List.pairwise_append] at h
    rw [insertKey_last (c := c) (hp p (by simp)) (fun x hx => hp x (by simp [hx]))
      (fun e he => h.2.2 e he p (List.mem_cons_self ..))]
    simp only []
    have e : acc ++ p :: ps = (acc ++ [p]) ++ ps := by simp
    rw [e] at hp ⊢
    refine ih hp ?_
    rw [← e, List.pairwise_append]
    exact h

theorem sortedPairs_of_sorted {asc : Bool} {ps : List (SortKey × Nat)} (hp : AllPlain c ps)
    (h : ps.Pairwise (fun p q => if asc then KeyLe p.1 q.1 else KeyLe q.1 p.1)) :
    sortedPairs (!asc) ps = .ok ps := by
  unfold sortedPairs
  cases asc with
  | true =>
    simp only [Bool.not_true, Bool.false_eq_true, if_false]
    exact sortKeys_of_sorted (c := c) (acc := []) (by simpa using hp) (by simpa using h)
  | false =>
    simp only [Bool.not_false, if_true]
    rw [sortKeys_of_sorted (c := c) (acc := []) (by intro p hq; exact hp p (by simpa using hq))
      (by simp only [List.nil_append]; rw [List.pairwise_reverse]; simpa using h)]
    simp

theorem insertKey_ok {p : SortKey × Nat} {l : List (SortKey × Nat)} (h : ∀ e ∈ l, ∃ r, p.1.lt e.1 = .ok r) :
    ∃ r, insertKey p l = .ok r := by
  induction l with
  | nil => exact ⟨_, rfl⟩
  | cons e l ih =>
    obtain ⟨r, hr⟩ := h e (List.mem_cons_self ..)
    obtain ⟨l', hl'⟩ := ih (fun x hx => h x (List.mem_cons_of_mem _ hx))
    simp only [insertKey, hr, hl']
    cases r <;> exact ⟨_, rfl⟩

theorem sortKeys_ok {ps acc : List (SortKey × Nat)}
    (h : ∀ p ∈ acc ++ ps, ∀ q ∈ acc ++ ps, ∃ r, p.1.lt q.1 = .ok r) : ∃ r, sortKeys acc ps = .ok r := by
  induction ps generalizing acc with
  | nil => exact ⟨_, rfl⟩
  | cons p ps ih =>
    obtain ⟨acc', ha⟩ := insertKey_ok (p := p) (l := acc) (fun e he => h p (by simp) e (by simp [he]))
    simp only [sortKeys, ha]
    have hm := fun x => (insertKey_perm ha).mem_iff (a := x)
    refine ih (fun x hx y hy => h x ?_ y ?_)
    · rw [List.mem_append, hm] at hx
      simp only [List.mem_cons, List.mem_append] at hx ⊢
      grind
    · rw [List.mem_append, hm] at hy
      simp only [List.mem_cons, List.mem_append] at hy ⊢
      grind

theorem sortedPairs_ok {rv : Bool} {ps : List (SortKey × Nat)}
    (h : ∀ p ∈ ps, ∀ q ∈ ps, ∃ r, p.1.lt q.1 = .ok r) : ∃ r, sortedPairs rv ps = .ok r := by
  unfold sortedPairs
  cases rv with
  | true =>
    obtain ⟨r, hr⟩ := sortKeys_ok (ps := ps.reverse) (acc := [])
      (fun p hp q hq => h p (by simpa using hp) q (by simpa using hq))
    simp only [if_true, hr]
    exact ⟨_, rfl⟩
  | false =>
    simp only [Bool.false_eq_true, if_false]
    exact sortKeys_ok (by simpa using h)

/-! ### The keys -/

theorem keysFrom_spec {key : Nat → Val → PyM SortKey} {i : Nat} {xs : List Val} {ks : List (SortKey × Nat)}
    (h : keysFrom key i xs = .ok ks) :
    ks.map (·.2) = List.range' i xs.length ∧
      ∀ j x, xs[j]? = some x → ∃ k, key (i + j) x = .ok k ∧ ks[j]? = some (k, i + j) := by
  induction xs generalizing i ks with
  | nil => simp only [keysFrom, Except.ok.injEq] at h; subst h; simp
  | cons x xs ih =>
    simp only [keysFrom] at h
    split at h
    · simp at h
    · rename_i k hk
      split at h
      · simp at h
      · rename_i ks' hks
        injection h with h; subst h
        obtain ⟨h1, h2⟩ := ih hks
        refine ⟨by simp [h1, List.range'_succ], ?_⟩
        intro j y hy
        cases j with
        | zero => simp only [List.getElem?_cons_zero, Option.some.injEq] at hy; subst hy; exact ⟨k, hk, rfl⟩
        | succ j =>
          obtain ⟨k', hk', hkj⟩ := h2 j y (by simpa using hy)
          have e : i + 1 + j = i + (j + 1) := by omega
          rw [e] at hk' hkj
          exact ⟨k', hk', by simpa using hkj⟩

theorem keysFrom_ok {key : Nat → Val → PyM SortKey} {k : Nat → SortKey} {i : Nat} {xs : List Val}
    (h : ∀ j x, xs[j]? = some x → key (i + j) x = .ok (k (i + j))) :
    keysFrom key i xs = .ok ((List.range' i xs.length).map (fun j => (k j, j))) := by
  induction xs generalizing i with
  | nil => rfl
  | cons x xs ih =>
    simp only [keysFrom]
    rw [show key i x = .ok (k i) from h 0 x rfl]
    simp only []
    rw [ih (fun j y hy => by have := h (j + 1) y (by simpa using hy); rwa [show i + (j + 1) = i + 1 + j by omega] at this)]
    simp [List.range'_succ]

theorem anyValue_false {rep : AttrRep} {xs : List Val} (h : anyValue rep xs = .ok false) :
    ∀ x ∈ xs, ∃ v, x.getItem rep = .ok v ∧ v.truthy = false := by
  induction xs with
  | nil => simp
  | cons x xs ih =>
    simp only [anyValue] at h
    split at h
    · simp at h
    · rename_i v hv
      split at h
      · simp at h
      · intro y hy
        rcases List.mem_cons.mp hy with rfl | hy
        · exact ⟨v, hv, by simpa using ‹¬ v.truthy = true›⟩
        · exact ih h y hy

theorem anyValue_of_false {rep : AttrRep} {xs : List Val} 
    (h : ∀ x ∈ xs, ∃ v, x.getItem rep = .ok v ∧ v.truthy = false) : anyValue rep xs = .ok false := by
  induction xs with
  | nil => rfl
  | cons x xs ih =>
    obtain ⟨v, hv, ht⟩ := h x (List.mem_cons_self ..)
    simp [anyValue, hv, ht, ih (fun y hy => h y (List.mem_cons_of_mem _ hy))]

theorem sortKeyOf_falsy {v : Val} {a : Option AttrInfo} (h : v.truthy = false) : sortKeyOf v a = .last := by
  cases a <;> simp [sortKeyOf, h]

theorem sortValue_falsy {a : Attr} {x v : Val} {i : Option AttrInfo} (h : x.truthy = false)
    (hs : sortValue a x = .ok (v, i)) : v.truthy = false := by
  unfold sortValue at hs
  split at hs
  · cases a with
    | simple inf =>
      simp only [] at hs
      have : ∀ w, x.first ≠ .ok w := by
        intro w hw
        rcases x with (_ | _ | _ | _ | (_ | _)) | _ | _ | (_ | _) | _ | _ | _ | _ <;>
          simp_all [Val.first, Val.truthy]
      split at hs
      · simp at hs
      · exact absurd ‹_› (this _)
    | complex inf subs _ _ =>
      simp only [] at hs
      split at hs
      · simp at hs
      · rename_i items hit
        have : items = [] := by
          rcases x with (_ | _ | _ | _ | (_ | _)) | _ | _ | (_ | _) | (_ | _) | _ | _ | _ <;>
            simp_all [Val.iterate, Val.truthy]
        subst this
        simp only [primaryKey, Except.ok.injEq, Prod.mk.injEq] at hs
        rw [← hs.1]; rfl
  · simp only [Except.ok.injEq, Prod.mk.injEq] at hs
    rw [← hs.1]; exact h

theorem sortKey_falsy {rep : AttrRep} {s : Schema} {x v : Val} {k : SortKey} (hx : x.getItem rep = .ok v)
    (hv : v.truthy = false) (h : sortKey rep s x = .ok k) : k = .last := by
  unfold sortKey at h
  split at h
  · injection h with h; exact h.symm
  · rw [hx] at h
    simp only [] at h
    split at h
    · simp at h
    · rename_i w a hs
      injection h with h
      rw [← h]
      exact sortKeyOf_falsy (sortValue_falsy hv hs)

theorem schemasKey_falsy {rep : AttrRep} {ss : SortSchemas} {data : List Val} {i : Nat} {x v : Val} {k : SortKey}
    (hx : x.getItem rep = .ok v) (hv : v.truthy = false) (h : ss.key rep data i x = .ok k) : k = .last := by
  unfold SortSchemas.key at h
  split at h
  · exact sortKey_falsy hx hv h
  · split at h
    · exact sortKey_falsy hx hv h
    · split at h
      · simp at h
      · split at h
        · simp at h
        · split at h
          · simp at h
          · simp at h
          · split at h
            · simp at h
            · exact sortKey_falsy hx hv h

end
end Scim
