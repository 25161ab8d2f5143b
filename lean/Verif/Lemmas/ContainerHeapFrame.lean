import Verif.Spec.ContainerHeap
import Verif.Lemmas.Assoc

/-!
# Which objects container operations change
-/

namespace Scim.Shared
variable [PyEnv]

/-! ## Operations that only add objects -/

theorem andThen_prefix {α β : Type} {m : Mem} {out : Mem × PyM α} {k : Mem → α → Mem × PyM β}
    (h1 : m <+: out.1) (h2 : ∀ m1 x, m <+: m1 → m1 <+: (k m1 x).1) : m <+: (andThen out k).1 := by
  unfold andThen
  split
  · exact h1.trans (h2 _ _ h1)
  · exact h1

theorem mapM_prefix {α β : Type} {f : Mem → α → Mem × PyM β} (hf : ∀ m x, m <+: (f m x).1) :
    ∀ (xs : List α) (m : Mem), m <+: (mapM f m xs).1
  | [], m => List.prefix_refl m
  | x :: xs, m => andThen_prefix (hf m x) fun m1 _ _ =>
      andThen_prefix (mapM_prefix hf xs m1) fun _ _ _ => List.prefix_refl _

theorem onEntry_prefix {f : Mem → HVal → Mem × PyM HVal} (hf : ∀ m x, m <+: (f m x).1) (m : Mem)
    (p : Str × HVal) : m <+: (onEntry f m p).1 :=
  andThen_prefix (hf m p.2) fun _ _ _ => List.prefix_refl _

theorem convVal_prefix {f : Mem → HVal → Mem × PyM HVal} (hf : ∀ m x, m <+: (f m x).1) (m : Mem)
    (v : HVal) : m <+: (convVal f m v).1 := by
  unfold convVal
  split
  · exact hf _ _
  · refine andThen_prefix (mapM_prefix ?_ _ _) fun _ _ _ => List.prefix_append _ _
    intro m x
    unfold convItem
    split
    · exact hf _ _
    · exact List.prefix_refl _
  · exact List.prefix_refl _

theorem newCont_prefix : ∀ (n : Nat) (m : Mem) (v : HVal), m <+: (newCont n m v).1
  | 0, m, v => List.prefix_refl m
  | n + 1, m, v => by
    cases v with
    | dict r =>
      exact andThen_prefix (mapM_prefix (onEntry_prefix (convVal_prefix (newCont_prefix n))) _ _)
        fun _ _ _ => List.prefix_append _ _
    | cont r => exact List.prefix_refl m
    | atom a => exact List.prefix_append _ _
    | list r => exact List.prefix_append _ _

theorem getX_prefix : ∀ (n : Nat) (b : Bool) (m : Mem) (v : HVal) (r : AttrRep), m <+: (getX n b m v r).1
  | 0, b, m, v, r => List.prefix_refl m
  | n + 1, b, m, v, r => by
    unfold getX
    cases v with
    | cont c =>
      dsimp only
      split
      · exact List.prefix_refl m
      · split
        · split
          · exact getX_prefix n _ _ _ _
          · exact List.prefix_refl m
        · split
          · exact List.prefix_refl m
          · split
            · split
              · exact List.prefix_refl m
              · exact getX_prefix n _ _ _ _
            · exact List.prefix_refl m
    | list q =>
      dsimp only
      split
      · split
        · exact List.prefix_refl m
        · exact andThen_prefix (mapM_prefix (fun m x => getX_prefix n _ m x r) _ _)
            fun _ _ _ => List.prefix_append _ _
      · exact List.prefix_refl m
    | atom a => dsimp only; split <;> exact List.prefix_refl m
    | dict q => dsimp only; split <;> exact List.prefix_refl m

theorem dictMember_prefix {f : Mem → HVal → Mem × PyM HVal} (hf : ∀ m x, m <+: (f m x).1) (m : Mem)
    (v : HVal) : m <+: (dictMember f m v).1 := by
  unfold dictMember
  split
  · exact hf _ _
  · exact List.prefix_refl _

theorem dictItem_prefix {f : Mem → HVal → Mem × PyM HVal} (hf : ∀ m x, m <+: (f m x).1) (m : Mem)
    (v : HVal) : m <+: (dictItem f m v).1 := by
  unfold dictItem
  split
  · exact hf _ _
  · exact andThen_prefix (mapM_prefix (onEntry_prefix (dictMember_prefix hf)) _ _)
      fun _ _ _ => List.prefix_append _ _
  · exact List.prefix_refl _

theorem dictVal_prefix {f : Mem → HVal → Mem × PyM HVal} (hf : ∀ m x, m <+: (f m x).1) (m : Mem)
    (v : HVal) : m <+: (dictVal f m v).1 := by
  unfold dictVal
  split
  · exact hf _ _
  · exact andThen_prefix (mapM_prefix (dictItem_prefix hf) _ _) fun _ _ _ => List.prefix_append _ _
  · exact List.prefix_refl _

theorem toDict_prefix : ∀ (n : Nat) (m : Mem) (v : HVal), m <+: (toDict n m v).1
  | 0, m, v => List.prefix_refl m
  | n + 1, m, v => by
    cases v with
    | cont r =>
      exact andThen_prefix (mapM_prefix (onEntry_prefix (dictVal_prefix (toDict_prefix n))) _ _)
        fun _ _ _ => List.prefix_append _ _
    | dict r => exact List.prefix_refl m
    | atom a => exact List.prefix_refl m
    | list r => exact List.prefix_refl m

/-! ## Guarded objects -/

/-- From `m` to `m'` no object in `S` changed, and `S` is guarded still. -/
def Kept (S : Nat → Prop) (m m' : Mem) : Prop :=
  Guarded S m' ∧ ∀ r, S r → m'[r]? = m[r]?

variable {S : Nat → Prop}

theorem Kept.refl {m : Mem} (h : Guarded S m) : Kept S m m := ⟨h, fun _ _ => rfl⟩

theorem Kept.trans {m m' m'' : Mem} (h : Kept S m m') (h' : Kept S m' m'') : Kept S m m'' :=
  ⟨h'.1, fun r hr => (h'.2 r hr).trans (h.2 r hr)⟩

theorem data_append_one {m : Mem} {c : Cell} (k : Nat) :
    Mem.data (m ++ [c]) k = if k < m.length then m.data k else
      if k = m.length then (match c with | .body d _ => d | _ => []) else [] := by
  unfold Mem.data
  by_cases h : k < m.length
  · rw [if_pos h, List.getElem?_append_left h]
  · rw [if_neg h]
    by_cases h' : k = m.length
    · subst h'
      rw [if_pos rfl, List.getElem?_append_right (Nat.le_refl _), Nat.sub_self]
      cases c <;> rfl
    · rw [if_neg h', List.getElem?_eq_none]
      rw [List.length_append]
      simp only [List.length_cons, List.length_nil]
      omega

/-- A new object is harmless unless it is a container that holds a list in `S`. -/
theorem Kept.push {m : Mem} (h : Guarded S m) (c : Cell)
    (hc : ∀ d l, c = .body d l → ∀ k r, S r → (k, HVal.list r) ∉ d) : Kept S m (m ++ [c]) := by
  have same : ∀ r, S r → (m ++ [c])[r]? = m[r]? := fun r hr => List.getElem?_append_left (h r hr).1
  refine ⟨fun r hr => ⟨?_, ?_, ?_⟩, same⟩
  · rw [List.length_append]; have := (h r hr).1; omega
  · rw [same r hr]; exact (h r hr).2.1
  · intro k key
    rw [data_append_one]
    split
    · exact (h r hr).2.2 k key
    · split
      · cases c with
        | body d l => exact hc d l rfl key r hr
        | list _ => exact List.not_mem_nil
        | dict _ => exact List.not_mem_nil
      · exact List.not_mem_nil

theorem Kept.pushAll {m : Mem} (h : Guarded S m) : ∀ (k : Nat),
    Kept S m (m ++ List.replicate k (.body [] []))
  | 0 => by rw [List.replicate_zero, List.append_nil]; exact Kept.refl h
  | k + 1 => by
    rw [List.replicate_succ', ← List.append_assoc]
    refine (Kept.pushAll h k).trans (Kept.push (Kept.pushAll h k).1 _ ?_)
    intro d l e key r _
    cases e
    exact List.not_mem_nil

theorem data_setBody {m : Mem} {c : Nat} {d : List (Str × HVal)} {l : List (Str × Str)} (k : Nat) :
    (m.setBody c d l).data k = m.data k ∨ (m.setBody c d l).data k = d := by
  unfold Mem.setBody
  split
  · unfold Mem.data
    rw [List.getElem?_set]
    by_cases hc : c = k
    · rw [if_pos hc]
      by_cases hl : c < m.length
      · rw [if_pos hl]; exact .inr rfl
      · rw [if_neg hl, ← hc, List.getElem?_eq_none (Nat.not_lt.mp hl)]; exact .inl rfl
    · rw [if_neg hc]; exact .inl rfl
  · exact .inl rfl

/-- Changing a container is harmless unless it then holds a list in `S`. -/
theorem Kept.body {m : Mem} (h : Guarded S m) (c : Nat) (d : List (Str × HVal)) (l : List (Str × Str))
    (hd : ∀ k r, S r → (k, HVal.list r) ∉ d) : Kept S m (m.setBody c d l) := by
  have same : ∀ r, S r → (m.setBody c d l)[r]? = m[r]? := by
    intro r hr
    unfold Mem.setBody
    split
    · rename_i hb
      rw [List.getElem?_set]
      by_cases hc : c = r
      · subst hc; exact absurd hb ((h c hr).2.1 _ _)
      · rw [if_neg hc]
    · rfl
  have len : (m.setBody c d l).length = m.length := by
    unfold Mem.setBody
    split
    · exact List.length_set
    · rfl
  refine ⟨fun r hr => ⟨by rw [len]; exact (h r hr).1, by rw [same r hr]; exact (h r hr).2.1, ?_⟩, same⟩
  intro k key
  rcases data_setBody (m := m) (c := c) (d := d) (l := l) k with e | e
  · rw [e]; exact (h r hr).2.2 k key
  · rw [e]; exact hd key r hr

/-- Changing a list outside `S` is harmless. -/
theorem Kept.list {m : Mem} (h : Guarded S m) (p : Nat) (xs : List HVal) (hp : ¬ S p) :
    Kept S m (m.setItems p xs) := by
  have same : ∀ r, S r → (m.setItems p xs)[r]? = m[r]? := by
    intro r hr
    unfold Mem.setItems
    split
    · rw [List.getElem?_set]
      by_cases hc : p = r
      · subst hc; exact absurd hr hp
      · rw [if_neg hc]
    · rfl
  have len : (m.setItems p xs).length = m.length := by
    unfold Mem.setItems
    split
    · exact List.length_set
    · rfl
  refine ⟨fun r hr => ⟨by rw [len]; exact (h r hr).1, by rw [same r hr]; exact (h r hr).2.1, ?_⟩, same⟩
  intro k key
  have : (m.setItems p xs).data k = m.data k := by
    unfold Mem.setItems
    split
    · rename_i hb
      unfold Mem.data
      rw [List.getElem?_set]
      by_cases hc : p = k
      · subst hc
        rw [if_pos rfl, hb]
        split <;> rename_i h'
        · split at h' <;> cases h'
        · rfl
      · rw [if_neg hc]
    · rfl
  rw [this]; exact (h r hr).2.2 k key

/-- Without containers in memory, everything is guarded. -/
theorem guarded_of_plain {m : Mem} (hm : ∀ c ∈ m, ∀ d l, c ≠ .body d l) (hS : ∀ r, S r → r < m.length) :
    Guarded S m := by
  have none : ∀ (r : Nat) d l, m[r]? ≠ some (.body d l) := fun r d l h => hm _ (List.mem_of_getElem? h) d l rfl
  refine fun r hr => ⟨hS r hr, none r, fun c k h => ?_⟩
  unfold Mem.data at h
  split at h
  · rename_i e; exact none _ _ _ e
  · exact absurd h List.not_mem_nil

/-! ### Construction -/

/-- A result that is not a list in `S`. -/
def Off (S : Nat → Prop) (v : HVal) : Prop := ∀ r, S r → v ≠ .list r

theorem andThen_kept {α β : Type} {m : Mem} {out : Mem × PyM α} {k : Mem → α → Mem × PyM β}
    {P : α → Prop} {Q : β → Prop} (h1 : Kept S m out.1 ∧ ∀ x, out.2 = .ok x → P x)
    (h2 : ∀ m1 x, Kept S m m1 → P x → Kept S m1 (k m1 x).1 ∧ ∀ y, (k m1 x).2 = .ok y → Q y) :
    Kept S m (andThen out k).1 ∧ ∀ y, (andThen out k).2 = .ok y → Q y := by
  unfold andThen
  split
  · rename_i x hx
    have := h2 out.1 x h1.1 (h1.2 x hx)
    exact ⟨h1.1.trans this.1, this.2⟩
  · exact ⟨h1.1, fun y hy => by cases hy⟩

theorem mapM_kept {α β : Type} {f : Mem → α → Mem × PyM β} {Q : β → Prop} : ∀ (xs : List α) (m : Mem),
    Guarded S m → (∀ m x, Guarded S m → Kept S m (f m x).1 ∧ ∀ y, (f m x).2 = .ok y → Q y) →
    Kept S m (mapM f m xs).1 ∧ ∀ ys, (mapM f m xs).2 = .ok ys → ∀ y ∈ ys, Q y
  | [], m, hg, _ => ⟨Kept.refl hg, fun ys hy => by cases hy; exact fun _ h => absurd h List.not_mem_nil⟩
  | x :: xs, m, hg, hf => by
    refine andThen_kept (hf m x hg) fun m1 y k1 qy => ?_
    refine andThen_kept (mapM_kept xs m1 k1.1 hf) fun m2 ys k2 qys => ⟨Kept.refl k2.1, ?_⟩
    intro zs hz
    cases hz
    intro z hz
    rcases List.mem_cons.mp hz with e | e
    · rw [e]; exact qy
    · exact qys z e

theorem newCont_kept : ∀ (n : Nat) (m : Mem) (v : HVal), Guarded S m →
    Kept S m (newCont n m v).1 ∧ ∀ y, (newCont n m v).2 = .ok y → Off S y
  | 0, m, v, hg => ⟨Kept.refl hg, fun y hy => by cases hy⟩
  | n + 1, m, v, hg => by
    have nil : ∀ (d : List (Str × HVal)) (l : List (Str × Str)),
        Cell.body [] [] = .body d l → ∀ k r, S r → (k, HVal.list r) ∉ d := by
      intro d l e k r _; cases e; exact List.not_mem_nil
    cases v with
    | cont r =>
      refine ⟨Kept.refl hg, fun y hy => ?_⟩
      cases hy; intro r _; exact nofun
    | atom a =>
      refine ⟨Kept.push hg _ nil, fun y hy => ?_⟩
      cases hy; intro r _; exact nofun
    | list a =>
      refine ⟨Kept.push hg _ nil, fun y hy => ?_⟩
      cases hy; intro r _; exact nofun
    | dict r =>
      have conv : ∀ m (p : Str × HVal), Guarded S m →
          Kept S m (onEntry (convVal (newCont n)) m p).1 ∧
          ∀ y, (onEntry (convVal (newCont n)) m p).2 = .ok y → Off S y.2 := by
        intro m p hg
        refine andThen_kept (P := Off S) ?_ fun m1 y k1 oy => ⟨Kept.refl k1.1, fun z hz => ?_⟩
        · unfold convVal
          split
          · exact newCont_kept n _ _ hg
          · refine andThen_kept (P := fun _ => True)
              ⟨(mapM_kept (Q := fun _ => True) _ _ hg ?_).1, fun _ _ => True.intro⟩ ?_
            · intro m x hg
              unfold convItem
              split
              · exact ⟨(newCont_kept n _ _ hg).1, fun _ _ => True.intro⟩
              · exact ⟨Kept.refl hg, fun _ _ => True.intro⟩
            · intro m1 xs k1 _
              refine ⟨Kept.push k1.1 _ (fun d l e => by cases e), fun y hy => ?_⟩
              cases hy
              intro r hr e
              cases e
              exact absurd (k1.1 _ hr).1 (Nat.lt_irrefl _)
          · rename_i v h1 h2
            refine ⟨Kept.refl hg, fun y hy => ?_⟩
            cases hy
            intro r _ e
            exact h2 r e
        · cases hz; exact oy
      refine andThen_kept (mapM_kept (m.entries r) m hg conv) fun m1 d k1 qd => ⟨?_, ?_⟩
      · refine Kept.push k1.1 _ ?_
        intro d' l e k r hr hm
        cases e
        exact qd _ hm r hr rfl
      · intro y hy; cases hy; intro r _; exact nofun

/-! ### Reading and conversion only add lists and dictionaries -/

/-- The new cells are lists and dictionaries. -/
def Plain (m m' : Mem) : Prop := m <+: m' ∧ ∀ (k : Nat) d l, m'[k]? = some (Cell.body d l) → m[k]? = some (Cell.body d l)

theorem Plain.refl (m : Mem) : Plain m m := ⟨List.prefix_refl m, fun _ _ _ h => h⟩

theorem Plain.trans {m m' m'' : Mem} (h : Plain m m') (h' : Plain m' m'') : Plain m m'' :=
  ⟨h.1.trans h'.1, fun k d l e => h.2 k d l (h'.2 k d l e)⟩

theorem Plain.push (m : Mem) (c : Cell) (hc : ∀ d l, c ≠ .body d l) : Plain m (m ++ [c]) := by
  refine ⟨List.prefix_append _ _, fun k d l e => ?_⟩
  by_cases h : k < m.length
  · rwa [List.getElem?_append_left h] at e
  · rw [List.getElem?_append_right (Nat.not_lt.mp h)] at e
    cases hk : k - m.length with
    | zero => rw [hk] at e; exact absurd (Option.some.inj e) (hc d l)
    | succ j => rw [hk] at e; cases e

theorem Plain.kept {m m' : Mem} (hg : Guarded S m) (h : Plain m m') : Kept S m m' := by
  have same : ∀ r, S r → m'[r]? = m[r]? := by
    intro r hr
    obtain ⟨t, ht⟩ := h.1
    rw [← ht, List.getElem?_append_left (hg r hr).1]
  refine ⟨fun r hr => ⟨Nat.lt_of_lt_of_le (hg r hr).1 h.1.length_le,
    by rw [same r hr]; exact (hg r hr).2.1, ?_⟩, same⟩
  intro k key hm
  unfold Mem.data at hm
  split at hm
  · rename_i d l e
    refine (hg r hr).2.2 k key ?_
    unfold Mem.data
    rw [h.2 k d l e]
    exact hm
  · exact absurd hm List.not_mem_nil

theorem andThen_plain {α β : Type} {m : Mem} {out : Mem × PyM α} {k : Mem → α → Mem × PyM β}
    (h1 : Plain m out.1) (h2 : ∀ m1 x, Plain m1 (k m1 x).1) : Plain m (andThen out k).1 := by
  unfold andThen
  split
  · exact h1.trans (h2 _ _)
  · exact h1

theorem mapM_plain {α β : Type} {f : Mem → α → Mem × PyM β} (hf : ∀ m x, Plain m (f m x).1) :
    ∀ (xs : List α) (m : Mem), Plain m (mapM f m xs).1
  | [], m => Plain.refl m
  | x :: xs, m => andThen_plain (hf m x) fun m1 _ =>
      andThen_plain (mapM_plain hf xs m1) fun _ _ => Plain.refl _

theorem getX_plain : ∀ (n : Nat) (b : Bool) (m : Mem) (v : HVal) (r : AttrRep), Plain m (getX n b m v r).1
  | 0, b, m, v, r => Plain.refl m
  | n + 1, b, m, v, r => by
    unfold getX
    cases v with
    | cont c =>
      dsimp only
      split
      · exact Plain.refl m
      · split
        · split
          · exact getX_plain n _ _ _ _
          · exact Plain.refl m
        · split
          · exact Plain.refl m
          · split
            · split
              · exact Plain.refl m
              · exact getX_plain n _ _ _ _
            · exact Plain.refl m
    | list q =>
      dsimp only
      split
      · split
        · exact Plain.refl m
        · exact andThen_plain (mapM_plain (fun m x => getX_plain n _ m x r) _ _)
            fun _ _ => Plain.push _ _ nofun
      · exact Plain.refl m
    | atom a => dsimp only; split <;> exact Plain.refl m
    | dict q => dsimp only; split <;> exact Plain.refl m

theorem onEntry_plain {f : Mem → HVal → Mem × PyM HVal} (hf : ∀ m x, Plain m (f m x).1) (m : Mem)
    (p : Str × HVal) : Plain m (onEntry f m p).1 :=
  andThen_plain (hf m p.2) fun _ _ => Plain.refl _

theorem dictVal_plain {f : Mem → HVal → Mem × PyM HVal} (hf : ∀ m x, Plain m (f m x).1) (m : Mem)
    (v : HVal) : Plain m (dictVal f m v).1 := by
  have member : ∀ m x, Plain m (dictMember f m x).1 := by
    intro m x
    unfold dictMember
    split
    · exact hf _ _
    · exact Plain.refl _
  have item : ∀ m x, Plain m (dictItem f m x).1 := by
    intro m x
    unfold dictItem
    split
    · exact hf _ _
    · exact andThen_plain (mapM_plain (onEntry_plain member) _ _) fun _ _ => Plain.push _ _ nofun
    · exact Plain.refl _
  unfold dictVal
  split
  · exact hf _ _
  · exact andThen_plain (mapM_plain item _ _) fun _ _ => Plain.push _ _ nofun
  · exact Plain.refl _

theorem toDict_plain : ∀ (n : Nat) (m : Mem) (v : HVal), Plain m (toDict n m v).1
  | 0, m, v => Plain.refl m
  | n + 1, m, v => by
    cases v with
    | cont r =>
      exact andThen_plain (mapM_plain (onEntry_plain (dictVal_plain (toDict_plain n))) _ _)
        fun _ _ => Plain.push _ _ nofun
    | dict r => exact Plain.refl m
    | atom a => exact Plain.refl m
    | list r => exact Plain.refl m

/-! ### Writing and deleting -/

theorem mem_aset {α : Type} {k : Str} {v : α} : ∀ {d : List (Str × α)} {p : Str × α},
    p ∈ aset k v d → p ∈ d ∨ p.2 = v
  | [], p, h => by
    rcases List.mem_cons.mp h with e | e
    · exact .inr (by rw [e])
    · exact absurd e List.not_mem_nil
  | (k', v') :: r, p, h => by
    unfold aset at h
    split at h
    · rcases List.mem_cons.mp h with e | e
      · exact .inr (by rw [e])
      · exact .inl (List.mem_cons_of_mem _ e)
    · rcases List.mem_cons.mp h with e | e
      · exact .inl (by rw [e]; exact List.mem_cons_self)
      · rcases mem_aset e with i | i
        · exact .inl (List.mem_cons_of_mem _ i)
        · exact .inr i

theorem mem_adel {α : Type} {k : Str} : ∀ {d : List (Str × α)} {p : Str × α}, p ∈ adel k d → p ∈ d
  | [], p, h => h
  | (k', v') :: r, p, h => by
    unfold adel at h
    split at h
    · exact List.mem_cons_of_mem _ h
    · rcases List.mem_cons.mp h with e | e
      · rw [e]; exact List.mem_cons_self
      · exact List.mem_cons_of_mem _ (mem_adel e)

theorem aset_off {m : Mem} (hg : Guarded S m) {c : Nat} {a : Str} {x : HVal} (hx : Off S x) :
    ∀ k r, S r → (k, HVal.list r) ∉ aset a x (m.data c) := by
  intro k r hr hm
  rcases mem_aset hm with h | h
  · exact (hg r hr).2.2 c k h
  · exact hx r hr h.symm

theorem setPlain_kept {m : Mem} (hg : Guarded S m) (v : HVal) (a : Str) {x : HVal} (hx : Off S x) :
    Kept S m (setPlain m v a x).1 := by
  unfold setPlain
  split
  · exact Kept.body hg _ _ _ (aset_off hg hx)
  · exact Kept.refl hg

theorem zipSet_kept {sub : Str} : ∀ (vs cs : List HVal) (m : Mem), Guarded S m → (∀ v ∈ vs, Off S v) →
    Kept S m (zipSet sub m vs cs).1
  | [], cs, m, hg, _ => by unfold zipSet; exact Kept.refl hg
  | v :: vs, [], m, hg, _ => by unfold zipSet; exact Kept.refl hg
  | v :: vs, c :: cs, m, hg, hv => by
    have tl : ∀ v ∈ vs, Off S v := fun v h => hv v (List.mem_cons_of_mem _ h)
    unfold zipSet
    split
    · exact zipSet_kept vs cs m hg tl
    · split
      · exact Kept.refl hg
      · unfold andThen
        have k1 := setPlain_kept hg c sub (hv v List.mem_cons_self)
        split
        · exact k1.trans (zipSet_kept vs cs _ k1.1 tl)
        · exact k1

theorem items_append {m : Mem} {t : List Cell} {q : Nat} (h : q < m.length) :
    Mem.items (m ++ t) q = m.items q := by
  unfold Mem.items
  rw [List.getElem?_append_left h]

theorem items_setItems {m : Mem} {p q : Nat} {xs : List HVal} :
    (m.setItems p xs).items q = m.items q ∨ (p = q ∧ (m.setItems p xs).items q = xs) := by
  unfold Mem.setItems
  split
  · rename_i hb
    unfold Mem.items
    rw [List.getElem?_set]
    by_cases hc : p = q
    · subst hc
      have hl : p < m.length := by
        rcases Nat.lt_or_ge p m.length with h | h
        · exact h
        · rw [List.getElem?_eq_none h] at hb; cases hb
      rw [if_pos rfl, if_pos hl]
      exact .inr ⟨rfl, rfl⟩
    · rw [if_neg hc]; exact .inl rfl
  · exact .inl rfl

theorem items_replicate {m : Mem} {k q : Nat} {d : List (Str × HVal)} {l : List (Str × Str)} :
    Mem.items (m ++ List.replicate k (.body d l)) q = m.items q := by
  by_cases h : q < m.length
  · exact items_append h
  · unfold Mem.items
    rw [List.getElem?_append_right (Nat.not_lt.mp h), List.getElem?_eq_none (Nat.not_lt.mp h),
      List.getElem?_replicate]
    split <;> rename_i h'
    · split at h' <;> cases h'
    · rfl

theorem extend_items {m : Mem} {p k q : Nat} {x : HVal} (h : x ∈ (extend m p k).items q) :
    x ∈ m.items q ∨ ∃ r, x = .cont r := by
  unfold extend at h
  split at h
  · exact .inl h
  · rcases items_setItems (m := m ++ List.replicate k (Cell.body [] [])) (p := p) (q := q)
      (xs := m.items p ++ (List.range k).map fun i => .cont (m.length + i)) with e | ⟨pq, e⟩
    · rw [e, items_replicate] at h; exact .inl h
    · rw [e] at h
      rcases List.mem_append.mp h with h | h
      · rw [← pq]; exact .inl h
      · obtain ⟨i, _, e⟩ := List.mem_map.mp h
        exact .inr ⟨_, e.symm⟩

theorem extend_kept {m : Mem} (hg : Guarded S m) {p k : Nat} (hp : ¬ S p) : Kept S m (extend m p k) := by
  unfold extend
  split
  · exact Kept.refl hg
  · exact (Kept.pushAll hg k).trans (Kept.list (Kept.pushAll hg k).1 _ _ hp)

/-- The lists in `S` are not handed over by writing `v`, in terms of references. -/
theorem off_of_careful {m : Mem} {v : HVal} (h : ¬ HandsOver S m v) :
    Off S v ∧ ∀ q, v = .list q → ∀ x ∈ m.items q, Off S x := by
  refine ⟨fun r hr e => h ⟨r, e, .inl hr⟩, fun q e x hx r hr e' => h ⟨q, e, .inr ⟨r, hr, ?_⟩⟩⟩
  rw [← e']; exact hx

theorem assignSub_kept {m : Mem} (hg : Guarded S m) {cur : HVal} (hc : Off S cur) (s : Str) {v : HVal}
    (hv : Off S v) (hi : ∀ q, v = .list q → ∀ x ∈ m.items q, Off S x) :
    Kept S m (assignSub m cur s v).1 := by
  unfold assignSub
  split
  · rename_i q
    split
    · rename_i p
      have k1 := extend_kept hg (k := (m.items q).length - (m.items p).length) (p := p)
        (fun h => hc p h rfl)
      refine k1.trans (zipSet_kept _ _ _ k1.1 ?_)
      intro x hx
      rcases extend_items hx with h | ⟨r, e⟩
      · exact hi q rfl x h
      · rw [e]; intro r _; exact nofun
    · exact Kept.refl hg
  · split
    · exact Kept.refl hg
    · exact setPlain_kept hg _ _ hv

theorem setBody_items {m : Mem} {c q : Nat} {d : List (Str × HVal)} {l : List (Str × Str)} :
    (m.setBody c d l).items q = m.items q := by
  unfold Mem.setBody
  split
  · rename_i hb
    unfold Mem.items
    rw [List.getElem?_set]
    by_cases hc : c = q
    · subst hc
      rw [if_pos rfl, hb]
      split <;> rename_i h'
      · split at h' <;> cases h'
      · rfl
    · rw [if_neg hc]
  · rfl

theorem items_push {m : Mem} {c : Cell} {q : Nat} {x : HVal} (h : x ∈ Mem.items (m ++ [c]) q) :
    x ∈ m.items q ∨ ∃ xs, c = .list xs ∧ x ∈ xs := by
  by_cases hl : q < m.length
  · rw [items_append hl] at h; exact .inl h
  · unfold Mem.items at h
    rw [List.getElem?_append_right (Nat.not_lt.mp hl)] at h
    cases hk : q - m.length with
    | zero =>
      rw [hk] at h
      cases c with
      | list xs => exact .inr ⟨xs, rfl, h⟩
      | dict _ => exact absurd h List.not_mem_nil
      | body _ _ => exact absurd h List.not_mem_nil
    | succ j => rw [hk] at h; exact absurd h List.not_mem_nil

theorem aget_mem {α : Type} {k : Str} {v : α} : ∀ {d : List (Str × α)}, aget k d = some v → (k, v) ∈ d
  | [], h => by cases h
  | (k', v') :: r, h => by
    unfold aget at h
    split at h
    · rename_i e; cases h; rw [e]; exact List.mem_cons_self
    · exact List.mem_cons_of_mem _ (aget_mem h)

theorem aget_off {m : Mem} (hg : Guarded S m) {c : Nat} {k : Str} {v : HVal}
    (h : aget k (m.data c) = some v) : Off S v :=
  fun r hr e => (hg r hr).2.2 c k (by rw [← e]; exact aget_mem h)

theorem setSub_kept {m : Mem} (hg : Guarded S m) (c : HVal) (a s : Str) {v : HVal} (hv : Off S v)
    (hi : ∀ q, v = .list q → ∀ x ∈ m.items q, Off S x) : Kept S m (setSub m c a s v).1 := by
  unfold setSub
  split
  · rename_i c
    split
    · have k1 : Kept S m (m ++ [if v.isList then .list [] else .body [] []]) := by
        refine Kept.push hg _ ?_
        intro d l e k r _
        split at e <;> cases e
        exact List.not_mem_nil
      have hs : Off S (if v.isList then .list m.length else .cont m.length) := by
        intro r hr e
        split at e <;> cases e
        exact absurd (hg _ hr).1 (Nat.lt_irrefl _)
      have k2 := Kept.body k1.1 c (aset a (if v.isList then .list m.length else .cont m.length) (m.data c))
        (aset (lower a) a (m.lc c)) (aset_off hg hs)
      refine (k1.trans k2).trans (assignSub_kept k2.1 hs _ hv ?_)
      intro q e x hx
      rw [setBody_items] at hx
      rcases items_push hx with h | ⟨xs, e', h⟩
      · exact hi q e x h
      · split at e'
        · cases e'; exact absurd h List.not_mem_nil
        · cases e'
    · split
      · exact Kept.refl hg
      · rename_i cur hcur
        split
        · exact Kept.refl hg
        · exact assignSub_kept hg (aget_off hg hcur) _ hv hi
  · exact Kept.refl hg

theorem setItem_kept {m : Mem} (hg : Guarded S m) (c : HVal) (r : AttrRep) {v : HVal}
    (h : ¬ HandsOver S m v) : Kept S m (setItem m c r v).1 := by
  have loc : ∀ m', Kept S m m' → (∀ q x, x ∈ m'.items q → x ∈ m.items q) → ∀ c a s,
      Kept S m (setLocal m' c a s v).1 := by
    intro m' k hsub c a s
    obtain ⟨h1, h2⟩ := off_of_careful h
    unfold setLocal
    split
    · exact k.trans (setPlain_kept k.1 _ _ h1)
    · exact k.trans (setSub_kept k.1 _ _ _ h1 fun q e x hx => h2 q e x (hsub q x hx))
  unfold setItem
  split
  · rename_i c
    split
    · have k1 : ∀ o : Option Str, Kept S m (match o with
          | none => Mem.setBody (m ++ [Cell.body [] []]) c
              (aset r.schema (.cont m.length) (m.data c)) (aset (lower r.schema) r.schema (m.lc c))
          | some _ => m) ∧ ∀ q x, x ∈ Mem.items (match o with
          | none => Mem.setBody (m ++ [Cell.body [] []]) c
              (aset r.schema (.cont m.length) (m.data c)) (aset (lower r.schema) r.schema (m.lc c))
          | some _ => m) q → x ∈ m.items q := by
        intro o
        cases o with
        | some _ => exact ⟨Kept.refl hg, fun _ _ h => h⟩
        | none =>
          have k0 : Kept S m (m ++ [Cell.body [] []]) := by
            refine Kept.push hg _ ?_
            intro d l e k r _; cases e; exact List.not_mem_nil
          refine ⟨k0.trans (Kept.body k0.1 _ _ _ (aset_off hg fun _ _ => nofun)), ?_⟩
          intro q x hx
          dsimp only at hx
          rw [setBody_items] at hx
          rcases items_push hx with h | ⟨xs, e', h⟩
          · exact h
          · cases e'
      have k2 := k1 (aget (lower r.schema) (m.lc c))
      dsimp only
      split
      · exact k2.1
      · exact loc _ k2.1 k2.2 _ _ _
    · exact loc m (Kept.refl hg) (fun _ _ h => h) _ _ _
  · exact Kept.refl hg

theorem forM_kept {α : Type} {f : Mem → α → Mem × PyM Unit}
    (hf : ∀ m x, Guarded S m → Kept S m (f m x).1) : ∀ (xs : List α) (m : Mem), Guarded S m →
    Kept S m (forM f m xs).1
  | [], m, hg => Kept.refl hg
  | x :: xs, m, hg => by
    have k1 := hf m x hg
    unfold forM andThen
    split
    · exact k1.trans (forM_kept hf xs _ k1.1)
    · exact k1

theorem delX_kept : ∀ (n : Nat) (b : Bool) (m : Mem) (v : HVal) (r : AttrRep), Guarded S m →
    Kept S m (delX n b m v r).1
  | 0, b, m, v, r, hg => Kept.refl hg
  | n + 1, b, m, v, r, hg => by
    unfold delX
    cases v with
    | cont c =>
      dsimp only
      split
      · exact Kept.refl hg
      · split
        · split
          · exact delX_kept n _ _ _ _ hg
          · exact Kept.refl hg
        · split
          · exact Kept.refl hg
          · split
            · split
              · exact Kept.body hg _ _ _ fun k r hr hm => (hg r hr).2.2 c k (mem_adel hm)
              · exact delX_kept n _ _ _ _ hg
            · exact Kept.refl hg
    | list q =>
      dsimp only
      split
      · split
        · exact Kept.refl hg
        · exact forM_kept (fun m x hg => delX_kept n _ m x r hg) _ _ hg
      · exact Kept.refl hg
    | atom a => dsimp only; split <;> exact Kept.refl hg
    | dict q => dsimp only; split <;> exact Kept.refl hg

/-! ### Programs -/

theorem step_kept (n : Nat) (s : State) (c : Cmd) (hg : Guarded S s.mem)
    (hc : ∀ x r y, c = .set x r y → ¬ HandsOver S s.mem (s.var y)) : Kept S s.mem (s.step n c).mem := by
  cases c with
  | scalar a => exact Kept.refl hg
  | list xs => exact Kept.push hg _ nofun
  | dict kvs => exact Kept.push hg _ nofun
  | wrap x => exact (newCont_kept n _ _ hg).1
  | get x r => exact (getX_plain n false s.mem (s.var x) r).kept hg
  | set x r y => exact setItem_kept hg _ _ (hc x r y rfl)
  | del x r => exact delX_kept n _ _ _ _ hg
  | toDict x => exact (toDict_plain n s.mem (s.var x)).kept hg
  | item x k => exact Kept.refl hg
  | entry x k => exact Kept.refl hg

theorem run_kept (n : Nat) : ∀ (p : List Cmd) (s : State), Guarded S s.mem → Careful S n s p →
    Kept S s.mem (s.run n p).mem
  | [], s, hg, _ => Kept.refl hg
  | c :: p, s, hg, hc => by
    have k1 : Kept S s.mem (s.step n c).mem := by
      refine step_kept n s c hg ?_
      intro x r y e
      have h1 := hc.1
      rw [e] at h1
      exact h1
    exact k1.trans (run_kept n p _ k1.1 hc.2)

end Scim.Shared
