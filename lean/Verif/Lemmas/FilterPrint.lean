import Verif.Lemmas.FilterParse

/-! Printed filters are filter texts. -/

namespace Scim
section
variable [PyEnv]

theorem blank_ws : Ws [' '] := by
  intro c hc
  simp at hc
  subst hc
  rw [PyEnv.isSpace_ascii _ (by decide)]
  decide

theorem printable_parse {r : AttrRep} (h : r.Printable) : AttrRep.parse r.toStr = some r :=
  (parse_eq_some_iff _ _).mpr ⟨h.1, rfl⟩

omit [PyEnv] in
theorem subName_eq {r s : AttrRep} (h : r.sub = []) (hs : s.attr ≠ []) :
    subName r s = ({ r with sub := s.attr } : AttrRep).toStr := by
  have : s.attr.isEmpty = false := by cases h : s.attr with | nil => exact absurd h hs | cons => rfl
  simp [subName, AttrRep.toStr, h, this]

theorem atom_pr {r : AttrRep} (h : r.Printable) : Atom Value (r.toStr ++ " pr".toList) (onName r .pr) := by
  have := Atom.pr (V := Value) r.toStr [' '] "pr".toList r (printable_parse h) h.2 blank_ws (by simp) (by unfold CaseOf; decide)
  simpa using this

theorem atom_cmp {r : AttrRep} {num : Prim → Str} {o : CmpOp} {v : Prim} (h : r.Printable) (ho : o.takes v)
    (hv : v.Printable num) :
    Atom Value (r.toStr ++ ' ' :: o.scim ++ ' ' :: v.filterText num) (onName r (fun x => .cmp o x v)) := by
  have := Atom.cmp (V := Value) r.toStr [' '] o.scim [' '] (v.filterText num) r o v (printable_parse h) h.2 blank_ws (by simp)
    (by unfold CaseOf; cases o <;> decide) blank_ws (by simp) hv ho
  simpa using this

omit [PyEnv] in
theorem onName_top {r : AttrRep} (h : r.sub = []) (f : AttrRep → Op) : onName r f = f r := by
  simp [onName, h]

theorem onName_sub {r s : AttrRep} (hp : ({ r with sub := s.attr } : AttrRep).Printable) (h : r.sub = [])
    (hs : s = { attr := s.attr }) (hne : s.attr ≠ []) (f : AttrRep → Op) :
    onName { r with sub := s.attr } f = .cplx r (f s) := by
  have he := hp.1.ext
  obtain ⟨a, b, c, d⟩ := r
  simp only at h he
  subst h he
  simp only [onName, if_neg hne]
  rw [← hs]

/-- An operand: an attribute expression or a group. -/
def Part (n : Nat) (t : Str) (o : Op) : Prop := Atom Value t o ∨ Group (Nested Value NoText n) t o

theorem Part.le {n m : Nat} (hnm : n ≤ m) {t : Str} {o : Op} (h : Part n t o) : Part m t o :=
  h.imp id (Group.mono (fun _ _ h => h.le hnm))

theorem part_and {n : Nat} {t : Str} {o : Op} (h : Part n t o) : AndText '(' (Part n) t o :=
  ⟨[o], .one _ _ (.plain _ _ h), rfl⟩

theorem nested_part {n : Nat} {t : Str} {o : Op} (h : OrText '(' (Part n) t o) : Nested Value NoText (n + 1) t o := .inr h

theorem Joined.cons {kw : Str} {P : Str → Op → Prop} {t t' : Str} {o : Op} {os : List Op} (h : P t o) (h' : Joined kw P t' os) :
    Joined kw P (t ++ (' ' :: kw ++ [' ']) ++ t') (o :: os) := by
  have := Joined.more t [' '] [' '] t' o os h blank_ws (by simp) blank_ws (by simp) h'
  simpa using this

mutual
theorem print_ok (num : Prim → Str) : (o : Op) → o.Printable num →
    (∃ n, Nested Value NoText n (o.text num) o) ∧ (o.isLogical = false → Atom Value (o.text num) o)
  | .pr r, h => by
    have ha := atom_pr h.1
    rw [onName_top h.2] at ha
    exact ⟨⟨1, nested_part ⟨_, .one _ _ (part_and (n := 0) (.inl ha)), rfl⟩⟩, fun _ => ha⟩
  | .cmp o r v, h => by
    have ha := atom_cmp h.1 h.2.2.1 h.2.2.2
    rw [onName_top h.2.1] at ha
    exact ⟨⟨1, nested_part ⟨_, .one _ _ (part_and (n := 0) (.inl ha)), rfl⟩⟩, fun _ => ha⟩
  | .cplx r (.pr s), h => by
    obtain ⟨h1, h2, h3, h4⟩ := h
    have ha := atom_pr h1
    rw [onName_sub h1 h2 h3 h4, ← subName_eq h2 h4] at ha
    exact ⟨⟨1, nested_part ⟨_, .one _ _ (part_and (n := 0) (.inl ha)), rfl⟩⟩, fun _ => ha⟩
  | .cplx r (.cmp o s v), h => by
    obtain ⟨h1, h2, h3, h4, h5, h6⟩ := h
    have ha := atom_cmp h1 h5 h6
    rw [onName_sub h1 h2 h3 h4, ← subName_eq h2 h4] at ha
    exact ⟨⟨1, nested_part ⟨_, .one _ _ (part_and (n := 0) (.inl ha)), rfl⟩⟩, fun _ => ha⟩
  | .cplx _ (.cplx _ _), h => h.elim
  | .cplx _ (.not _), h => h.elim
  | .cplx _ (.and _), h => h.elim
  | .cplx _ (.or _), h => h.elim
  | .not x, h => by
    obtain ⟨⟨n, h1⟩, h2⟩ := print_ok num x h
    refine ⟨⟨n + 1, nested_part ⟨_, .one _ _ ⟨_, .one _ _ ?_, rfl⟩, rfl⟩⟩, by intro h; cases h⟩
    have hp : Part n (x.bracket (x.text num)) x := by
      unfold Op.bracket
      split
      · right
        have := Group.mk (P := Nested Value NoText n) [] (x.text num) [] x Ws.nil Ws.nil h1
        simpa using this
      · rename_i hl; exact .inl (h2 (by simpa using hl))
    have := NotText.not (b := '(') [' '] _ x hp blank_ws (.inl (by simp))
    exact this
  | .and xs, h => by
    obtain ⟨n, hn⟩ := prints_ok num xs h.2
    refine ⟨⟨n + 1, nested_part ⟨_, .one _ _ ⟨xs, ?_, ?_⟩, rfl⟩⟩, by intro h; cases h⟩
    · exact (hn "and".toList (by intro h'; have := h.1; rw [h'] at this; simp at this)).mono (fun _ _ h => .plain _ _ h)
    · match xs, h.1 with
      | _ :: _ :: _, _ => rfl
  | .or xs, h => by
    obtain ⟨n, hn⟩ := prints_ok num xs h.2
    refine ⟨⟨n + 1, nested_part ⟨xs, ?_, ?_⟩⟩, by intro h; cases h⟩
    · exact (hn "or".toList (by intro h'; have := h.1; rw [h'] at this; simp at this)).mono (fun _ _ h => part_and h)
    · match xs, h.1 with
      | _ :: _ :: _, _ => rfl
theorem prints_ok (num : Prim → Str) : (os : List Op) → Op.AllPrintable num os →
    ∃ n, ∀ kw, os ≠ [] → Joined kw (Part n) (joinTexts (' ' :: kw ++ [' ']) (Op.texts num os)) os
  | [], _ => ⟨0, fun _ h => absurd rfl h⟩
  | x :: xs, h => by
    obtain ⟨⟨n, h1⟩, h2⟩ := print_ok num x h.1
    obtain ⟨m, hm⟩ := prints_ok num xs h.2
    have hp : Part n (x.bracket (x.text num)) x := by
      unfold Op.bracket
      split
      · right
        have := Group.mk (P := Nested Value NoText n) [] (x.text num) [] x Ws.nil Ws.nil h1
        simpa using this
      · rename_i hl; exact .inl (h2 (by simpa using hl))
    refine ⟨max n m, fun kw _ => ?_⟩
    replace hp := hp.le (Nat.le_max_left n m)
    cases xs with
    | nil => exact .one _ _ hp
    | cons y ys =>
      have h3 := (hm kw (by simp)).mono (fun _ _ h => h.le (Nat.le_max_right n m))
      have := Joined.cons hp h3
      exact this
end

theorem print_text (num : Prim → Str) (o : Op) (h : o.Printable num) : FilterText (o.text num) o := (print_ok num o h).1

theorem filterText_x {t : Str} {o : Op} (h : FilterText t o) : FilterTextX t o := by
  obtain ⟨n, h⟩ := h
  exact ⟨n, Nested.mono (fun _ _ h => h) (fun _ _ h => h.elim) n h⟩

end
end Scim
