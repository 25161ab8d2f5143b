import Verif.Spec.Search
import Verif.Lemmas.Messages
import Verif.Lemmas.SchemaWhole
import Verif.Lemmas.BulkResponse
import Verif.Props.Requests

/-! The search request. -/

namespace Scim
variable [PyEnv]
open Issues

/-! ### Attributes with one post-processor -/

theorem one_text {m : Mode} {a : AttrInfo} (ht : a.type = .string) (hc : a.validateCanon = false) {x y : Val} {is : Issues}
    (h : a.one m x = .ok (y, is)) (hn : is.hasIssues = false) : ∃ s, x = .str s ∧ y = .str s := by
  unfold AttrInfo.one AttrInfo.processOne at h
  have hconv : a.type.conv m x = stringConv x := by rw [ht]; cases m <;> rfl
  rw [hconv] at h
  unfold stringConv at h
  split at h
  · cases h
  · rename_i item i hs
    simp only [hc, Bool.and_false, Bool.false_eq_true, if_false] at h
    cases h
    split at hs
    · rename_i s; cases hs; exact ⟨s, rfl, rfl⟩
    · cases hs
      rw [hasIssues_merge_false] at hn
      simp [blocking, hasIssues_add] at hn

omit [PyEnv] in
theorem null_of_isNone {x : Val} (h : x.isNone = true) : x = .null := by
  cases x with
  | prim q => cases q <;> simp [Val.isNone] at h <;> rfl
  | _ => simp [Val.isNone] at h

theorem items_text {m : Mode} {a : AttrInfo} (ht : a.type = .string) (hc : a.validateCanon = false) {k : Nat}
    {xs ys : List Val} {s is : Issues} (h : a.processItems m k xs s = .ok (ys, is)) (hn : is.hasIssues = false) :
    ∃ ss : List Str, xs = ss.map Val.str ∧ ys = ss.map Val.str := by
  induction xs generalizing k s ys with
  | nil => simp only [AttrInfo.processItems] at h; cases h; exact ⟨[], rfl, rfl⟩
  | cons x xs ih =>
    have hall := (processItems_spec h).2.2
    simp only [AttrInfo.processItems] at h
    split at h
    · cases h
    · rename_i item s1 hx
      split at h
      · cases h
      · rename_i items s2 hr
        cases h
        obtain ⟨ss, rfl, rfl⟩ := ih hr
        obtain ⟨i1, hone, -⟩ := processOne_at hx
        have hi1 : i1.hasIssues = false := by
          cases hb : i1.hasIssues with
          | false => rfl
          | true =>
            have := hall.mpr (.inr ⟨x, by simp, item, i1, hone, hb⟩)
            rw [hn] at this; cases this
        obtain ⟨t, rfl, rfl⟩ := one_text ht hc hone hi1
        exact ⟨t :: ss, rfl, rfl⟩

/-- A text with one post-processor. -/
theorem text_process {m : Mode} {a : AttrInfo} (ht : a.type = .string) (hm : a.multi = false) (hc : a.validateCanon = false)
    {p : Proc} (hp : a.procs m = [p]) {x y : Val} {is : Issues} (h : a.process m x = .ok (y, is))
    (hn : is.hasIssues = false) :
    (x = .null ∧ y = .null) ∨ ∃ s i, x = .str s ∧ p (.str s) = .ok (y, i) ∧ i.hasIssues = false := by
  rw [info_process_eq] at h
  split at h
  · rename_i hnone
    cases h
    left
    have := null_of_isNone hnone
    exact ⟨this, this⟩
  · right
    unfold AttrInfo.base at h
    rw [hm] at h
    simp only [Bool.false_eq_true, if_false] at h
    cases ho : a.processOne m [] x {} with
    | error e => rw [ho] at h; cases h
    | ok q =>
      obtain ⟨z, i⟩ := q
      rw [ho] at h
      simp only at h
      split at h
      · rename_i hi
        cases h
        rw [hi] at hn; cases hn
      · rename_i hi
        obtain ⟨s, rfl, rfl⟩ := one_text ht hc ho (by simpa using hi)
        rw [hp] at h
        simp only [runProcs] at h
        split at h
        · cases h
        · rename_i r j hj
          cases h
          rw [hasIssues_merge_false] at hn
          exact ⟨s, j, rfl, hj, hn.2⟩

theorem plain_process {m : Mode} {a : AttrInfo} (hm : a.multi = false) (hc : a.validateCanon = false)
    (hp : a.procs m = []) {x y : Val} {is : Issues} (h : a.process m x = .ok (y, is)) (hn : is.hasIssues = false) :
    (x = .null ∧ y = .null) ∨ ∃ i, a.type.conv m x = .ok (y, i) ∧ i.hasIssues = false := by
  rw [info_process_eq] at h
  split at h
  · rename_i hnone
    cases h
    left
    have := null_of_isNone hnone
    exact ⟨this, this⟩
  · right
    unfold AttrInfo.base at h
    rw [hm] at h
    simp only [Bool.false_eq_true, if_false] at h
    cases ho : a.processOne m [] x {} with
    | error e => rw [ho] at h; cases h
    | ok q =>
      obtain ⟨z, i⟩ := q
      rw [ho] at h
      simp only [hp, runProcs, ite_self] at h
      cases h
      unfold AttrInfo.processOne at ho
      split at ho
      · cases ho
      · rename_i item j hj
        simp only [hc, Bool.and_false, Bool.false_eq_true, if_false] at ho
        cases ho
        rw [hasIssues_merge_false] at hn
        exact ⟨j, hj, hn.2⟩

/-- A list of texts with one post-processor. -/
theorem texts_process {m : Mode} {a : AttrInfo} (ht : a.type = .string) (hm : a.multi = true) (hc : a.validateCanon = false)
    {p : Proc} (hp : a.procs m = [p]) {x y : Val} {is : Issues} (h : a.process m x = .ok (y, is))
    (hn : is.hasIssues = false) :
    (x = .null ∧ y = .null) ∨ ∃ (ss : List Str) (i : Issues), x = .list (ss.map Val.str) ∧ p (.list (ss.map Val.str)) = .ok (y, i) ∧
      i.hasIssues = false := by
  rw [info_process_eq] at h
  split at h
  · rename_i hnone
    cases h
    left
    have := null_of_isNone hnone
    exact ⟨this, this⟩
  · right
    unfold AttrInfo.base at h
    rw [hm] at h
    simp only [if_true] at h
    cases x with
    | list xs =>
      simp only at h
      cases ho : a.processItems m 0 xs {} with
      | error e => rw [ho] at h; cases h
      | ok q =>
        obtain ⟨ys, i⟩ := q
        rw [ho] at h
        simp only at h
        split at h
        · rename_i hi
          cases h
          rw [hi] at hn; cases hn
        · rename_i hi
          obtain ⟨ss, rfl, rfl⟩ := items_text ht hc ho (by simpa using hi)
          rw [hp] at h
          simp only [runProcs] at h
          split at h
          · cases h
          · rename_i r j hj
            cases h
            rw [hasIssues_merge_false] at hn
            exact ⟨ss, j, rfl, hj, hn.2⟩
    | _ => simp only at h; cases h; simp [blocking, hasIssues_add] at hn
/-! ### The post-processors -/

namespace SearchA

theorem parseRep_clean {s : Str} {y : Val} {i : Issues} (h : parseRep (.str s) = .ok (y, i)) (hn : i.hasIssues = false) :
    ∃ r, AttrRep.parse s = some r ∧ y = .obj (.rep r) := by
  simp only [parseRep, Val.str] at h
  split at h
  · rename_i r hr; cases h; exact ⟨r, hr, rfl⟩
  · cases h; simp [hasIssues_add] at hn

theorem parseRep_wf : ProcSane parseRep := by
  intro v r is h
  unfold parseRep at h
  split at h
  · split at h <;> cases h
    · exact WF.empty
    · exact WF.empty.add _ _ _
  · cases h

theorem parseRepsLoop_wf {k : Nat} {xs ys : List Val} {s is : Issues} (hs : s.WF) (h : parseRepsLoop k xs s = .ok (ys, is)) :
    is.WF := by
  induction xs generalizing k s ys with
  | nil => simp only [parseRepsLoop] at h; cases h; exact hs
  | cons x xs ih =>
    simp only [parseRepsLoop] at h
    split at h
    · cases h
    · rename_i y i hy
      split at h
      · cases h
      · rename_i ys' i' hr
        cases h
        exact ih (hs.merge (parseRep_wf _ _ _ hy) _) hr

theorem parseReps_wf : ProcSane parseReps := by
  intro v r is h
  unfold parseReps at h
  split at h
  · split at h
    · cases h
    · rename_i ys i hl
      cases h
      exact parseRepsLoop_wf WF.empty hl
  · cases h

theorem parseRepsLoop_clean {k : Nat} {ss : List Str} {ys : List Val} {s is : Issues}
    (h : parseRepsLoop k (ss.map Val.str) s = .ok (ys, is)) (hn : is.hasIssues = false) :
    s.hasIssues = false ∧ ∃ reps : List AttrRep, ss.map AttrRep.parse = reps.map some ∧
      ys = reps.map (fun r => .obj (.rep r)) := by
  induction ss generalizing k s ys with
  | nil => simp only [List.map_nil, parseRepsLoop] at h; cases h; exact ⟨hn, [], rfl, rfl⟩
  | cons t ss ih =>
    simp only [List.map_cons, parseRepsLoop] at h
    split at h
    · cases h
    · rename_i y i hy
      split at h
      · cases h
      · rename_i ys' i' hr
        cases h
        obtain ⟨h1, reps, h2, rfl⟩ := ih hr
        rw [hasIssues_merge_false] at h1
        obtain ⟨r, hr, rfl⟩ := parseRep_clean hy h1.2
        exact ⟨h1.1, r :: reps, by rw [List.map_cons, List.map_cons, hr, h2], rfl⟩

theorem parseReps_clean {ss : List Str} {y : Val} {i : Issues} (h : parseReps (.list (ss.map Val.str)) = .ok (y, i))
    (hn : i.hasIssues = false) :
    ∃ reps : List AttrRep, ss.map AttrRep.parse = reps.map some ∧ y = .list (reps.map (fun r => .obj (.rep r))) := by
  simp only [parseReps] at h
  split at h
  · cases h
  · rename_i ys j hl
    cases h
    obtain ⟨-, reps, h1, rfl⟩ := parseRepsLoop_clean hl hn
    exact ⟨reps, h1, rfl⟩

theorem filterProc_clean {s : Str} {y : Val} {i : Issues} (h : filterProc (.str s) = .ok (y, i)) (hn : i.hasIssues = false) :
    ∃ o, Filter.parse s = .ok (some o, {}) ∧ y = .obj (.filter o) := by
  simp only [filterProc] at h
  split at h
  · cases h
  · rename_i o j hp
    cases h
    rcases parse_out s hp with ⟨-, h2⟩ | ⟨h1, -⟩
    · simp only at h2; subst h2; exact ⟨o, hp, rfl⟩
    · cases h1
  · rename_i j hp
    cases h
    have := (C52_invalid_iff_issues s _ hp).mp rfl
    rw [hn] at this; cases this

theorem filterProc_wf : ProcSane filterProc := by
  intro v r is h
  unfold filterProc at h
  have hw : ∀ {s : Str} {r : Option Op × Issues}, Filter.parse s = .ok r → r.2.WF := by
    intro s r hr
    rcases parse_out s hr with ⟨-, h2⟩ | ⟨-, h2⟩
    · rw [h2]; exact WF.empty
    · exact h2.wf
  split at h
  · split at h
    · cases h
    · rename_i hp; cases h; exact hw hp
    · rename_i hp; cases h; exact hw hp
  · cases h

/-! ### The schema -/

def names : List (AttrRep × List AttrRep) :=
  @declNames (@schemasAttr asciiEnv :: [@attributesA asciiEnv, @excludeA asciiEnv, @filterA asciiEnv, @sortByA asciiEnv,
    @sortOrderA asciiEnv, @startA asciiEnv, @countA asciiEnv])

theorem names_eq : declNames (schemasAttr :: [attributesA, excludeA, filterA, sortByA, sortOrderA, startA, countA]) =
    names := rfl

theorem wf : schema.WF :=
  mkSchema_wf (declarations_of names_eq (by decide +kernel)) (by decide +kernel)
    (fun d hd => noClash_of names_eq (by decide +kernel) (urns := [urn]) (by decide +kernel) d hd _ (by simp))

theorem sane : SaneAll schema.attrs.top := by
  refine mkSchema_sane ?_ ?_
  · intro d hd
    simp only [List.mem_cons, List.not_mem_nil, or_false] at hd
    rcases hd with rfl | rfl | rfl | rfl | rfl | rfl | rfl <;> rfl
  · intro d hd p hp
    simp only [List.mem_cons, List.not_mem_nil, or_false] at hd
    rcases hd with rfl | rfl | rfl | rfl | rfl | rfl | rfl <;>
      simp [attributesA, excludeA, filterA, sortByA, sortOrderA, startA, countA, mkAttr, Attr.info] at hp <;>
      subst hp
    · exact parseReps_wf
    · exact parseReps_wf
    · exact filterProc_wf
    · exact parseRep_wf

/-- A declared attribute and what the parser makes of it. -/
theorem read_top {body v : Val} {is : Issues} (hobj : (body.isCont || body.isDict) = true)
    (h : schema.parse body = .ok (v, is)) (hn : is.hasIssues = false) {d : Attr}
    (hd : d ∈ [attributesA, excludeA, filterA, sortByA, sortOrderA, startA, countA]) (n : Str) (he : d.rep.attr = n) :
    ∃ x y, body.toCont.getItem (rep n) = .ok x ∧ v.getItem (rep n) = .ok y ∧
      ((x = .missing ∧ y = .missing) ∨
        ∃ i, (bindAttr d (rep n)).process .parse x = .ok (y, i) ∧ i.hasIssues = false) := by
  obtain ⟨htr, -, -⟩ := process_spec wf hobj h
  have hm : bindAttr d (rep n) ∈ schema.attrs.top := by
    subst he; exact mkSchema_mem (d := d) hd
  have hrep : (bindAttr d (rep n)).rep = rep n := bindAttr_rep _ _
  obtain ⟨x, hx⟩ := htr.read _ hm
  rw [hrep] at hx
  cases hmi : x.isMissing with
  | true =>
    have : x = .missing := by cases x <;> simp [Val.isMissing] at hmi; rfl
    subst this
    have := htr.absent _ hm (by rw [hrep]; rfl) (by rw [hrep]; exact hx)
    rw [hrep] at this
    exact ⟨.missing, .missing, hx, this, .inl ⟨rfl, rfl⟩⟩
  | false =>
    obtain ⟨y, i, hp, hg⟩ := htr.present _ hm x (by rw [hrep]; exact hx) hmi
    have hi := top_clean wf hobj h hn hm (by rw [hrep]; exact hx) hmi hp
    rw [hrep] at hg
    exact ⟨x, y, hx, hg, .inr ⟨i, hp, hi⟩⟩

end SearchA
namespace SearchA

theorem addChecker_mono {data r : Val} {s is : Issues} (h : addChecker data s = .ok (r, is)) (hn : is.hasIssues = false) :
    s.hasIssues = false := by
  unfold addChecker at h
  split at h
  · cases h
  split at h
  · cases h
  simp only at h
  have key : ∀ {b : Bool} {i : Issues}, i = (if b then (s.add ⟨30, []⟩ false [.name attributesWord]).add ⟨30, []⟩ false
      [.name excludeWord] else s) → i.hasIssues = false → s.hasIssues = false := by
    intro b i hi hc
    cases b
    · rw [hi] at hc; exact hc
    · rw [hi] at hc; simp [hasIssues_add] at hc
  split at h
  · split at h
    · cases h
    · exact key (Prod.mk.inj (Except.ok.inj h)).2.symm hn
  · exact key (Prod.mk.inj (Except.ok.inj h)).2.symm hn

/-- An accepted search request went through all steps. -/
theorem parse_steps {body v : Val} {is : Issues} (h : parse body = .ok (v, is)) (hn : is.hasIssues = false) :
    ∃ v0 v1 is1, schema.parse body = .ok (v0, {}) ∧ addChecker v0 {} = .ok (v1, is1) ∧ is1.hasIssues = false ∧
      addSorter v1 = .ok v := by
  unfold parse at h
  split at h
  · cases h
  rename_i v0 is0 hp
  have hw := schema_process_wf wf sane hp
  split at h
  · rename_i hc
    cases h
    have := eq_empty_of_noIssues hw hn
    subst this
    simp [canProceed_empty] at hc
  split at h
  · cases h
  rename_i v1 is1 hq
  have h1 : is1.hasIssues = false := by
    split at h
    · split at h
      · cases h
      · cases h; exact hn
    · cases h; exact hn
  have h0 : is0 = {} := by
    apply eq_empty_of_noIssues hw
    split at hq
    · exact addChecker_mono hq h1
    · cases hq; exact h1
  subst h0
  rw [canProceed_empty, if_pos rfl] at hq
  refine ⟨v0, v1, is1, hp, hq, h1, ?_⟩
  have hw1 : is1.WF := by
    have key : ∀ {b : Bool} {i : Issues}, i = (if b then ((({} : Issues).add ⟨30, []⟩ false [.name attributesWord]).add
        ⟨30, []⟩ false [.name excludeWord]) else {}) → i.WF := by
      intro b i hi
      cases b
      · rw [hi]; exact WF.empty
      · rw [hi]; exact (WF.empty.add _ _ _).add _ _ _
    unfold addChecker at hq
    split at hq
    · cases hq
    split at hq
    · cases hq
    simp only at hq
    split at hq
    · split at hq
      · cases hq
      · exact key (Prod.mk.inj (Except.ok.inj hq)).2.symm
    · exact key (Prod.mk.inj (Except.ok.inj hq)).2.symm
  have := eq_empty_of_noIssues hw1 h1
  subst this
  rw [canProceed_empty, if_pos rfl] at h
  split at h
  · cases h
  · rename_i hs
    cases h; exact hs

theorem word_ne {a b : Str} (ha : asciiStr a = true) (hb : asciiStr b = true) (h : lowAscii a ≠ lowAscii b) :
    lower a ≠ lower b := lower_ne_ascii ha hb h

/-- Putting something in under a new name. -/
theorem put {c c' z : Val} (hc : c.Reach) (h0 : c.NoKeyFor []) (hu : c.NoKeyFor urn) {w : Str} (hw : asciiStr w = true)
    (hwu : lowAscii w ≠ lowAscii urn) (hwe : w ≠ []) (h : c.setItem { attr := w } z = .ok c') :
    c'.Reach ∧ c'.NoKeyFor [] ∧ c'.NoKeyFor urn ∧ c'.getItem { attr := w } = .ok z ∧
      ∀ (sch n : Str), (sch = [] ∨ sch = urn) → lower n ≠ lower w →
        c'.getItem { schema := sch, attr := n } = c.getItem { schema := sch, attr := n } := by
  have hr' := Val.Reach.set _ _ hc h
  have hk : ∀ sch, lower w ≠ lower sch → c.NoKeyFor sch → c'.NoKeyFor sch := by
    intro sch hne hs k hk
    obtain ⟨dd, lc, rfl, -⟩ := hc.inv
    simp only [Val.setItem, Bool.false_eq_true, if_false, Val.setLocal, List.isEmpty_nil, if_true, Val.setPlain] at h
    cases h
    simp only [Val.keys, mem_keys_aset] at hk
    rcases hk with rfl | hk
    · exact hne
    · exact hs k hk
  have hk0 := hk [] (lower_ne_nil hwe) h0
  have hku := hk urn (word_ne hw (by decide +kernel) hwu) hu
  refine ⟨hr', hk0, hku, ?_, ?_⟩
  · obtain ⟨c2, hc2, hall⟩ := C03_read_after_write hc { attr := w } rfl rfl z
    rw [h] at hc2; cases hc2
    exact hall _ rfl rfl hk0
  · intro sch n hs hne
    refine C04_write_frame hc { attr := w } { schema := sch, attr := n } rfl rfl _ hne h ?_
    rcases hs with rfl | rfl
    · exact hk0
    · exact hku

theorem noKey {body v : Val} {is : Issues} (hobj : (body.isCont || body.isDict) = true)
    (h : schema.parse body = .ok (v, is)) {w : Str}
    (hw : ∀ n ∈ ["schemas".toList, attributesWord, excludeWord, "filter".toList, sortByWord, "sortOrder".toList,
      "startIndex".toList, "count".toList], lower n ≠ lower w) : v.NoKeyFor w := by
  obtain ⟨htr, -, -⟩ := process_spec wf hobj h
  have hd : ∀ a ∈ schema.attrs.top, a.rep.ext = false ∧ a.rep.attr ∈ ["schemas".toList, attributesWord, excludeWord,
      "filter".toList, sortByWord, "sortOrder".toList, "startIndex".toList, "count".toList] := by
    intro a ha
    obtain ⟨d, hd, rfl⟩ := mkSchema_top_named (u := urn) (as := [attributesA, excludeA, filterA, sortByA, sortOrderA,
      startA, countA]) (by
        intro d hd s hs
        simp only [List.mem_cons, List.not_mem_nil, or_false] at hd
        rcases hd with rfl | rfl | rfl | rfl | rfl | rfl | rfl <;> cases hs) ha
    rw [bindAttr_rep]
    refine ⟨rfl, ?_⟩
    simp only [List.mem_cons, List.not_mem_nil, or_false] at hd
    rcases hd with rfl | rfl | rfl | rfl | rfl | rfl | rfl | rfl <;>
      simp [schemasAttr, attributesA, excludeA, filterA, sortByA, sortOrderA, startA, countA, mkAttr, Attr.rep, Attr.info]
  intro k hk
  rcases htr.declared k hk with ⟨a, ha, _, rfl⟩ | ⟨a, ha, he, rfl⟩
  · exact hw _ (hd a ha).2
  · rw [(hd a ha).1] at he; cases he

theorem noKey_word {body v : Val} {is : Issues} (hobj : (body.isCont || body.isDict) = true)
    (h : schema.parse body = .ok (v, is)) {w : Str} (ha : asciiStr w = true)
    (hw : lowAscii w ∉ ["schemas".toList, attributesWord, excludeWord, "filter".toList, sortByWord, "sortOrder".toList,
      "startIndex".toList, "count".toList].map lowAscii) : v.NoKeyFor w := by
  apply noKey hobj h
  intro n hn
  refine word_ne ?_ ha ?_
  · revert n; decide +kernel
  · intro e; exact hw (e ▸ List.mem_map_of_mem hn)

omit [PyEnv] in
theorem reps_truthy (reps : List AttrRep) : (Val.list (reps.map (fun r => .obj (.rep r)))).truthy = !reps.isEmpty := by
  cases reps <;> rfl

omit [PyEnv] in
theorem repsOf_reps (reps : List AttrRep) : repsOf (.list (reps.map (fun r => .obj (.rep r)))) = reps := by
  simp only [repsOf]
  induction reps with
  | nil => rfl
  | cons r rs ih => simp only [List.map_cons, List.filterMap_cons, ih]

theorem said_truthy {x y : Val} {reps : List AttrRep} (h : NamesSaid x y reps) :
    y.truthy = !reps.isEmpty ∧ (y.truthy = true → repsOf y = reps) := by
  rcases h with ⟨h1, rfl, rfl⟩ | ⟨names, _, _, rfl⟩
  · rcases h1 with rfl | rfl <;> exact ⟨rfl, fun h => by cases h⟩
  · exact ⟨reps_truthy _, fun _ => repsOf_reps _⟩

theorem said_names {body v : Val} {is : Issues} (hobj : (body.isCont || body.isDict) = true)
    (h : schema.parse body = .ok (v, is)) (hn : is.hasIssues = false) {d : Attr} {n : Str}
    (hd : d ∈ [attributesA, excludeA, filterA, sortByA, sortOrderA, startA, countA]) (he : d.rep.attr = n)
    (hs : bindAttr d (rep n) = .simple (bindAttr d (rep n)).info) (h1 : (bindAttr d (rep n)).info.type = .string)
    (h2 : (bindAttr d (rep n)).info.multi = true) (h3 : (bindAttr d (rep n)).info.validateCanon = false)
    (h4 : (bindAttr d (rep n)).info.procs .parse = [parseReps]) :
    ∃ x y reps, body.toCont.getItem (rep n) = .ok x ∧ v.getItem (rep n) = .ok y ∧ NamesSaid x y reps := by
  obtain ⟨x, y, hx, hy, ⟨rfl, rfl⟩ | ⟨i, hp, hi⟩⟩ := read_top hobj h hn hd n he
  · exact ⟨.missing, .missing, [], hx, hy, .inl ⟨.inl rfl, rfl, rfl⟩⟩
  · rw [hs, Attr.process] at hp
    rcases texts_process h1 h2 h3 h4 hp hi with ⟨rfl, rfl⟩ | ⟨ss, j, rfl, hj, hjn⟩
    · exact ⟨.null, .null, [], hx, hy, .inl ⟨.inr rfl, rfl, rfl⟩⟩
    · obtain ⟨reps, hr, rfl⟩ := parseReps_clean hj hjn
      exact ⟨_, _, reps, hx, hy, .inr ⟨ss, rfl, hr, rfl⟩⟩

theorem said_filter {body v : Val} {is : Issues} (hobj : (body.isCont || body.isDict) = true)
    (h : schema.parse body = .ok (v, is)) (hn : is.hasIssues = false) :
    ∃ x y, body.toCont.getItem (rep "filter".toList) = .ok x ∧ v.getItem (rep "filter".toList) = .ok y ∧
    ((x.NotSaid ∧ y = x) ∨ ∃ s o, x = .str s ∧ Filter.parse s = .ok (some o, {}) ∧ y = .obj (.filter o)) := by
  obtain ⟨x, y, hx, hy, ⟨rfl, rfl⟩ | ⟨i, hp, hi⟩⟩ := read_top hobj h hn (d := filterA) (by simp) "filter".toList rfl
  · exact ⟨_, _, hx, hy, .inl ⟨.inl rfl, rfl⟩⟩
  · rcases text_process (a := (bindAttr filterA (rep "filter".toList)).info) rfl rfl rfl (p := filterProc) rfl hp hi with
      ⟨rfl, rfl⟩ | ⟨s, j, rfl, hj, hjn⟩
    · exact ⟨_, _, hx, hy, .inl ⟨.inr rfl, rfl⟩⟩
    · obtain ⟨o, ho, rfl⟩ := filterProc_clean hj hjn
      exact ⟨_, _, hx, hy, .inr ⟨s, o, rfl, ho, rfl⟩⟩

theorem said_sortBy {body v : Val} {is : Issues} (hobj : (body.isCont || body.isDict) = true)
    (h : schema.parse body = .ok (v, is)) (hn : is.hasIssues = false) :
    ∃ x y, body.toCont.getItem (rep sortByWord) = .ok x ∧ v.getItem (rep sortByWord) = .ok y ∧
    ((x.NotSaid ∧ y = x) ∨ ∃ s r, x = .str s ∧ AttrRep.parse s = some r ∧ y = .obj (.rep r)) := by
  obtain ⟨x, y, hx, hy, ⟨rfl, rfl⟩ | ⟨i, hp, hi⟩⟩ := read_top hobj h hn (d := sortByA) (by simp) sortByWord rfl
  · exact ⟨_, _, hx, hy, .inl ⟨.inl rfl, rfl⟩⟩
  · rcases text_process (a := (bindAttr sortByA (rep sortByWord)).info) rfl rfl rfl (p := parseRep) rfl hp hi with
      ⟨rfl, rfl⟩ | ⟨s, j, rfl, hj, hjn⟩
    · exact ⟨_, _, hx, hy, .inl ⟨.inr rfl, rfl⟩⟩
    · obtain ⟨o, ho, rfl⟩ := parseRep_clean hj hjn
      exact ⟨_, _, hx, hy, .inr ⟨s, o, rfl, ho, rfl⟩⟩

theorem said_plain {body v : Val} {is : Issues} (hobj : (body.isCont || body.isDict) = true)
    (h : schema.parse body = .ok (v, is)) (hn : is.hasIssues = false) {d : Attr} {n : Str}
    (hd : d ∈ [attributesA, excludeA, filterA, sortByA, sortOrderA, startA, countA]) (he : d.rep.attr = n)
    (hs : bindAttr d (rep n) = .simple (bindAttr d (rep n)).info)
    (h2 : (bindAttr d (rep n)).info.multi = false) (h3 : (bindAttr d (rep n)).info.validateCanon = false)
    (h4 : (bindAttr d (rep n)).info.procs .parse = []) :
    ∃ x y, body.toCont.getItem (rep n) = .ok x ∧ v.getItem (rep n) = .ok y ∧
      ((x.NotSaid ∧ y = x) ∨ (bindAttr d (rep n)).info.type.parse x = .ok (y, {})) := by
  obtain ⟨x, y, hx, hy, ⟨rfl, rfl⟩ | ⟨i, hp, hi⟩⟩ := read_top hobj h hn hd n he
  · exact ⟨_, _, hx, hy, .inl ⟨.inl rfl, rfl⟩⟩
  · rw [hs, Attr.process] at hp
    rcases plain_process h2 h3 h4 hp hi with ⟨rfl, rfl⟩ | ⟨j, hj, hjn⟩
    · exact ⟨_, _, hx, hy, .inl ⟨.inr rfl, rfl⟩⟩
    · have := eq_empty_of_noIssues (conv_wf hj) hjn
      subst this
      exact ⟨_, _, hx, hy, .inr hj⟩

/-- The presence checker. -/
theorem checker_put {v0 v1 : Val} {is : Issues} {xi yi xe ye : Val} {incl excl : List AttrRep} (hr : v0.Reach)
    (h0 : v0.NoKeyFor []) (hu : v0.NoKeyFor urn) (hc : v0.NoKeyFor checkerWord)
    (hi : v0.getItem (rep attributesWord) = .ok yi) (hi' : NamesSaid xi yi incl)
    (he : v0.getItem (rep excludeWord) = .ok ye) (he' : NamesSaid xe ye excl)
    (h : addChecker v0 {} = .ok (v1, is)) :
    v1.Reach ∧ v1.NoKeyFor [] ∧ v1.NoKeyFor urn ∧
      v1.getItem { attr := checkerWord } =
        .ok (if incl.isEmpty then .missing else .obj (.checker { reps := incl, incl := some true })) ∧
      (∀ (sch n : Str), (sch = [] ∨ sch = urn) → lower n ≠ lower checkerWord →
        v1.getItem { schema := sch, attr := n } = v0.getItem { schema := sch, attr := n }) ∧
      is = if incl.isEmpty || excl.isEmpty then {} else
        (({} : Issues).add ⟨30, []⟩ false [.name attributesWord]).add ⟨30, []⟩ false [.name excludeWord] := by
  obtain ⟨ti, ri⟩ := said_truthy hi'
  obtain ⟨te, -⟩ := said_truthy he'
  unfold addChecker at h
  rw [hi, he] at h
  simp only [ti, te] at h
  have hiss : (if (!incl.isEmpty && !excl.isEmpty) = true then
      (({} : Issues).add ⟨30, []⟩ false [.name attributesWord]).add ⟨30, []⟩ false [.name excludeWord] else {}) =
      (if (incl.isEmpty || excl.isEmpty) = true then {} else
        (({} : Issues).add ⟨30, []⟩ false [.name attributesWord]).add ⟨30, []⟩ false [.name excludeWord]) := by
    cases incl.isEmpty <;> cases excl.isEmpty <;> rfl
  rw [hiss] at h
  cases hie : incl.isEmpty with
  | true =>
    rw [hie] at h
    simp only [Bool.not_true, Bool.false_eq_true, if_false] at h
    cases (Prod.mk.inj (Except.ok.inj h)).1
    exact ⟨hr, h0, hu, getItem_undeclared hr h0 hc, fun _ _ _ _ => rfl, (Prod.mk.inj (Except.ok.inj h)).2.symm⟩
  | false =>
    rw [hie] at h
    simp only [Bool.not_false, if_true] at h
    rw [ri (by rw [ti, hie]; rfl)] at h
    split at h
    · cases h
    · rename_i d hd
      cases (Prod.mk.inj (Except.ok.inj h)).1
      obtain ⟨a, b, c, e, f⟩ := put hr h0 hu (by decide +kernel) (by decide +kernel) (by decide +kernel) hd
      exact ⟨a, b, c, e, f, (Prod.mk.inj (Except.ok.inj h)).2.symm⟩

/-- The sorter. -/
theorem sorter_put {v1 v : Val} {x y : Val} (hr : v1.Reach) (h0 : v1.NoKeyFor []) (hu : v1.NoKeyFor urn)
    (hc : v1.getItem { attr := sorterWord } = .ok .missing) (hy : v1.getItem (rep sortByWord) = .ok y)
    (hxy : (x.NotSaid ∧ y = x) ∨ ∃ s r, x = .str s ∧ AttrRep.parse s = some r ∧ y = .obj (.rep r))
    (h : addSorter v1 = .ok v) :
    v.Reach ∧ (∃ z, v.getItem { attr := sorterWord } = .ok z ∧
      ((x.NotSaid ∧ y = x ∧ z = .missing) ∨ ∃ s r, x = .str s ∧ AttrRep.parse s = some r ∧ y = .obj (.rep r) ∧
        z = .obj (.sorter { rep := r, asc := false }))) ∧
      (∀ (sch n : Str), (sch = [] ∨ sch = urn) → lower n ≠ lower sorterWord →
        v.getItem { schema := sch, attr := n } = v1.getItem { schema := sch, attr := n }) := by
  unfold addSorter at h
  rw [hy] at h
  rcases hxy with ⟨hx, rfl⟩ | ⟨s, r, rfl, hr', rfl⟩
  · have ht : y.truthy = false := by rcases hx with rfl | rfl <;> rfl
    simp only [ht, Bool.false_eq_true, if_false] at h
    cases h
    exact ⟨hr, ⟨_, hc, .inl ⟨hx, rfl, rfl⟩⟩, fun _ _ _ _ => rfl⟩
  · have ht : (Val.obj (.rep r)).truthy = true := rfl
    simp only [ht, if_true] at h
    obtain ⟨a, b, c, e, f⟩ := put hr h0 hu (by decide +kernel) (by decide +kernel) (by decide +kernel) h
    exact ⟨a, ⟨_, e, .inr ⟨s, r, rfl, hr', rfl, rfl⟩⟩, f⟩

/-- An accepted search request. -/
theorem accepted {body v : Val} {is : Issues} (h : parse body = .ok (v, is)) (hn : is.hasIssues = false) :
    SearchRead body.toCont v ∧ v.Reach ∧ (body.isCont || body.isDict) = true := by
  obtain ⟨v0, v1, is1, hp, hc, hn1, hs⟩ := parse_steps h hn
  obtain ⟨hobj, hr⟩ := process_noIssues hp rfl
  have k0 : v0.NoKeyFor [] := noKey_word hobj hp (by decide +kernel) (by decide +kernel)
  have ku : v0.NoKeyFor urn := noKey_word hobj hp (by decide +kernel) (by decide +kernel)
  have kc : v0.NoKeyFor checkerWord := noKey_word hobj hp (by decide +kernel) (by decide +kernel)
  have ks : v0.NoKeyFor sorterWord := noKey_word hobj hp (by decide +kernel) (by decide +kernel)
  obtain ⟨xi, yi, incl, bi, vi, si⟩ := said_names hobj hp rfl (d := attributesA) (n := attributesWord) (by simp) rfl rfl rfl
    rfl rfl rfl
  obtain ⟨xe, ye, excl, be, ve, se⟩ := said_names hobj hp rfl (d := excludeA) (n := excludeWord) (by simp) rfl rfl rfl
    rfl rfl rfl
  obtain ⟨xf, yf, bf, vf, sf⟩ := said_filter hobj hp rfl
  obtain ⟨xs, ys, bs, vs, ss⟩ := said_sortBy hobj hp rfl
  obtain ⟨xo, yo, bo, vo, so⟩ := said_plain hobj hp rfl (d := sortOrderA) (n := "sortOrder".toList) (by simp) rfl rfl rfl
    rfl rfl
  obtain ⟨xn, yn, bn, vn, sn⟩ := said_plain hobj hp rfl (d := countA) (n := "count".toList) (by simp) rfl rfl rfl rfl rfl
  obtain ⟨xa, ya, ba, va, sa⟩ := said_plain hobj hp rfl (d := startA) (n := "startIndex".toList) (by simp) rfl rfl rfl rfl rfl
  obtain ⟨hr1, k10, k1u, hck, fr1, his⟩ := checker_put hr k0 ku kc vi si ve se hc
  have hex : incl = [] ∨ excl = [] := by
    cases hb : (incl.isEmpty || excl.isEmpty) with
    | true => simpa using hb
    | false =>
      rw [hb] at his
      subst his
      simp [hasIssues_add] at hn1
  have msorter : v1.getItem { attr := sorterWord } = .ok .missing := by
    rw [fr1 [] sorterWord (.inl rfl) (word_ne (by decide +kernel) (by decide +kernel) (by decide +kernel))]
    exact getItem_undeclared hr k0 ks
  have fr1' : ∀ n, asciiStr n = true → lowAscii n ≠ lowAscii checkerWord → v1.getItem (rep n) = v0.getItem (rep n) :=
    fun n h1 h2 => fr1 urn n (.inr rfl) (word_ne h1 (by decide +kernel) h2)
  rw [← fr1' _ (by decide +kernel) (by decide +kernel)] at vi ve vf vs vo vn va
  obtain ⟨hr2, ⟨z, hz, hz'⟩, fr2⟩ := sorter_put hr1 k10 k1u msorter vs ss hs
  have fr2' : ∀ n, asciiStr n = true → lowAscii n ≠ lowAscii sorterWord → v.getItem (rep n) = v1.getItem (rep n) :=
    fun n h1 h2 => fr2 urn n (.inr rfl) (word_ne h1 (by decide +kernel) h2)
  rw [← fr2' _ (by decide +kernel) (by decide +kernel)] at vi ve vf vs vo vn va
  rw [← fr2 [] checkerWord (.inl rfl) (word_ne (by decide +kernel) (by decide +kernel) (by decide +kernel))] at hck
  refine ⟨?_, hr2, hobj⟩
  constructor
  · exact ⟨xf, yf, bf, vf, sf⟩
  · exact ⟨xn, yn, bn, vn, sn⟩
  · exact ⟨xa, ya, ba, va, sa⟩
  · rcases so with ⟨h1, rfl⟩ | h1
    · exact ⟨_, bo, vo, .inl h1⟩
    · have : stringConv xo = .ok (yo, {}) := h1
      unfold stringConv at this
      split at this
      · cases this; exact ⟨_, bo, vo, .inr ⟨_, rfl⟩⟩
      · have := congrArg Issues.hasIssues (Prod.mk.inj (Except.ok.inj this)).2
        simp [blocking, hasIssues_add] at this
        cases this
  · exact ⟨xs, ys, z, bs, vs, hz, hz'⟩
  · exact ⟨xi, yi, xe, ye, _, incl, excl, bi, vi, si, be, ve, se, hex, hck, rfl⟩

end SearchA
end Scim
