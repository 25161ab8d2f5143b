import Verif.Spec.SearchDoc
import Verif.Lemmas.ListDoc
import Verif.Lemmas.SearchTotality
import Verif.Props.Search

/-! # Searches: what is read without issues -/

namespace Scim.SearchA
open Issues V Valid Declared
variable [PyEnv]

theorem all_eq : schema.attrs.all =
    (schemasAttr :: [attributesA, excludeA, filterA, sortByA, sortOrderA, startA, countA]).flatMap (bindWithSubs urn false) := by
  obtain ⟨_, h2⟩ := bind_facts (urn := urn) (ext := false) (declarations_of names_eq (by decide +kernel))
  exact ofList_all (keys_of_lnames h2)

/-- The attributes of a search. -/
theorem of_all {a : Attr} : a ∈ schema.attrs.all ↔
    ∃ d ∈ [schemasAttr, attributesA, excludeA, filterA, sortByA, sortOrderA, startA, countA],
      a = bindAttr d { schema := urn, attr := d.rep.attr } := by
  rw [all_eq, List.mem_flatMap]
  constructor
  · rintro ⟨d, hd, hm⟩
    refine ⟨d, hd, ?_⟩
    rcases mem_bindWithSubs.mp hm with h | ⟨b, hb, -⟩
    · exact h
    · simp only [List.mem_cons, List.not_mem_nil, or_false] at hd
      rcases hd with rfl | rfl | rfl | rfl | rfl | rfl | rfl | rfl <;> cases hb
  · rintro ⟨d, hd, rfl⟩
    exact ⟨d, hd, mem_bindWithSubs.mpr (.inl rfl)⟩

theorem of_top {a : Attr} : a ∈ schema.attrs.top ↔ a ∈ schema.attrs.all := by
  constructor
  · exact wf.top_all a
  · intro ha
    rw [wf.topAll]
    refine List.mem_filter.mpr ⟨ha, ?_⟩
    obtain ⟨d, -, rfl⟩ := of_all.mp ha
    rw [bindAttr_rep]
    rfl

theorem isName_iff {t : Str} : IsName t ↔ ∃ r, AttrRep.parse t = some r := by
  unfold IsName
  exact exists_congr fun r => (parse_eq_some_iff t r).symm

theorem conv_null {x : Val} (h : convVal x = .null) : x = .null := (isNone_conv x).mp (by rw [h]; rfl)

theorem conv_str {x : Val} {t : Str} (h : convVal x = .str t) : x = .str t := by
  cases x <;> simp [convVal, Val.str] at h ⊢
  exact h

theorem conv_texts {x : Val} {ts : List Str} (h : convVal x = .list (ts.map Val.str)) : x = .list (ts.map Val.str) := by
  cases x with
  | list xs =>
    simp only [convVal, Val.list.injEq] at h
    rw [convItems_eq] at h
    congr 1
    induction xs generalizing ts with
    | nil => cases ts with
      | nil => rfl
      | cons t ts => cases h
    | cons y xs ih =>
      cases ts with
      | nil => cases h
      | cons t ts =>
        simp only [List.map_cons, List.cons.injEq] at h ⊢
        refine ⟨?_, ih h.2⟩
        have h1 := h.1
        cases y <;> simp [itemConv, Val.toCont, Val.str] at h1 ⊢
        exact h1
  | _ => simp [convVal] at h

theorem one_text_ok {a : AttrInfo} (ht : a.type = .string) (hc : a.validateCanon = false) (loc : Loc) (t : Str) :
    a.processOne .parse loc (.str t) {} = .ok (.str t, {}) := by
  unfold AttrInfo.processOne
  have : AttrType.string.conv .parse (.str t) = .ok (.str t, {}) := rfl
  rw [ht, hc, this]
  simp only [Bool.and_false, Bool.false_eq_true, if_false]
  rfl

theorem items_text_ok {a : AttrInfo} (ht : a.type = .string) (hc : a.validateCanon = false) (ts : List Str) (k : Nat) :
    a.processItems .parse k (ts.map Val.str) {} = .ok (ts.map Val.str, {}) := by
  induction ts generalizing k with
  | nil => rfl
  | cons t ts ih =>
    simp only [List.map_cons, AttrInfo.processItems]
    rw [one_text_ok ht hc]
    dsimp only
    rw [ih]

/-- A text with one post-processor is read when the post-processor reports nothing. -/
theorem text_reads {i : AttrInfo} (ht : i.type = .string) (hm : i.multi = false) (hc : i.validateCanon = false)
    {p : Proc} (hp : i.procs .parse = [p]) {x : Val} : Reads .parse (.simple i) x ↔
      x = .null ∨ ∃ t y is, x = .str t ∧ p (.str t) = .ok (y, is) ∧ is.hasIssues = false := by
  unfold Reads
  constructor
  · rintro ⟨y, is, h, hn⟩
    rw [Attr.process] at h
    rcases text_process ht hm hc hp h hn with ⟨e, -⟩ | ⟨t, j, e, hj, hjn⟩
    · exact .inl (conv_null e)
    · exact .inr ⟨t, y, j, conv_str e, hj, hjn⟩
  · rintro (rfl | ⟨t, y, is, rfl, h, hn⟩)
    · exact ⟨_, _, rfl, rfl⟩
    · refine ⟨y, ({} : Issues).merge is, ?_, by rw [hasIssues_merge_false]; exact ⟨rfl, hn⟩⟩
      have e : convVal (.str t) = .str t := rfl
      rw [Attr.process, info_process_eq, e]
      have : (Val.str t).isNone = false := rfl
      simp only [this, Bool.false_eq_true, if_false, AttrInfo.base, hm, one_text_ok ht hc, hp, runProcs, h]
      rfl

/-- Texts with one post-processor are read when the post-processor reports nothing. -/
theorem texts_reads {i : AttrInfo} (ht : i.type = .string) (hm : i.multi = true) (hc : i.validateCanon = false)
    {p : Proc} (hp : i.procs .parse = [p]) {x : Val} : Reads .parse (.simple i) x ↔
      x = .null ∨ ∃ (ts : List Str) (y : Val) (is : Issues), x = .list (ts.map Val.str) ∧ p (.list (ts.map Val.str)) = .ok (y, is) ∧
        is.hasIssues = false := by
  unfold Reads
  constructor
  · rintro ⟨y, is, h, hn⟩
    rw [Attr.process] at h
    rcases texts_process ht hm hc hp h hn with ⟨e, -⟩ | ⟨t, j, e, hj, hjn⟩
    · exact .inl (conv_null e)
    · exact .inr ⟨t, y, j, conv_texts e, hj, hjn⟩
  · rintro (rfl | ⟨ts, y, is, rfl, h, hn⟩)
    · exact ⟨_, _, rfl, rfl⟩
    · refine ⟨y, ({} : Issues).merge is, ?_, by rw [hasIssues_merge_false]; exact ⟨rfl, hn⟩⟩
      rw [Attr.process, info_process_eq, conv_strs]
      have : (Val.list (ts.map Val.str)).isNone = false := rfl
      simp only [this, Bool.false_eq_true, if_false, AttrInfo.base, hm, if_true, items_text_ok ht hc, hp, runProcs, h]
      rfl

theorem parseRep_iff {t : Str} : (∃ y is, parseRep (.str t) = .ok (y, is) ∧ is.hasIssues = false) ↔ IsName t := by
  rw [isName_iff]
  constructor
  · rintro ⟨y, is, h, hn⟩
    obtain ⟨r, hr, -⟩ := parseRep_clean h hn
    exact ⟨r, hr⟩
  · rintro ⟨r, hr⟩
    refine ⟨.obj (.rep r), {}, ?_, rfl⟩
    simp only [parseRep, Val.str, hr]

theorem parseRepsLoop_names {ts : List Str} (h : ∀ t ∈ ts, IsName t) (k : Nat) :
    ∃ ys, parseRepsLoop k (ts.map Val.str) {} = .ok (ys, {}) := by
  induction ts generalizing k with
  | nil => exact ⟨[], rfl⟩
  | cons t ts ih =>
    obtain ⟨r, hr⟩ := isName_iff.mp (h t List.mem_cons_self)
    obtain ⟨ys, hy⟩ := ih (fun t ht => h t (List.mem_cons_of_mem _ ht)) (k + 1)
    refine ⟨.obj (.rep r) :: ys, ?_⟩
    have e : ({} : Issues).merge {} [.idx k] = {} := rfl
    have hp : parseRep (.str t) = .ok (.obj (.rep r), {}) := by simp only [parseRep, Val.str, hr]
    simp only [List.map_cons, parseRepsLoop, hp, e, hy]

theorem parseReps_iff {ts : List Str} : (∃ y is, parseReps (.list (ts.map Val.str)) = .ok (y, is) ∧ is.hasIssues = false) ↔
    ∀ t ∈ ts, IsName t := by
  constructor
  · rintro ⟨y, is, h, hn⟩ t ht
    obtain ⟨reps, hr, -⟩ := parseReps_clean h hn
    rw [isName_iff]
    have : AttrRep.parse t ∈ reps.map some := by rw [← hr]; exact List.mem_map.mpr ⟨t, ht, rfl⟩
    obtain ⟨r, -, e⟩ := List.mem_map.mp this
    exact ⟨r, e.symm⟩
  · intro h
    obtain ⟨ys, hy⟩ := parseRepsLoop_names h 0
    exact ⟨.list ys, {}, by simp only [parseReps, hy], rfl⟩

theorem filterProc_iff {t : Str} : (∃ y is, filterProc (.str t) = .ok (y, is) ∧ is.hasIssues = false) ↔ IsFilter t := by
  constructor
  · rintro ⟨y, is, h, hn⟩
    obtain ⟨o, ho, -⟩ := filterProc_clean h hn
    exact ⟨o, ho⟩
  · rintro ⟨o, ho⟩
    exact ⟨.obj (.filter o), {}, by simp only [filterProc, Val.str, ho], rfl⟩

/-- What the attributes with names read. -/
theorem names_reads {d : Attr} (hd : d = attributesA ∨ d = excludeA) {r : AttrRep} {x : Val} :
    Reads .parse (bindAttr d r) x ↔ x = .null ∨ ∃ ts : List Str, x = .list (ts.map Val.str) ∧ ∀ t ∈ ts, IsName t := by
  have key : ∀ i : AttrInfo, i.type = .string → i.multi = true → i.validateCanon = false → i.procs .parse = [parseReps] →
      (Reads .parse (.simple i) x ↔ x = .null ∨ ∃ ts : List Str, x = .list (ts.map Val.str) ∧ ∀ t ∈ ts, IsName t) := by
    intro i h1 h2 h3 h4
    rw [texts_reads h1 h2 h3 h4]
    refine or_congr_right (exists_congr fun ts => ?_)
    rw [← parseReps_iff]
    exact ⟨fun ⟨y, is, e, h⟩ => ⟨e, y, is, h⟩, fun ⟨e, y, is, h⟩ => ⟨y, is, e, h⟩⟩
  rcases hd with rfl | rfl <;> exact key _ rfl rfl rfl rfl

theorem sortBy_reads {r : AttrRep} {x : Val} :
    Reads .parse (bindAttr sortByA r) x ↔ x = .null ∨ ∃ t, x = .str t ∧ IsName t := by
  refine (text_reads (i := (bindAttr sortByA r).info) (p := parseRep) rfl rfl rfl rfl).trans (or_congr_right (exists_congr fun t => ?_))
  rw [← parseRep_iff]
  exact ⟨fun ⟨y, is, e, h⟩ => ⟨e, y, is, h⟩, fun ⟨e, y, is, h⟩ => ⟨y, is, e, h⟩⟩

theorem filter_reads {r : AttrRep} {x : Val} :
    Reads .parse (bindAttr filterA r) x ↔ x = .null ∨ ∃ t, x = .str t ∧ IsFilter t := by
  refine (text_reads (i := (bindAttr filterA r).info) (p := filterProc) rfl rfl rfl rfl).trans (or_congr_right (exists_congr fun t => ?_))
  rw [← filterProc_iff]
  exact ⟨fun ⟨y, is, e, h⟩ => ⟨e, y, is, h⟩, fun ⟨e, y, is, h⟩ => ⟨y, is, e, h⟩⟩

/-- A usual attribute reads the values it accepts. -/
theorem usual_reads {m : Mode} {a : Attr} (hu : Usual m a) {x : Val} (ht : x.Tame) (hp : ∃ o, a.process m (convVal x) = .ok o) :
    Reads m a x ↔ ValidFor m a x := by
  obtain ⟨⟨y, is⟩, h⟩ := hp
  rw [← process_ok a hu x y is ht h]
  unfold Reads
  rw [h]
  exact ⟨fun ⟨_, _, e, hn⟩ => (by cases e; exact hn), fun hn => ⟨_, _, rfl, hn⟩⟩

/-- What a document holds for a declared attribute is processed. -/
theorem held_process {m : Mode} {s : Schema} (hs : s.WF) {D : List (Str × Val)} (hD : Ordinary s D) {r : Val} {is : Issues}
    (h : s.process m (.dict D) = .ok (r, is)) {a : Attr} (ha : a ∈ s.attrs.top) {x : Val} (hl : look a.rep D = some x) :
    ∃ o, a.process m (convVal x) = .ok o := by
  have htr := (process_spec hs (by rfl) h).1
  have hread := getItem_look (clear_of_ordinary hD (hs.allSchema a (hs.top_all a ha))) (hs.sub a ha)
  rw [hl] at hread
  dsimp only at hread
  have hnm := conv_not_missing (look_tame hD.tame hl)
  obtain ⟨y, i, e1, -⟩ := htr.present a ha _ hread (by
    generalize convVal x = z at hnm
    cases z <;> first | rfl | exact absurd rfl hnm)
  exact ⟨_, e1⟩

theorem number_valid {d : Attr} (hd : d = startA ∨ d = countA) {r : AttrRep} {x : Val} :
    ValidFor .parse (bindAttr d r) x ↔ x = .null ∨ ∃ i, Whole x i := by
  rw [← ListA.integer_valid (d := ListA.startA) (by simp) (r := r)]
  rcases hd with rfl | rfl <;> exact Iff.rfl

theorem order_valid {r : AttrRep} {x : Val} : ValidFor .parse (bindAttr sortOrderA r) x ↔ x = .null ∨ ∃ t, x = .str t := by
  simp only [sortOrderA, mkAttr, bindAttr, ValidFor, OneOk, Bool.false_eq_true, if_false]
  constructor
  · rintro (h | ⟨⟨h, -⟩, -⟩)
    · exact .inl h
    · exact .inr h
  · rintro (h | h)
    · exact .inl h
    · exact .inr ⟨⟨h, nofun⟩, nofun⟩

theorem uses {D : List (Str × Val)} {u : Str} : ¬ Uses schema D u := by
  rintro ⟨a, ha, he, -⟩
  obtain ⟨d, -, rfl⟩ := of_all.mp (of_top.mp ha)
  rw [bindAttr_rep] at he
  cases he

/-- The document as the body of a search, but for the two lists of names taken together. -/
theorem schema_iff {D : List (Str × Val)} (hD : Ordinary schema D) {v : Val} {is : Issues}
    (h : schema.parse (.dict D) = .ok (v, is)) : is.hasIssues = false ↔
      (∀ x, searchHolds D "schemas" = some x →
        x = .null ∨ ∃ strs : List Str, x = .list (strs.map Val.str) ∧ ∀ t ∈ strs, lower t = lower SearchA.urn) ∧
      (∀ n ∈ ["attributes", "excludeAttributes"], ∀ x, searchHolds D n = some x →
        x = .null ∨ ∃ ts : List Str, x = .list (ts.map Val.str) ∧ ∀ t ∈ ts, IsName t) ∧
      (∀ x, searchHolds D "filter" = some x → x = .null ∨ ∃ t, x = .str t ∧ IsFilter t) ∧
      (∀ x, searchHolds D "sortBy" = some x → x = .null ∨ ∃ t, x = .str t ∧ IsName t) ∧
      (∀ x, searchHolds D "sortOrder" = some x → x = .null ∨ ∃ t, x = .str t) ∧
      ∀ n ∈ ["startIndex", "count"], ∀ x, searchHolds D n = some x → x = .null ∨ ∃ i, Whole x i := by
  rw [process_reads wf sane hD h]
  have hmem : ∀ d ∈ [schemasAttr, attributesA, excludeA, filterA, sortByA, sortOrderA, startA, countA],
      bindAttr d { schema := urn, attr := d.rep.attr } ∈ schema.attrs.top := fun d hd => of_top.mpr (of_all.mpr ⟨d, hd, rfl⟩)
  have husual : ∀ d ∈ [sortOrderA, startA, countA], ∀ x, look { schema := urn, attr := d.rep.attr } D = some x →
      (Reads .parse (bindAttr d { schema := urn, attr := d.rep.attr }) x ↔
        ValidFor .parse (bindAttr d { schema := urn, attr := d.rep.attr }) x) := by
    intro d hd x hx
    refine usual_reads ?_ (look_tame hD.tame hx) (held_process wf hD h (hmem d ?_) (by rw [bindAttr_rep]; exact hx))
    · simp only [List.mem_cons, List.not_mem_nil, or_false] at hd
      rcases hd with rfl | rfl | rfl <;> exact ⟨rfl, nofun, .inl rfl, nofun⟩
    · simp only [List.mem_cons, List.not_mem_nil, or_false] at hd ⊢
      rcases hd with rfl | rfl | rfl <;> simp
  have hschemas : ∀ x, look { schema := urn, attr := "schemas".toList } D = some x →
      (Reads .parse (bindAttr schemasAttr { schema := urn, attr := "schemas".toList }) x ↔
        x = .null ∨ ∃ strs : List Str, x = .list (strs.map Val.str)) := by
    intro x hx
    exact (usual_reads (schemas_usual _ rfl) (look_tame hD.tame hx)
      (held_process wf hD h (hmem schemasAttr (by simp)) (by rw [bindAttr_rep]; exact hx))).trans schemas_valid
  have hsch : schema.schemas = [urn] := rfl
  constructor
  · rintro ⟨hv, hl⟩
    have hm := fun d hd x (hx : look { schema := urn, attr := d.rep.attr } D = some x) =>
      hv _ (hmem d hd) x (by rw [bindAttr_rep]; exact hx)
    refine ⟨fun x hx => ?_, fun n hn x hx => ?_, fun x hx => ?_, fun x hx => ?_, fun x hx => ?_, fun n hn x hx => ?_⟩
    · rcases (hschemas x hx).mp (hm schemasAttr (by simp) x hx) with rfl | ⟨strs, rfl⟩
      · exact .inl rfl
      · refine .inr ⟨strs, rfl, fun t ht => ?_⟩
        obtain ⟨h2, -, -⟩ := hl strs (List.ne_nil_of_mem ht) hx
        rw [hsch] at h2
        obtain ⟨u, hu, e⟩ := h2 t ht
        rw [List.mem_singleton.mp hu] at e
        exact e
    · simp only [List.mem_cons, List.not_mem_nil, or_false] at hn
      rcases hn with rfl | rfl
      · exact (names_reads (.inl rfl)).mp (hm attributesA (by simp) x hx)
      · exact (names_reads (.inr rfl)).mp (hm excludeA (by simp) x hx)
    · exact filter_reads.mp (hm filterA (by simp) x hx)
    · exact sortBy_reads.mp (hm sortByA (by simp) x hx)
    · exact order_valid.mp ((husual sortOrderA (by simp) x hx).mp (hm sortOrderA (by simp) x hx))
    · simp only [List.mem_cons, List.not_mem_nil, or_false] at hn
      rcases hn with rfl | rfl
      · exact (number_valid (.inl rfl)).mp ((husual startA (by simp) x hx).mp (hm startA (by simp) x hx))
      · exact (number_valid (.inr rfl)).mp ((husual countA (by simp) x hx).mp (hm countA (by simp) x hx))
  · rintro ⟨h1, h2, h3, h4, h5, h6⟩
    refine ⟨fun a ha x hx => ?_, fun strs hne hx => ?_⟩
    · obtain ⟨d, hd, rfl⟩ := of_all.mp (of_top.mp ha)
      rw [bindAttr_rep] at hx
      simp only [List.mem_cons, List.not_mem_nil, or_false] at hd
      rcases hd with rfl | rfl | rfl | rfl | rfl | rfl | rfl | rfl
      · refine (hschemas x hx).mpr ?_
        rcases h1 x hx with h | ⟨strs, e, -⟩
        · exact .inl h
        · exact .inr ⟨strs, e⟩
      · exact (names_reads (.inl rfl)).mpr (h2 "attributes" (by simp) x hx)
      · exact (names_reads (.inr rfl)).mpr (h2 "excludeAttributes" (by simp) x hx)
      · exact filter_reads.mpr (h3 x hx)
      · exact sortBy_reads.mpr (h4 x hx)
      · exact (husual sortOrderA (by simp) x hx).mpr (order_valid.mpr (h5 x hx))
      · exact (husual startA (by simp) x hx).mpr ((number_valid (.inl rfl)).mpr (h6 "startIndex" (by simp) x hx))
      · exact (husual countA (by simp) x hx).mpr ((number_valid (.inr rfl)).mpr (h6 "count" (by simp) x hx))
    · rcases h1 _ hx with e | ⟨strs', e, hall⟩
      · cases e
      · have e' : List.map Val.str strs = List.map Val.str strs' := by injection e
        have e'' := (List.map_inj_right (fun a b h => by cases h; rfl)).mp e'
        subst e''
        rw [hsch]
        refine ⟨fun t ht => ⟨urn, by simp, hall t ht⟩, ?_, fun u hu => absurd hu uses⟩
        obtain ⟨t, ht⟩ := List.exists_mem_of_ne_nil _ hne
        exact ⟨t, ht, hall t ht⟩

theorem said_look {D : List (Str × Val)} (hD : Ordinary schema D) (n : String) :
    (Val.dict D).toCont.getItem (rep n.toList) = .ok (match searchHolds D n with
      | some x => convVal x
      | none => .missing) := by
  have := getItem_look (r := rep n.toList) (clear_of_ordinary hD (by simp [Schema.schemas, rep, schema, mkSchema])) rfl
  rw [this]
  unfold searchHolds rep
  cases look { schema := urn, attr := n.toList } D <;> rfl

/-- The names in a list. -/
theorem said_list {D : List (Str × Val)} (hD : Ordinary schema D) {n : String} {x y : Val} {reps : List AttrRep} {xs : List Val}
    (hx : (Val.dict D).toCont.getItem (rep n.toList) = .ok x) (hs : NamesSaid x y reps)
    (hl : searchHolds D n = some (.list xs)) : xs.length = reps.length := by
  rw [said_look hD, hl] at hx
  cases hx
  rcases hs with ⟨h | h, -⟩ | ⟨names, e, hr, -⟩
  · simp [convVal] at h
  · simp [convVal, Val.null] at h
  · have h1 := congrArg List.length hr
    simp only [List.length_map] at h1
    simp only [convVal, Val.list.injEq, convItems_eq] at e
    have h2 := congrArg List.length e
    simp only [List.length_map] at h2
    omega

/-- A search is read without issues exactly when its body is one. -/
theorem parse_iff {D : List (Str × Val)} (hD : Ordinary schema D) {v : Val} {is : Issues} (h : parse (.dict D) = .ok (v, is)) :
    is.hasIssues = false ↔ SearchDoc D := by
  have hobj : ((Val.dict D).isCont || (Val.dict D).isDict) = true := rfl
  constructor
  · intro hn
    obtain ⟨v0, v1, is1, h0, -⟩ := parse_steps h hn
    obtain ⟨a, b, c, d, e, f⟩ := (schema_iff hD h0).mp rfl
    refine ⟨a, b, fun xs ys hx hy => ?_, c, d, e, f⟩
    obtain ⟨xi, yi, xe, ye, z, incl, excl, bi, -, si, be, -, se, ho, -⟩ := (accepted h hn).1.names
    have l1 := said_list hD (n := "attributes") bi si hx
    have l2 := said_list hD (n := "excludeAttributes") be se hy
    rcases ho with rfl | rfl
    · exact .inl (List.eq_nil_of_length_eq_zero l1)
    · exact .inr (List.eq_nil_of_length_eq_zero l2)
  · intro hd
    unfold parse at h
    split at h
    · cases h
    rename_i v0 is0 h0
    have hn0 := (schema_iff hD h0).mpr ⟨hd.schemas, hd.names, hd.filter, hd.sortBy, hd.sortOrder, hd.numbers⟩
    have := eq_empty_of_noIssues (schema_process_wf wf sane h0) hn0
    subst this
    simp only [canProceed_empty, Bool.not_true, Bool.false_eq_true, if_false, if_true] at h
    obtain ⟨xi, yi, incl, bi, vi, si⟩ := said_names hobj h0 rfl (d := attributesA)
      (n := attributesWord) (by simp) rfl rfl rfl rfl rfl rfl
    obtain ⟨xe, ye, excl, be, ve, se⟩ := said_names hobj h0 rfl (d := excludeA)
      (n := excludeWord) (by simp) rfl rfl rfl rfl rfl rfl
    have hone : incl = [] ∨ excl = [] := by
      have hi : incl = [] ∨ ∃ xs, searchHolds D "attributes" = some (.list xs) := by
        rcases si with ⟨-, -, h⟩ | ⟨names, e, -⟩
        · exact .inl h
        · replace bi := (said_look hD "attributes").symm.trans bi
          cases hs : searchHolds D "attributes" with
          | none => rw [hs] at bi; cases bi; cases e
          | some x =>
            rw [hs] at bi
            cases bi
            exact .inr ⟨_, by rw [conv_texts e]⟩
      have he : excl = [] ∨ ∃ xs, searchHolds D "excludeAttributes" = some (.list xs) := by
        rcases se with ⟨-, -, h⟩ | ⟨names, e, -⟩
        · exact .inl h
        · replace be := (said_look hD "excludeAttributes").symm.trans be
          cases hs : searchHolds D "excludeAttributes" with
          | none => rw [hs] at be; cases be; cases e
          | some x =>
            rw [hs] at be
            cases be
            exact .inr ⟨_, by rw [conv_texts e]⟩
      rcases hi with h | ⟨xs, hx⟩
      · exact .inl h
      rcases he with h | ⟨ys, hy⟩
      · exact .inr h
      have l1 := said_list hD (n := "attributes") bi si hx
      have l2 := said_list hD (n := "excludeAttributes") be se hy
      rcases hd.together xs ys hx hy with rfl | rfl
      · exact .inl (List.eq_nil_of_length_eq_zero l1.symm)
      · exact .inr (List.eq_nil_of_length_eq_zero l2.symm)
    have ht : (yi.truthy && ye.truthy) = false := by
      rw [(said_truthy si).1, (said_truthy se).1]
      rcases hone with rfl | rfl <;> simp
    have hc : ∀ {v1 is1}, addChecker v0 {} = .ok (v1, is1) → is1 = {} := by
      intro v1 is1 hq
      unfold addChecker at hq
      rw [vi, ve] at hq
      simp only [ht, Bool.false_eq_true, if_false] at hq
      split at hq
      · split at hq
        · cases hq
        · cases hq; rfl
      · cases hq; rfl
    split at h
    · cases h
    rename_i v1 is1 hq
    have := hc hq
    subst this
    simp only [canProceed_empty, if_true] at h
    split at h
    · cases h
    · cases h; rfl

end Scim.SearchA
