import Verif.Model.Operator
import Verif.Model.Issues
import Verif.Model.AttrRep

/-!
# Parsing of filters (src/filter.py, src/utils.py)

Not modelled: the texts of messages (so `_encode_placeholders` appears only where it computes a value), CPython's
limit of 4300 digits in `int(…)` and its recursion limit.
-/

namespace Scim

/-! ## Placeholders and string literals (src/utils.py) -/

/-- `get_placeholder(index)` without the digits: the two fixed parts (src/utils.py:9-10). -/
def phOpen : Str := "|&PLACE_HOLDER_".toList
/-- see `phOpen` -/
def phClose : Str := "&|".toList

/-- `get_placeholder(index)` (src/utils.py:9-10). -/
def placeholder (n : Nat) : Str := phOpen ++ Nat.toDigits 10 n ++ phClose

/-- `match.span()` of `STRING_VALUES_REGEX.finditer(s)` with the text matched (src/utils.py:6): leftmost quote
that has a partner, up to the next quote of the same kind.  `skip` characters of a match are pending, `pos` is the
position of the first character. -/
def scanStrings : Str → (pos skip : Nat) → List (Nat × Str)
  | [], _, _ => []
  | _ :: cs, pos, skip + 1 => scanStrings cs (pos + 1) skip
  | c :: cs, pos, 0 =>
    if (c = '\'' ∨ c = '"') ∧ c ∈ cs then
      let body := cs.takeWhile (· ≠ c)
      (pos, c :: body ++ [c]) :: scanStrings cs (pos + 1) (body.length + 1)
    else scanStrings cs (pos + 1) 0

/-- The replacement loops: each text found is replaced, where it occurs first, by the placeholder of its position
(src/filter.py:89-93, 171-173, 249-251). -/
def hideLoop : List (Nat × Str) → Str → Str
  | [], s => s
  | (n, t) :: r, s => hideLoop r (replaceFirst t (placeholder n) s)

section
variable [PyEnv]

/-- `int(digits)` -/
def digitsVal (s : Str) : Nat := s.foldl (fun acc c => acc * 10 + (digit c).getD 0) 0

/-- A match of `PLACEHOLDER_REGEX` at the start of `s`: the length of the match and the number (src/utils.py:5). -/
def placeholderAt (s : Str) : Option (Nat × Nat) :=
  if phOpen.isPrefixOf s then
    let r := s.drop phOpen.length
    let ds := r.takeWhile (fun c => (digit c).isSome)
    if !ds.isEmpty && phClose.isPrefixOf (r.drop ds.length) then
      some (phOpen.length + ds.length + phClose.length, digitsVal ds)
    else none
  else none

/-- `parse_placeholder` (src/utils.py:13-17). -/
def parsePlaceholder (s : Str) : Option Nat :=
  match placeholderAt s with
  | some (len, n) => if len = s.length then some n else none
  | none => none

/-- `PLACEHOLDER_REGEX.finditer(s)`: the texts matched and their numbers. -/
def findPlaceholders : Str → (skip : Nat) → List (Str × Nat)
  | [], _ => []
  | _ :: cs, skip + 1 => findPlaceholders cs skip
  | c :: cs, 0 => match placeholderAt (c :: cs) with
    | some (len, n) => ((c :: cs).take len, n) :: findPlaceholders cs (len - 1)
    | none => findPlaceholders cs 0

/-- `_encode_placeholders(exp, string_values)` (src/filter.py:637-654) and `_encode_string_values`
(src/data/path.py:139-145): every match whose number is a key is replaced, everywhere, by the string. -/
def encodeStrings (strings : List (Nat × Str)) (exp : Str) : Str :=
  (findPlaceholders exp 0).foldl (fun acc p => match aget p.2 strings with
    | some s => replaceAll p.1 s acc
    | none => acc) exp

/-- `parse_comparison_value` (src/utils.py:20-41). -/
def parseComparisonValue (s : Str) : PyM Prim :=
  if startsWith ['"'] s && endsWith ['"'] s || startsWith ['\''] s && endsWith ['\''] s then
    .ok (.str (s.drop 1).dropLast)
  else if s = "false".toList then .ok (.bool false)
  else if s = "true".toList then .ok (.bool true)
  else if s = "null".toList then .ok .none
  else match parseFloat s with
    | none => .error .valueError
    | some f => match intOfFloat f with
      | .error e => .error e
      | .ok n => .ok (if f.isIntegral then .int n else .flt f)

/-! ## Splitting at operators -/

/-- A match of `\s*\bKW\b\s*` at the start of `s`: what follows it.  `prevWord` tells whether the character before
is a word character (src/filter.py:20-22). -/
def matchKw (kw : Str) (prevWord : Bool) (s : Str) : Option Str :=
  let t := lstrip s
  if kw.isPrefixOf t && (decide (t.length < s.length) || !prevWord) &&
      !((t.drop kw.length).head?.any isWord) then
    some (lstrip (t.drop kw.length))
  else none

/-- The texts between the matches of `\s*\bKW\b\s*` in `s` (`regexp.finditer`, src/filter.py:396-402). -/
def splitKw (kw : Str) : Str → (prevWord : Bool) → (skip : Nat) → List Str
  | [], _, _ => [[]]
  | c :: cs, _, skip + 1 => splitKw kw cs (isWord c) skip
  | c :: cs, prevWord, 0 =>
    match matchKw kw prevWord (c :: cs) with
    | some rest => [] :: splitKw kw cs (isWord c) (cs.length - rest.length)
    | none => match splitKw kw cs (isWord c) 0 with
      | [] => [[c]]
      | p :: ps => (c :: p) :: ps

/-- `OP_REGEX.split(s)`: the texts between runs of white space (src/utils.py:4). -/
def splitWs : Str → List Str
  | [] => [[]]
  | c :: cs =>
    if isSpace c then
      if cs.head?.any isSpace then splitWs cs else [] :: splitWs cs
    else match splitWs cs with
      | [] => [[c]]
      | p :: ps => (c :: p) :: ps

/-- One issue for every match with an empty neighbour (src/filter.py:404-440). -/
def operandIssues : List Str → Issues → Issues
  | p :: q :: r, issues =>
    operandIssues (q :: r) (if p.isEmpty || q.isEmpty then issues.add { code := 104 } false else issues)
  | _, issues => issues

/-- `_split_exp_to_logical_operands` (src/filter.py:384-451). -/
def splitOperands (kw : Str) (exp : Str) : List Str × Issues :=
  let pieces := splitKw kw exp false 0
  (pieces.filter (fun p => !p.isEmpty), operandIssues pieces {})

end

/-! ## Operators -/

/-- `SCIM_OP` of the comparison operators (src/data/operator.py:327-459). -/
def CmpOp.name : CmpOp → Str
  | .eq => "eq".toList
  | .ne => "ne".toList
  | .co => "co".toList
  | .sw => "sw".toList
  | .ew => "ew".toList
  | .gt => "gt".toList
  | .ge => "ge".toList
  | .lt => "lt".toList
  | .le => "le".toList

/-- All comparison operators, in the order of the dictionary. -/
def CmpOp.all : List CmpOp := [.eq, .ne, .co, .sw, .ew, .gt, .ge, .lt, .le]

/-- `_BINARY_ATTR_OPERATORS.get(name)` (src/filter.py:28-38). -/
def CmpOp.ofName (s : Str) : Option CmpOp := CmpOp.all.find? (fun o => o.name == s)

/-- `type(value) in _ALLOWED_VALUE_TYPES_FOR_BINARY_OPERATORS[op]` (src/filter.py:40-50). -/
def CmpOp.allows : CmpOp → Prim → Bool
  | .eq, _ | .ne, _ => true
  | .co, v | .sw, v | .ew, v =>
    match v with
    | .str _ => true
    | _ => false
  | .gt, v | .ge, v | .lt, v | .le, v =>
    match v with
    | .str _ | .flt _ | .int _ => true
    | _ => false

/-- A parsed group or complex-attribute filter (src/filter.py:62-73). -/
structure Parsed where
  op : Option Op
  issues : Issues
  exp : Str

/-- The dictionaries handed down to the parsing functions. -/
structure FCtx where
  strings : List (Nat × Str)
  groups : List (Nat × Parsed)
  cplx : List (Nat × Parsed)

section
variable [PyEnv]

/-- The constructor of a comparison operator (src/data/operator.py:241-248). -/
def mkCmp (o : CmpOp) (v : Prim) (r : AttrRep) : PyM Op :=
  if o.supportsValue v then .ok (.cmp o r v) else .error .typeError

/-- An operator on an attribute or, wrapped, on a sub-attribute (src/filter.py:523-529, 600-606). -/
def onAttrRep (r : AttrRep) (mk : AttrRep → PyM Op) : PyM Op :=
  if r.sub.isEmpty then mk r
  else match AttrRep.make r.schema r.attr [] with
    | .error e => .error e
    | .ok top => match AttrRep.make [] r.sub [] with
      | .error e => .error e
      | .ok sub => match mk sub with
        | .error e => .error e
        | .ok o => .ok (.cplx top o)

/-- `_get_parsed_group_or_complex_op` (src/filter.py:622-635). -/
def FCtx.lookup (ctx : FCtx) (s : Str) : Option Parsed :=
  match parsePlaceholder s with
  | none => none
  | some n => match aget n ctx.groups with
    | some p => some p
    | none => aget n ctx.cplx

/-- Two components: a unary operator (src/filter.py:471-530). -/
def parseUnary (name opText : Str) : PyM (Option Op × Issues) :=
  let opName := lower opText
  let issues : Issues :=
    if opName = "pr".toList then {}
    else if (CmpOp.ofName opName).isSome then Issues.add {} { code := 104 } false
    else Issues.add {} { code := 105 } false
  match AttrRep.parse name with
  | none => .ok (none, issues.add { code := 111 } false)
  | some r =>
    if !issues.canProceed then .ok (none, issues)
    else match onAttrRep r (fun x => .ok (.pr x)) with
      | .error e => .error e
      | .ok o => .ok (some o, issues)

/-- Three components: a comparison (src/filter.py:532-607). -/
def parseBinary (strings : List (Nat × Str)) (name opText value : Str) : PyM (Option Op × Issues) :=
  let op? := CmpOp.ofName (lower opText)
  let issues : Issues := if op?.isNone then Issues.add {} { code := 105 } false else {}
  let rep? := AttrRep.parse name
  let issues := if rep?.isNone then issues.add { code := 111 } false else issues
  let value? : PyM (Option Prim) := match parseComparisonValue (encodeStrings strings value) with
    | .ok v => .ok (some v)
    | .error e => if e.isValueError then .ok none else .error e
  match value? with
  | .error e => .error e
  | .ok value? =>
    let issues := if value?.isNone then issues.add { code := 112 } false else issues
    match op?, rep?, value? with
    | some o, some r, some v =>
      if !o.allows v then .ok (none, issues.add { code := 113 } false)
      else match onAttrRep r (mkCmp o v) with
        | .error e => .error e
        | .ok op => .ok (some op, issues)
    | _, _, _ => .ok (none, issues)

/-- `_parse_op_attr_exp` (src/filter.py:453-620). -/
def parseAttrExp (ctx : FCtx) (exp : Str) : PyM (Option Op × Issues) :=
  let exp := strip exp
  match ctx.lookup exp with
  | some p => .ok (p.op, p.issues)
  | none => match splitWs exp with
    | [a, b] => parseUnary a b
    | [a, b, c] => parseBinary ctx.strings a b c
    | _ => .ok (none, Issues.add {} { code := 106 } false)

/-- One operand of a conjunction, possibly negated (src/filter.py:338-374): the operator, if there are no issues so
far, and the issues so far. -/
def parseAndOperand (ctx : FCtx) (exp : Str) (issues : Issues) : PyM (Option Op × Issues) :=
  match matchKw "not".toList false exp with
  | some rest =>
    if rest.isEmpty then .ok (none, issues.add { code := 104 } false)
    else match parseAttrExp ctx rest with
      | .error e => .error e
      | .ok (o, is) =>
        let issues := issues.merge is
        .ok (if issues.canProceed then o.map Op.not else none, issues)
  | none => match parseAttrExp ctx exp with
    | .error e => .error e
    | .ok (o, is) =>
      let issues := issues.merge is
      .ok (if issues.canProceed then o else none, issues)

/-- The loops over the operands (src/filter.py:296-307, 336-375); `f` parses one operand.  Python's `None` among the
operands is kept. -/
def operandLoop (f : Str → Issues → PyM (Option Op × Issues)) :
    List Str → Issues → PyM (List (Option Op) × Issues)
  | [], issues => .ok ([], issues)
  | x :: xs, issues => match f x issues with
    | .error e => .error e
    | .ok (o, issues) => match operandLoop f xs issues with
      | .error e => .error e
      | .ok (os, issues) => .ok (o :: os, issues)

/-- All operands, when none is `None`; the end of `_parsed_op_or_exp` and `_parse_op_and_exp`
(src/filter.py:309-314, 377-382).  `None` operands come with issues (`C52`), so the operator class is never called
with them. -/
def joinOperands (mk : List Op → Op) (os : List (Option Op)) (issues : Issues) : Option Op × Issues :=
  if !issues.canProceed then (none, issues)
  else match os with
    | [o] => (o, issues)
    | _ => (some (mk (os.filterMap id)), issues)

/-- `_parse_op_and_exp` (src/filter.py:316-382). -/
def parseAnd (ctx : FCtx) (exp : Str) : PyM (Option Op × Issues) :=
  match splitOperands "and".toList exp with
  | ([], is) => .ok (none, Issues.merge {} is)
  | (xs, is) => match operandLoop (parseAndOperand ctx) xs (Issues.merge {} is) with
    | .error e => .error e
    | .ok (os, issues) => .ok (joinOperands .and os issues)

/-- One operand of a disjunction (src/filter.py:298-306). -/
def parseOrOperand (ctx : FCtx) (exp : Str) (issues : Issues) : PyM (Option Op × Issues) :=
  match parseAnd ctx exp with
  | .error e => .error e
  | .ok (o, is) =>
    let issues := issues.merge is
    .ok (if issues.canProceed then o else none, issues)

/-- `_parsed_op_or_exp` (src/filter.py:276-314). -/
def parseOr (ctx : FCtx) (exp : Str) : PyM (Option Op × Issues) :=
  match splitOperands "or".toList exp with
  | ([], is) => .ok (none, Issues.merge {} is)
  | (xs, is) => match operandLoop (parseOrOperand ctx) xs (Issues.merge {} is) with
    | .error e => .error e
    | .ok (os, issues) => .ok (joinOperands .or os issues)

end

/-! ## Round brackets -/

/-- What the loop over the characters of `_parse_operator` finds: the groups with their positions, the number of `)`
without partner, and whether a group is still open at the end. -/
structure GroupScan where
  groups : List (Nat × Str) := []
  stray : Nat := 0
  unclosed : Bool := false
deriving DecidableEq, Repr

/-- An open group: its position, its text so far (reversed), and the nesting depth. -/
structure OpenGroup where
  start : Nat
  text : Str
  depth : Nat
deriving DecidableEq, Repr

/-- The loop over the characters of `_parse_operator` (src/filter.py:221-253); the parsing of the groups it
triggers is separated (`parseGroups`).  The test `bracket_open_index not in parsed_group_ops` of line 255 is
omitted: the keys are positions of earlier brackets. -/
def scanGroups : Str → (pos : Nat) → (ignore : Bool) → Option OpenGroup → GroupScan
  | [], _, _, g => { unclosed := g.isSome }
  | c :: cs, pos, ignore, g =>
    let ignore := if c = '"' then !ignore else ignore
    if ignore then scanGroups cs (pos + 1) ignore (g.map (fun g => { g with text := c :: g.text }))
    else match g with
      | none =>
        if c = '(' then scanGroups cs (pos + 1) ignore (some { start := pos, text := [c], depth := 1 })
        else if c = ')' then
          let r := scanGroups cs (pos + 1) ignore none
          { r with stray := r.stray + 1 }
        else scanGroups cs (pos + 1) ignore none
      | some g =>
        let text := c :: g.text
        if c = '(' then scanGroups cs (pos + 1) ignore (some { g with text, depth := g.depth + 1 })
        else if c = ')' then
          if g.depth - 1 = 0 then
            let r := scanGroups cs (pos + 1) ignore none
            { r with groups := (g.start, text.reverse) :: r.groups }
          else scanGroups cs (pos + 1) ignore (some { g with text, depth := g.depth - 1 })
        else scanGroups cs (pos + 1) ignore (some { g with text })

/-- `n` times the issue 100. -/
def strayIssues : Nat → Issues → Issues
  | 0, issues => issues
  | n + 1, issues => strayIssues n (issues.add { code := 100 } false)

/-- Parsing the groups found (src/filter.py:237-248); `f` is `_parse_operator`. -/
def parseGroups (f : Str → PyM (Option Op × Issues)) : List (Nat × Str) → PyM (List (Nat × Parsed))
  | [] => .ok []
  | (n, t) :: r => match f (t.drop 1).dropLast with
    | .error e => .error e
    | .ok (o, is) => match parseGroups f r with
      | .error e => .error e
      | .ok ps => .ok ((n, { op := o, issues := is, exp := t }) :: ps)

section
variable [PyEnv]

/-- `_parse_operator` (src/filter.py:207-274).  The first argument bounds the recursion; the text of a group is
shorter than the text it stands in, so a bound greater than the length is never used up (`C53`). -/
def parseOperator : Nat → List (Nat × Str) → List (Nat × Parsed) → Str → PyM (Option Op × Issues)
  | 0, _, _, _ => .error .recursion
  | fuel + 1, strings, cplx, exp =>
    let sc := scanGroups exp 0 false none
    match parseGroups (parseOperator fuel strings cplx) sc.groups with
    | .error e => .error e
    | .ok groups =>
      let issues := strayIssues sc.stray {}
      let issues := if sc.unclosed then issues.add { code := 100 } false else issues
      let pre := strip (hideLoop sc.groups exp)
      let issues := if pre.isEmpty then issues.add { code := 107 } false else issues
      if !issues.canProceed then .ok (none, issues)
      else match parseOr { strings, groups, cplx } pre with
        | .error e => .error e
        | .ok (o, is) =>
          let issues := issues.merge is
          .ok (if issues.canProceed then o else none, issues)

/-! ## Square brackets -/

/-- A complex-attribute filter found in the text. -/
structure CplxItem where
  start : Nat
  rep : Str
  sub : Str
deriving DecidableEq, Repr

/-- `{complex_attr_rep}[{sub_ops_exp}]` (src/filter.py:127). -/
def CplxItem.exp (x : CplxItem) : Str := x.rep ++ '[' :: x.sub ++ [']']

/-- What the loop over the characters of `Filter.parse` finds. -/
structure CplxScan where
  items : List CplxItem := []
  /-- number of `]` without partner -/
  stray : Nat := 0
  /-- `[` inside `[`: the loop is left -/
  nested : Bool := false
  /-- position of a `[` still open at the end -/
  opened : Option Nat := none
deriving DecidableEq, Repr

/-- An open bracket: its position and the text after it (reversed). -/
structure OpenBracket where
  start : Nat
  text : Str
deriving DecidableEq, Repr

/-- The loop over the characters of `Filter.parse` (src/filter.py:95-179); the parsing it triggers is separated
(`parseCplxItems`).  `rep` is `complex_attr_rep`, reversed; its characters directly precede the bracket, so the
subtraction of line 126 is never negative. -/
def scanCplx : Str → (pos : Nat) → (ignore : Bool) → (rep : Str) → Option OpenBracket → CplxScan
  | [], _, _, _, b => { opened := b.map (·.start) }
  | c :: cs, pos, ignore, rep, b =>
    let ignore := if c = '"' then !ignore else ignore
    if ignore then scanCplx cs (pos + 1) ignore rep (b.map (fun b => { b with text := c :: b.text }))
    else match b with
      | none =>
        if isWord c || c = ':' || c = '.' then scanCplx cs (pos + 1) ignore (c :: rep) none
        else if c = '[' then scanCplx cs (pos + 1) ignore rep (some { start := pos, text := [] })
        else if c = ']' then
          let r := scanCplx cs (pos + 1) ignore [] none
          { r with stray := r.stray + 1 }
        else scanCplx cs (pos + 1) ignore [] none
      | some b =>
        if c = '[' then { nested := true, opened := some b.start }
        else if c = ']' then
          let r := scanCplx cs (pos + 1) ignore [] none
          { r with items := { start := b.start - rep.length, rep := rep.reverse, sub := b.text.reverse } :: r.items }
        else scanCplx cs (pos + 1) ignore rep (some { b with text := c :: b.text })

/-- Parsing one complex-attribute filter (src/filter.py:125-170). -/
def parseCplxItem (strings : List (Nat × Str)) (x : CplxItem) : PyM Parsed :=
  let issues : Issues := if (strip x.sub).isEmpty then Issues.add {} { code := 110 } false else {}
  match AttrRep.parse x.rep with
  | none => .ok { op := none, issues := issues.add { code := 111 } false, exp := x.exp }
  | some r =>
    let issues := if !r.sub.isEmpty then issues.add { code := 33 } false else issues
    if !issues.canProceed then .ok { op := none, issues, exp := x.exp }
    else match parseOperator (x.sub.length + 1) strings [] x.sub with
      | .error e => .error e
      | .ok (o, is) => .ok { op := if is.canProceed then o.map (Op.cplx r) else none, issues := is, exp := x.exp }

/-- Parsing the complex-attribute filters found, in order (src/filter.py:148-170). -/
def parseCplxItems (strings : List (Nat × Str)) : List CplxItem → PyM (List (Nat × Parsed))
  | [] => .ok []
  | x :: xs => match parseCplxItem strings x with
    | .error e => .error e
    | .ok p => match parseCplxItems strings xs with
      | .error e => .error e
      | .ok ps => .ok ((x.start, p) :: ps)

/-- `n` times the issue 102. -/
def strayBracketIssues : Nat → Issues → Issues
  | 0, issues => issues
  | n + 1, issues => strayBracketIssues n (issues.add { code := 102 } false)

/-- `for parsed in parsed_complex_ops.values(): issues.merge(issues=parsed.issues)` -/
def mergeParsed : List (Nat × Parsed) → Issues → Issues
  | [], issues => issues
  | (_, p) :: r, issues => mergeParsed r (issues.merge p.issues)

/-- The check for a bracket still open at the end; position 0 counts as none (src/filter.py:186-190). -/
def openedIssues (opened : Option Nat) (cplx : List (Nat × Parsed)) (issues : Issues) : Issues :=
  match opened with
  | some (i + 1) => if (aget (i + 1) cplx).isNone then issues.add { code := 102 } false else issues
  | _ => issues

/-- `Filter.parse` (src/filter.py:84-205); `none` is `Invalid`. -/
def Filter.parse (s : Str) : PyM (Option Op × Issues) :=
  let strings := scanStrings s 0 0
  let exp := hideLoop strings s
  let sc := scanCplx exp 0 false [] none
  match parseCplxItems strings sc.items with
  | .error e => .error e
  | .ok cplx =>
    let issues := strayBracketIssues sc.stray {}
    let issues := if sc.nested then issues.add { code := 109 } false else issues
    if !issues.canProceed then .ok (none, mergeParsed cplx issues)
    else
      let issues := openedIssues sc.opened cplx issues
      if !issues.canProceed then .ok (none, mergeParsed cplx issues)
      else
        let exp := hideLoop (sc.items.map (fun x => (x.start, x.exp))) exp
        match parseOperator (exp.length + 1) strings cplx exp with
        | .error e => .error e
        | .ok (o, is) =>
          let issues := issues.merge is
          .ok (if issues.canProceed then o else none, issues)

end

/-! ## Use of a filter -/

mutual
/-- `Filter._to_dict` (src/filter.py:671-702). -/
def Op.toDict : Op → Val
  | .pr r => .dict [("op".toList, .str "pr".toList), ("attr_rep".toList, .str (Op.repText r))]
  | .cmp o r v => .dict [("op".toList, .str o.name), ("attr_rep".toList, .str (Op.repText r)), ("value".toList, .prim v)]
  | .cplx r sub => .dict [("op".toList, .str "complex".toList), ("attr_rep".toList, .str (Op.repText r)),
      ("sub_op".toList, sub.toDict)]
  | .not sub => .dict [("op".toList, .str "not".toList), ("sub_op".toList, sub.toDict)]
  | .and subs => .dict [("op".toList, .str "and".toList), ("sub_ops".toList, .list (Op.toDicts subs))]
  | .or subs => .dict [("op".toList, .str "or".toList), ("sub_ops".toList, .list (Op.toDicts subs))]
/-- The list of operands. -/
def Op.toDicts : List Op → List Val
  | [] => []
  | o :: os => o.toDict :: Op.toDicts os
/-- `attr_rep.sub_attr or attr_rep.attr_with_schema` -/
def Op.repText (r : AttrRep) : Str := if r.sub.isEmpty then r.attrWithSchema else r.sub
end

section
variable [PyEnv]

/-- `Filter.__call__` (src/filter.py:656-661). -/
def Filter.call (o : Op) (data : Val) (attrs : List Attr) (strict : Bool := true) : PyM MatchStatus :=
  o.matchOn data attrs strict

/-- `Filter.__eq__` on filters (src/filter.py:663-666). -/
def Filter.eq (a b : Op) : PyM Bool := a.toDict.toCont.pyEq b.toDict.toCont

end
end Scim
