#!/usr/bin/env python3
"""Write lean/Verif/Model/Messages.lean and lean/Verif/Spec/Messages.lean from the table of messages and the factories in
/repo/src/error.py (read as text)."""
import ast, pathlib, re
src = pathlib.Path("/repo/src/error.py").read_text()
tree = ast.parse(src)
cls = next(n for n in tree.body if isinstance(n, ast.ClassDef) and n.name == "ValidationError")
table = next(n for n in cls.body if isinstance(n, ast.Assign))
templates = [(k.value, v.value, k.lineno, v.end_lineno) for k, v in zip(table.value.keys, table.value.values)]
facts = []
for n in cls.body:
    if isinstance(n, ast.FunctionDef) and any(isinstance(d, ast.Name) and d.id == "classmethod" for d in n.decorator_list):
        params = [a.arg for a in n.args.args[1:]]
        call = n.body[0].value
        kws = {k.arg: k.value for k in call.keywords}
        code = kws.pop("code").value
        ctx = []
        for k, v in kws.items():
            if isinstance(v, ast.Name):
                ctx.append((k, v.id))
            else:
                assert n.name == "multiple_primary_values"
                ctx.append((k, None))
        facts.append((n.name, params, code, ctx, n.decorator_list[0].lineno, n.end_lineno))

def camel(s):
    p = [x for x in s.split("_") if x]
    r = p[0] + "".join(x.capitalize() for x in p[1:])
    return r + "_" if r in ("at", "where", "end", "attribute") else r

def lit(s):
    return '"' + s.replace("\\", "\\\\").replace('"', '\\"') + '"'

o = []
w = o.append
w('''import Verif.Model.Base

/-!
# Messages (`ValidationError`, src/error.py:5-302)

Written by `tools/gen_messages.py` from the table of messages and the class methods.  A value that is put into a message is
represented by its two texts: what `str` (which is what `format` uses for the values occurring here) and `repr` make of it.
-/

namespace Scim.Messages

/-- A value, as far as messages are concerned. -/
structure Arg where
  str : Str
  repr : Str
deriving DecidableEq, Repr

/-- A part of a format string: literal text, `{name}` or `{name!r}`. -/
inductive Seg where
  | lit (s : Str)
  | str (name : Str)
  | repr (name : Str)
deriving DecidableEq, Repr

/-- A replacement field, without its braces. -/
def field (s : Str) : Seg :=
  if s.drop (s.length - 2) = ['!', 'r'] then .repr (s.take (s.length - 2)) else .str s

/-- The parts of a format string, for strings without doubled braces, format specifications and indices (none of the
messages has any).  `cur` is the text read so far, `inside` whether it is inside braces. -/
def segments (inside : Bool) (cur : Str) : Str → List Seg
  | [] => if cur.isEmpty then [] else [.lit cur]
  | c :: r =>
    if inside then
      if c = '}' then field cur :: segments false [] r else segments true (cur ++ [c]) r
    else if c = '{' then (if cur.isEmpty then segments true [] r else .lit cur :: segments true [] r)
    else segments false (cur ++ [c]) r

/-- `str.format(**context)`: a name that is not in the context raises `KeyError`. -/
def fill (context : List (Str × Arg)) : List Seg → PyM Str
  | [] => .ok []
  | s :: r =>
    match (match s with
      | .lit t => Except.ok t
      | .str n => match aget n context with
        | some a => .ok a.str
        | none => .error PyErr.keyError
      | .repr n => match aget n context with
        | some a => .ok a.repr
        | none => .error PyErr.keyError) with
    | .error e => .error e
    | .ok t => match fill context r with
      | .error e => .error e
      | .ok ts => .ok (t ++ ts)

/-- `_message_for_code` (src/error.py:6-71). -/
def table : List (Nat × Str) := [''')
for i, (c, t, a, b) in enumerate(templates):
    w(f"  ({c}, {lit(t)}.toList)" + ("," if i + 1 < len(templates) else "]"))
w('''
/-- An error (src/error.py:73-77). -/
structure Error where
  code : Nat
  message : Str
  context : List (Str × Arg)
deriving DecidableEq, Repr

/-- `ValidationError.__init__` (src/error.py:73-77). -/
def mk (code : Nat) (context : List (Str × Arg)) : PyM Error :=
  match aget code table with
  | none => .error .keyError
  | some t => match fill context (segments false [] t) with
    | .error e => .error e
    | .ok m => .ok { code, message := m, context }

/-- `", ".join(…)` -/
def joinComma : List Str → Str
  | [] => []
  | [x] => x
  | x :: y :: r => x ++ ", ".toList ++ joinComma (y :: r)

/-- The value of a text, given the text and its `repr`. -/
def entries (ns : List Nat) (repr : Str) : Arg := { str := joinComma (ns.map fun n => (toString n).toList), repr }

/-- The calls of the class methods. -/
inductive Call where''')
for name, params, code, ctx, a, b in facts:
    w(f"  /-- src/error.py:{a}-{b} -/")
    if name == "multiple_primary_values":
        w(f"  | {camel(name)} (primaryEntryNumbers : List Nat) (joined : Str)")
    else:
        ps = " ".join(camel(p) for p in params)
        w(f"  | {camel(name)}" + (f" ({ps} : Arg)" if ps else ""))
w('''deriving DecidableEq, Repr

/-- The code and the context each class method hands over (src/error.py:79-286); `joined` is the `repr` of the joined
numbers, which is not used. -/
def Call.parts : Call → Nat × List (Str × Arg)''')
for name, params, code, ctx, a, b in facts:
    if name == "multiple_primary_values":
        w(f"  | .{camel(name)} ns joined => ({code}, [({lit(ctx[0][0])}.toList, entries ns joined)])")
    else:
        pat = " ".join([f".{camel(name)}"] + [camel(p) for p in params])
        w(f"  | {pat} => ({code}, [" + ", ".join(f"({lit(k)}.toList, {camel(v)})" for k, v in ctx) + "])")
w('''
/-- What a class method returns. -/
def Call.make (c : Call) : PyM Error := mk c.parts.1 c.parts.2

/-! ## Equality -/

/-- What an error may be compared with: an error, a text or anything else (which is equal to no text). -/
inductive Obj where
  | err (e : Error)
  | text (s : Str)
  | other
deriving DecidableEq, Repr

/-- `x == s` for a text `s`: for an error `ValidationError.__eq__` (src/error.py:301-302). -/
def Obj.eqText (x : Obj) (s : Str) : Bool :=
  match x with
  | .err e => decide (s = e.message)
  | .text t => decide (t = s)
  | .other => false

/-- `ValidationError.__eq__` (src/error.py:301-302): `o == self._message`. -/
def Error.eq (e : Error) (o : Obj) : Bool := o.eqText e.message

end Scim.Messages''')
pathlib.Path("/verif/lean/Verif/Model/Messages.lean").write_text("\n".join(o) + "\n")

# specification: the messages written out
o = []
w = o.append
w('''import Verif.Model.Messages

/-!
# The messages, written out (C102)

Written by `tools/gen_messages.py`.
-/

namespace Scim.Messages

/-- the code of each kind of error -/
def Call.code : Call → Nat''')
for name, params, code, ctx, a, b in facts:
    n = 2 if name == "multiple_primary_values" else len(params)
    w("  | " + " ".join([f".{camel(name)}"] + ["_"] * n) + f" => {code}")
w('''
/-- the values an error is about, under their names -/
def Call.values : Call → List (String × Arg)''')
for name, params, code, ctx, a, b in facts:
    if name == "multiple_primary_values":
        w(f"  | .{camel(name)} ns joined => [({lit(ctx[0][0])}, entries ns joined)]")
    else:
        pat = " ".join([f".{camel(name)}"] + [camel(p) for p in params])
        w(f"  | {pat} => [" + ", ".join(f"({lit(k)}, {camel(v)})" for k, v in ctx) + "]")
w('''
/-- the message of each kind of error -/
def Call.text : Call → Str''')
tm = {c: t for c, t, *_ in templates}
for name, params, code, ctx, a, b in facts:
    d = dict(ctx)
    parts = re.split(r"(\{[^}]*\})", tm[code])
    out = []
    used = set()
    for p in parts:
        if not p:
            continue
        if p[0] == "{":
            f = p[1:-1]
            r = f.endswith("!r")
            f = f[:-2] if r else f
            if name == "multiple_primary_values":
                out.append("joinComma (ns.map fun n => (toString n).toList)")
                used.add("ns")
            else:
                out.append(f"{camel(d[f])}." + ("repr" if r else "str"))
                used.add(d[f])
        else:
            out.append(lit(p) + ".toList")
    assert name == "multiple_primary_values" or used == set(params), name
    if name == "multiple_primary_values":
        pat = f".{camel(name)} ns _"
    else:
        pat = " ".join([f".{camel(name)}"] + [camel(p) for p in params])
    w(f"  | {pat} => List.flatten [" + ", ".join(out) + "]")
w('''
/-- a value is a text: its `repr` begins with a quotation mark -/
def Arg.IsText (a : Arg) : Prop := a.repr.head? = some '\\'' ∨ a.repr.head? = some '"'

/-- how the program calls the class methods: names of attributes are texts, and operators are unary or binary (src/filter.py:490-494, 536-540) -/
def Call.Proper : Call → Prop
  | .emptyComplexAttributeExpression a => a.IsText
  | .badAttributeName a => a.IsText
  | .unknownOperator t _ _ => t.str = "unary".toList ∨ t.str = "binary".toList
  | _ => True

end Scim.Messages''')
pathlib.Path("/verif/lean/Verif/Spec/Messages.lean").write_text("\n".join(o) + "\n")

# the parts of the messages, computed once and for all
o = []
w = o.append
w('''import Verif.Spec.Messages

/-! The parts of the messages (written by `tools/gen_messages.py`). -/

namespace Scim.Messages

/-- the parts of the format string used by each class method -/
def Call.segs : Call → List Seg''')
for name, params, code, ctx, a, b in facts:
    n = 2 if name == "multiple_primary_values" else len(params)
    out = []
    for p in re.split(r"(\{[^}]*\})", tm[code]):
        if not p:
            continue
        if p[0] == "{":
            f = p[1:-1]
            out.append(f".repr {lit(f[:-2])}.toList" if f.endswith("!r") else f".str {lit(f)}.toList")
        else:
            out.append(f".lit {lit(p)}.toList")
    w("  | " + " ".join([f".{camel(name)}"] + ["_"] * n) + " => [" + ", ".join(out) + "]")
w('''
end Scim.Messages''')
pathlib.Path("/verif/lean/Verif/Lemmas/MessageParts.lean").write_text("\n".join(o) + "\n")
