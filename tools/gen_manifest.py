"""Regenerate MANIFEST.json.  Statuses and notes are listed here; theorem names are collected from
lean/Verif/Props/*.lean by their Cnn_ prefix."""
import json, os, re, glob
root = os.path.join(os.path.dirname(__file__), "..")
names = {}
for f in sorted(glob.glob(os.path.join(root, "lean/Verif/Props/*.lean"))):
    ns = []
    for line in open(f):
        m = re.match(r"namespace (\S+)", line)
        if m: ns.append(m.group(1))
        m = re.match(r"end (\S+)", line)
        if m and ns and ns[-1] == m.group(1): ns.pop()
        m = re.match(r"theorem (C(\d\d+)_\w+)", line)
        if m: names.setdefault("C" + m.group(2), []).append(".".join(ns + [m.group(1)]))
STATUS = {}
exec(open(os.path.join(os.path.dirname(__file__), "status.py")).read())
claims = []
for pid in sorted(set(names) | set(STATUS), key=lambda c: int(c[1:])):
    st, note = STATUS.get(pid, ("proved", ""))
    claims.append({"property": pid, "status": st, "theorems": names.get(pid, []), "note": note})
json.dump({"claims": claims}, open(os.path.join(root, "MANIFEST.json"), "w"), indent=1)
print(len(claims), "claims", sum(len(c["theorems"]) for c in claims), "theorems")
