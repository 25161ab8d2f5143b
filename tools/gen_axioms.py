"""Rewrite the table of axioms in DESIGN.md, between its two markers.  Needs a finished `lake build`."""
import json, pathlib, re, subprocess, tempfile, os
root = pathlib.Path(__file__).resolve().parent.parent
claims = json.load(open(root/"MANIFEST.json"))["claims"]
names = [t for c in claims for t in c["theorems"]]
with tempfile.NamedTemporaryFile("w", suffix=".lean", delete=False) as f:
    f.write("import Verif\n" + "".join(f"#print axioms {n}\n" for n in names))
out = subprocess.run(["lake", "env", "lean", f.name], cwd=root/"lean", capture_output=True, text=True).stdout
os.unlink(f.name)
ax = {}
for m in re.finditer(r"'([^']+)' (does not depend on any axioms|depends on axioms: \[([^\]]*)\])", out):
    ax[m.group(1)] = tuple(sorted(x.strip() for x in (m.group(3) or "").split(",") if x.strip()))
missing = [n for n in names if n not in ax]
assert not missing, (missing[:3], out[:500])
groups = {}
for n in names:
    groups.setdefault(ax[n], []).append(n)
def short(n): return n.rsplit(".", 1)[-1]
text = ""
for a in sorted(groups, key=lambda a: (len(a), a)):
    text += f"* {', '.join(f'`{x}`' for x in a) if a else 'no axioms'} ({len(groups[a])}): " + ", ".join(short(n) for n in groups[a]) + "\n"
p = root/"DESIGN.md"
s = p.read_text()
b, e = "<!-- axioms -->\n", "<!-- end axioms -->\n"
i, j = s.index(b) + len(b), s.index(e)
p.write_text(s[:i] + text + s[j:])
print({a: len(g) for a, g in groups.items()})
