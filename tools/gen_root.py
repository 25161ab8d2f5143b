"""Regenerate lean/Verif.lean: import every module under lean/Verif."""
import os
root = os.path.join(os.path.dirname(__file__), "..", "lean")
mods = []
for d, _, fs in os.walk(os.path.join(root, "Verif")):
    for f in fs:
        if f.endswith(".lean"):
            rel = os.path.relpath(os.path.join(d, f), root)
            mods.append(rel[:-5].replace(os.sep, "."))
open(os.path.join(root, "Verif.lean"), "w").write("".join(f"import {m}\n" for m in sorted(mods)))
