#!/usr/bin/env python3
"""Run the theorems against wrong programs.

usage: mutate.py MUTANTS.py [id ...]

MUTANTS.py defines MUTANTS, a list of dicts: id, file (under lean/Verif/Model), definition, edit (words), old, new, claim
(ids of the properties that the edit makes false).  Every mutant is applied to a scratch copy in /tmp/mut/lean,
which is rebuilt; one line per mutant is appended to seeded/LOG.jsonl.
"""
import json, os, re, subprocess, sys, runpy

VERIF = "/verif"
WORK = "/tmp/mut/lean"
LOG = VERIF + "/seeded/LOG.jsonl"


def deps():
    d = {}
    for line in open("/tmp/mut/deps.txt"):
        n, *r = line.split()
        d[n] = set(r)
    return d


DECL = re.compile(r"^(?:@\[[^\]]*\] )?(?:private |protected |noncomputable |local )*(theorem|def|example|instance|inductive|structure|abbrev|lemma)\b\s*([^\s:({\[]*)")


def decl_at(path, line):
    lines = open(path).read().split("\n")
    for i in range(line - 1, -1, -1):
        m = DECL.match(lines[i])
        if m:
            return m.group(1), (m.group(2) or f"example@{os.path.basename(path)}:{i+1}")
    return "?", "?"


def decl_line(path, line):
    lines = open(path).read().split("\n")
    for i in range(line - 1, -1, -1):
        if DECL.match(lines[i]):
            return i
    return None


TOP = re.compile(r"^(theorem|def|example|instance|inductive|structure|abbrev|lemma|private|protected|noncomputable|local|end|namespace|section|variable|omit|open|mutual|attribute|set_option|@\[|/--|/-!)")


def silence(path, start):
    """Replace the proof of the declaration that starts at line `start` by sorry."""
    lines = open(path).read().split("\n")
    end = start + 1
    while end < len(lines) and not TOP.match(lines[end]):
        end += 1
    text = "\n".join(lines[start:end])
    kind = DECL.match(lines[start]).group(1)
    if kind == "example":
        new = "example : True := trivial\n"
    else:
        m = re.search(r":=( by)?[ ]*$", text, re.M) or re.search(r":= by\b", text) or re.search(r":= (?!.*:= )", text)
        if not m or kind != "theorem":
            return False
        new = text[:m.start()] + ":= by sorry\n"
    lines[start:end] = new.split("\n")
    open(path, "w").write("\n".join(lines))
    return True


def build():
    p = subprocess.run(["lake", "build"], cwd=WORK, capture_output=True, text=True)
    out = p.stdout + p.stderr
    for f in set(re.findall(r"(Verif/\S+\.lean) -o \S+[^\n]*\nerror: Lean exited with code 137", out)):
        # a proof that no longer fits ran away with the memory: ask where
        q = subprocess.run(["lake", "env", "lean", "-M", "5000", f], cwd=WORK, capture_output=True, text=True)
        out += "".join(f"error: {l}\n" for l in (q.stdout + q.stderr).split("\n") if "error" in l)
    return p.returncode, out


def mutual_names(path, start):
    """The names of the declarations of the mutual block around line `start`, if any."""
    lines = open(path).read().split("\n")
    b = start
    while b >= 0 and lines[b] != "mutual" and lines[b] != "end":
        b -= 1
    if b < 0 or lines[b] != "mutual":
        return []
    e = start
    while lines[e] != "end":
        e += 1
    return [m.group(2) for m in map(DECL.match, lines[b:e]) if m]


def failures(out):
    res = {}
    for f, l in re.findall(r"error: (Verif/\S+\.lean):(\d+):\d+", out):
        path = f"{WORK}/{f}"
        i = decl_line(path, int(l))
        if i is not None:
            res.setdefault(path, set()).add(i)
    return res


def claims_of(dep, failed):
    claims = []
    for c, ds in dep.items():
        if any(x == n or x.endswith("." + n) for n in failed for x in ds):
            claims.append(c.split(".")[-1])
    return claims


def main():
    muts = runpy.run_path(sys.argv[1])["MUTANTS"]
    only = set(sys.argv[2:])
    subprocess.run(["rm", "-rf", WORK])
    subprocess.run(["cp", "-a", os.environ.get("MUTATE_SRC", VERIF + "/lean"), WORK], check=True)
    dep = deps()
    done = set()
    if os.path.exists(LOG):
        for l in open(LOG):
            done.add(json.loads(l)["id"])
    for m in muts:
        if only and m["id"] not in only or not only and m["id"] in done:
            continue
        path = f"{WORK}/Verif/Model/{m['file']}.lean"
        src = open(path).read()
        if src.count(m["old"]) != 1:
            print("BAD MUTANT", m["id"], src.count(m["old"]), flush=True)
            continue
        open(path, "w").write(src.replace(m["old"], m["new"]))
        failed, broken, saved, inconclusive, hit, claims = [], [], {}, None, [], []
        # when a lemma fails, the modules that import it are not checked; leave it open and go on until a theorem
        # about the claim fails
        for rnd in range(14):
            code, out = build()
            todo = failures(out)
            if code != 0 and not todo:
                # killed from outside, or an error without a position: say nothing about this mutant
                code, out = build()
                todo = failures(out)
            if code != 0 and not todo:
                inconclusive = out[-400:]
                break
            for p, starts in todo.items():
                for i in sorted(starts):
                    kind, name = decl_at(p, i + 1)
                    if "/Verif/Model/" in p and "Assets" not in p:
                        broken.append(name)
                    for name in [name] + mutual_names(p, i):
                        if name not in failed:
                            failed.append(name)
            claims = claims_of(dep, failed)
            hit = [c for c in claims if any(c.startswith(k + "_") for k in m["claim"])]
            if broken or hit or not todo:
                break
            ok = True
            for p, starts in todo.items():
                saved.setdefault(p, open(p).read())
                for i in sorted(starts, reverse=True):
                    ok = silence(p, i) and ok
            if not ok:
                print("CANNOT SILENCE", m["id"], failed[-3:], flush=True)
                break
        for p, t in saved.items():
            open(p, "w").write(t)
        open(path, "w").write(src)
        if broken:
            print("MUTANT DOES NOT COMPILE", m["id"], broken, flush=True)
            continue
        if inconclusive and not hit:
            print("INCONCLUSIVE", m["id"], inconclusive, flush=True)
            continue
        rec = {"id": m["id"], "definition": m["definition"], "edit": m["edit"], "claim": m["claim"],
               "killed": bool(hit), "theorems_failed": sorted(claims), "first_failures": failed[:12],
               "tightened": m.get("tightened", [])}
        print("KILLED  " if hit else ("PARTIAL " if failed else "SURVIVED"), m["id"], m["claim"], sorted(hit)[:4], failed[:3], flush=True)
        with open(LOG, "a") as fh:
            fh.write(json.dumps(rec) + "\n")


main()
