#!/usr/bin/env python3
"""Writes MANIFEST.json; checks that every theorem named exists in the Lean sources."""
import json, os, re, glob
root = os.path.join(os.path.dirname(os.path.abspath(__file__)), "..")
C = {}
def c(id, status, theorems, note): C[id] = (status, theorems.split(), note)
exec(open(os.path.join(root, "tools", "claims.py")).read())
src = "\n".join(open(f).read() for f in glob.glob(os.path.join(root, "lean/Verif/**/*.lean"), recursive=True))
names = set(re.findall(r"^(?:private )?theorem ([A-Za-z0-9_'.]+)", src, re.M))
props = [json.loads(l)["id"] for l in open(os.path.join(root, "properties.jsonl"))]
claims = []
for p in props:
    if p not in C: print("no claim for", p); continue
    st, th, note = C[p]
    for t in th:
        if t not in names: raise SystemExit("unknown theorem %s in %s" % (t, p))
    claims.append(dict(property=p, status=st, theorems=["Sip." + t for t in th], note=note))
json.dump(dict(claims=claims), open(os.path.join(root, "MANIFEST.json"), "w"), indent=1)
print(len(claims), "claims")
