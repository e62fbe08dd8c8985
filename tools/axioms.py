#!/usr/bin/env python3
"""Writes AXIOMS.md: the axioms each theorem named in MANIFEST.json depends on (needs a finished build)."""
import json, os, re, subprocess, tempfile
root = os.path.join(os.path.dirname(os.path.abspath(__file__)), "..")
M = json.load(open(os.path.join(root, "MANIFEST.json")))
ths = sorted({t for c in M["claims"] for t in c["theorems"]})
with tempfile.NamedTemporaryFile("w", suffix=".lean", delete=False) as f:
    f.write("import Verif\n" + "".join("#print axioms %s\n" % t for t in ths))
r = subprocess.run(["lake", "env", "lean", f.name], cwd=os.path.join(root, "lean"), capture_output=True, text=True)
out = re.sub(r"\n\s+", " ", r.stdout)
G = {}
for t in ths:
    m = re.search(r"'%s' (does not depend on any axioms|depends on axioms: \[([^\]]*)\])" % re.escape(t), out)
    assert m, t
    G.setdefault(m.group(2) or "none", []).append(t)
with open(os.path.join(root, "AXIOMS.md"), "w") as f:
    f.write("# Axioms of the theorems in MANIFEST.json\n\nWritten by tools/axioms.py from `#print axioms`.\n")
    for k in sorted(G):
        f.write("\n## %s (%d theorems)\n\n%s\n" % (k, len(G[k]), " ".join(G[k])))
print({k: len(v) for k, v in G.items()})
