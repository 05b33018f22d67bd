#!/usr/bin/env python3
"""Writes AXIOMS.md: the axioms that each theorem of MANIFEST.json depends on, as printed by Lean."""
import json, os, re, subprocess, tempfile
V = os.path.join(os.path.dirname(os.path.abspath(__file__)), "..")
T = []
for c in json.load(open(os.path.join(V, "MANIFEST.json")))["claims"]:
    for x in c["theorems"]:
        if x not in T: T.append(x)
with tempfile.NamedTemporaryFile("w", suffix=".lean", delete=False) as f:
    f.write("import Verif\n" + "".join("#print axioms %s\n" % x for x in T))
out = subprocess.run(["lake", "env", "lean", f.name], cwd=os.path.join(V, "lean"), capture_output=True, text=True).stdout
D = {}
for m in re.finditer(r"'([^']+(?:'[^']*)?)' (?:depends on axioms: \[([^\]]*)\]|does not depend on any axioms)", out):
    D[m.group(1)] = re.sub(r"\s+", " ", m.group(2) or "")
G = {}
for x in T: G.setdefault(D.get(x, "?"), []).append(x)
with open(os.path.join(V, "AXIOMS.md"), "w") as f:
    f.write("# Axioms of the theorems in MANIFEST.json\n\nOutput of `#print axioms`, grouped (written by tools/gen_axioms.py).\n")
    for a, l in sorted(G.items(), key=lambda p: len(p[0])):
        f.write("\n## %s (%d)\n\n" % (a or "none", len(l)))
        f.write(", ".join("`%s`" % x.replace("Verif.", "", 1) for x in l) + "\n")
print({a: len(l) for a, l in G.items()})
