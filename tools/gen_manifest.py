#!/usr/bin/env python3
"""Writes ../MANIFEST.json from the table C and checks that every theorem exists."""
import json, os, re, glob
root = os.path.join(os.path.dirname(os.path.abspath(__file__)), "..")
C = []
def c(prop, status, theorems, note=""):
    C.append(dict(property=prop, status=status, theorems=theorems.split(), note=note))
exec(open(os.path.join(root, "tools", "claims.py")).read())
# existence check
names = set()
for f in glob.glob(os.path.join(root, "lean/Verif/**/*.lean"), recursive=True):
    ns = []
    for line in open(f):
        m = re.match(r"namespace\s+(\S+)", line)
        if m: ns.append(m.group(1))
        m = re.match(r"end\s+(\S+)", line)
        if m and ns and ns[-1] == m.group(1): ns.pop()
        m = re.match(r"(?:@\[[^\]]*\]\s*)?(?:private\s+|protected\s+)?theorem\s+(\S+)", line)
        if m: names.add(".".join(ns + [m.group(1)]))
missing = [t for x in C for t in x["theorems"] if t not in names]
props = [json.loads(l)["id"] for l in open(os.path.join(root, "properties.jsonl"))]
have = [x["property"] for x in C]
print("missing theorems:", missing)
print("properties without claim:", [p for p in props if p not in have])
print("claims without property:", [p for p in have if p not in props])
json.dump({"claims": C}, open(os.path.join(root, "MANIFEST.json"), "w"), indent=1)
