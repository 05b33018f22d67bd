#!/usr/bin/env python3
"""Random mutants of the model for mutate.py.  usage: gen_mutants.py SEED COUNT [MODULE ...] > FILE.json
Token swaps (comparisons, signs, constants, connectives, min and max, next indices) in the bodies of the definitions of Verif/Model;
definitions that LOG.jsonl has often are drawn less often."""
import json, os, random, re, sys, collections
SRC = os.environ.get("MUTSRC", "/verif/lean")
rnd = random.Random(int(sys.argv[1])); count = int(sys.argv[2]); only = sys.argv[3:]
seen = collections.Counter(); done = set()
for l in open("/verif/seeded/LOG.jsonl"):
    d = json.loads(l); seen[d["definition"].split(".")[-1].split(" ")[0]] += 1; done.add((d["definition"], d["edit"]))
OPS = [(" < ", " ≤ "), (" ≤ ", " < "), (" > ", " ≥ "), (" ≥ ", " > "), (" + ", " - "), (" - ", " + "), (" * ", " + "), (" ∧ ", " ∨ "), (" ∨ ", " ∧ "),
       (" && ", " || "), (" || ", " && "), ("min ", "max "), ("max ", "min "), (" = ", " ≠ "), (" ≠ ", " = "), ("true", "false"), ("false", "true"),
       (" + 1", ""), (" - 1", ""), (".1", ".2"), (".2", ".1"), ("⌊", "⌈"), (" 0", " 1"), (" 1", " 2"), (" i j", " j i"), ("not ", ""), ("!", ""), (" ++ ", " ++ List.reverse "),
       (".drop ", ".take "), (".take ", ".drop "), ("then ", "then if True then "), (" == ", " != "), (" != ", " == ")]
out = []; cand = []
for f in sorted(os.listdir(SRC + "/Verif/Model")):
    if only and f[:-5] not in only: continue
    s = open(SRC + "/Verif/Model/" + f).read(); L = s.split("\n"); name = None; incomment = False; isdef = False
    for i, l in enumerate(L):
        if "/-" in l: incomment = True
        was = incomment
        if "-/" in l: incomment = False; continue
        if was: continue
        m = re.match(r"(?:noncomputable |@\[[^\]]*\] |private |protected )*(def|theorem|lemma|structure|inductive|instance|example|abbrev|class|namespace|open|variable|end|section|set_option|import|termination_by|decreasing_by)\b\s*(\S*)", l)
        if m: isdef = m.group(1) == "def"; name = m.group(2) if isdef else name
        if not isdef: continue
        body = l
        start = l.find(":=") if m else 0
        if m and start < 0: continue
        for a, b in OPS:
            for mm in re.finditer(re.escape(a), l):
                if mm.start() < start: continue
                if a in (" 0", " 1") and l[mm.end():mm.end() + 1].isdigit(): continue
                if a in (".1", ".2") and l[mm.end():mm.end() + 1].isdigit(): continue
                if a == "!" and l[mm.end():mm.end() + 1] == "=": continue
                if a == " = " and ":=" in l[max(0, mm.start() - 1):mm.end() + 1]: continue
                nl = l[:mm.start()] + b + l[mm.end():]
                # context until unique
                k = i; old = l; new = nl; j = i
                while s.count(old) != 1 and k > 0 and i - k < 6: k -= 1; old = L[k] + "\n" + old; new = L[k] + "\n" + new
                if s.count(old) != 1: continue
                d = f[:-5] + "." + name; e = "line %d: '%s' for '%s' at %d" % (i + 1, b.strip(), a.strip(), mm.start())
                if (d, e) in done: continue
                cand.append((dict(file="Verif/Model/" + f, old=old, new=new, definition=d, edit=e, claim="of this definition"), 1 / (1 + seen[name.split(".")[-1]])))
while cand and len(out) < count:
    k = rnd.choices(range(len(cand)), [w for _, w in cand])[0]
    m, w = cand.pop(k); out.append(m)
    cand = [(x, v / 3 if x["definition"] == m["definition"] else v) for x, v in cand]
json.dump(out, sys.stdout, indent=1, ensure_ascii=False)
