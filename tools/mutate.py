#!/usr/bin/env python3
"""Mutation testing of the theorems.  usage: mutate.py FILE.json
FILE.json: list of {file, old, new, definition, edit, claim}.  Works in /tmp/mut, appends one
line per attempt to /verif/seeded/LOG.jsonl."""
import json, os, re, subprocess, sys, shutil
SRC, DST, LOG = os.environ.get("MUTSRC", "/verif/lean"), "/tmp/mut/lean", "/verif/seeded/LOG.jsonl"
def enclosing(path, line):
    name = "?"
    for i, l in enumerate(open(path), 1):
        if i > line: break
        m = re.match(r"(?:@\[[^\]]*\]\s*)?(?:private\s+|protected\s+)?(theorem|lemma|def|example|instance)\s*(\S*)", l)
        if m: name = m.group(2) if m.group(1) != "example" else "example@%d" % i
    return name
def sync():
    subprocess.run(["rsync", "-a", "--delete", SRC + "/", DST + "/"], check=True) if shutil.which("rsync") else \
        subprocess.run("mkdir -p /tmp/mut && rm -rf %s && cp -a %s %s" % (DST, SRC, DST), shell=True, check=True)
muts = json.load(open(sys.argv[1]))
for m in muts:
    sync()
    p = os.path.join(DST, m["file"])
    s = open(p).read()
    if s.count(m["old"]) != 1:
        print("SKIP (pattern count %d): %s" % (s.count(m["old"]), m["edit"])); continue
    open(p, "w").write(s.replace(m["old"], m["new"]))
    r = subprocess.run(["lake", "build"], cwd=DST, capture_output=True, text=True, timeout=3000)
    fails = []
    for mm in re.finditer(r"error: (Verif/\S+\.lean):(\d+):", r.stdout + r.stderr):
        n = mm.group(1).replace("Verif/", "").replace(".lean", "") + ":" + enclosing(os.path.join(DST, mm.group(1)), int(mm.group(2)))
        if n not in fails: fails.append(n)
    verdict = "killed" if fails else ("SURVIVED" if r.returncode == 0 else "build failure")
    print(verdict, "|", m["definition"], "|", m["edit"], "|", fails[:6])
    if not m.get("nolog"):
        with open(LOG, "a") as f:
            f.write(json.dumps(dict(definition=m["definition"], file=m["file"], edit=m["edit"], claim=m["claim"],
                verdict=verdict, theorems_failed=fails, theorems_tightened=m.get("tightened", []))) + "\n")
