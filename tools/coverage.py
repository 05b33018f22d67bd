#!/usr/bin/env python3
"""Which lines of /repo are cited by comments in lean/Verif/Model; prints a table per source file and the uncited code ranges."""
import re,os,sys,glob
root="/repo/src/diffpy"
files={}
for p in glob.glob(root+"/**/*",recursive=True):
    if p.endswith((".cpp",".hpp",".ipp")) and "/tests/" not in p:
        files[os.path.basename(p)]=p
cov={f:set() for f in files}
for p in sorted(glob.glob("/verif/lean/Verif/Model/*.lean")):
    t=open(p).read()
    last=None
    for m in re.finditer(r"([A-Za-z0-9_]+\.(?:cpp|hpp|ipp))(?::(\d+)(?:-(\d+))?)?|[ (,;]:(\d+)(?:-(\d+))?",t):
        if m.group(1):
            last=m.group(1)
            if m.group(2): a,b=int(m.group(2)),int(m.group(3) or m.group(2))
            else: continue
        else:
            if not last: continue
            a,b=int(m.group(4)),int(m.group(5) or m.group(4))
        if last in cov: cov[last].update(range(a,b+1))
        else: print("unknown",last,p)
def code(line):
    s=line.strip()
    return bool(s) and not s.startswith(("//","*","/*","#","}","{","using ","namespace","public:","private:","protected:"))
tot=c=0
for f in sorted(files):
    L=open(files[f],errors="replace").read().split("\n")
    k=[i for i,l in enumerate(L,1) if code(l)]
    d=[i for i in k if i in cov[f]]
    tot+=len(k);c+=len(d)
    print("%-36s %4d of %4d code lines"%(f,len(d),len(k)))
    if "-v" in sys.argv:
        miss=[i for i in k if i not in cov[f]]
        r=[]
        for i in miss:
            if r and i-r[-1][1]<=3: r[-1][1]=i
            else: r.append([i,i])
        print("      ",", ".join("%d-%d"%(a,b) for a,b in r if b-a>=2))
print(c,tot)
