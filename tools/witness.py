#!/usr/bin/env python3
"""List the manifest theorems (with hypotheses, per /tmp/hyps.txt) that no
`example` in the project mentions by name."""
import re,glob,sys
hy={}
for l in open('/tmp/hyps.txt'):
    p=l.rstrip('\n').split('|')
    if len(p)>=3 and int(p[2])>0: hy[p[0].split('.')[-1]]=p[1]
seen=set()
for f in glob.glob('/verif/lean/Verif/**/*.lean',recursive=True):
    t=open(f).read()
    for m in re.finditer(r'(?m)^(?:private |noncomputable )*example\b.*?(?=^(?:theorem|lemma|def|example|noncomputable|/--|/-!|end|namespace|section|private|open|variable|@\[|instance|structure|inductive|abbrev)\b|^/-|\Z)',t,re.S):
        for n in re.findall(r'C\d\d+_\w+',m.group(0)): seen.add(n)
miss=[n for n in hy if n not in seen]
print(len(hy),len(miss))
from collections import defaultdict
d=defaultdict(list)
for n in miss:d[hy[n]].append(n)
for k in sorted(d):print(k,' '.join(d[k]))
