# usage: reg.py file.json : {"mods":[..],"props":[[id,title,stmt,quant,why,[anchors]]],"notes":{id:[status,note]},"design":"line"}
import json,sys,subprocess
j=json.load(open(sys.argv[1]))
s=open('/tmp/gen/props.py').read()
for pr in j.get('props',[]):
    line='p('+','.join(json.dumps(x) for x in pr)+')\n'
    assert f'p("{pr[0]}"' not in s
    s=s.replace("with open('/verif/properties.jsonl'",line+"with open('/verif/properties.jsonl'")
open('/tmp/gen/props.py','w').write(s)
n=open('/tmp/gen/notes.py').read().rstrip()
assert n.endswith('}')
n=n[:-1]
for k,(st,no) in j.get('notes',{}).items(): n+=f"{k!r}:({st!r},{no!r}),\n"
open('/tmp/gen/notes.py','w').write(n+'}\n')
if j.get('design'):
    d=open('/verif/DESIGN.md').read(); mark='composed with C35.'
    ls=d.split('\n')
    for i,l in enumerate(ls):
        if l.startswith('(C62) bisimulation'): ls[i]=l+' '+j['design']
    open('/verif/DESIGN.md','w').write('\n'.join(ls))
l=open('/verif/lean/Verif.lean').read().rstrip()
for m in j.get('mods',[]):
    if m not in l: l+=f"\nimport {m}"
open('/verif/lean/Verif.lean','w').write(l+'\n')
subprocess.run('python3 /tmp/gen/props.py; python3 /tmp/gen/manifest.py; cp /tmp/gen/*.py /tmp/mut/run.py /verif/tools/',shell=True)
