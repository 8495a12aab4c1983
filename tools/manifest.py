import json,re,glob,collections
th=collections.OrderedDict()
for f in sorted(glob.glob('/verif/lean/Verif/**/*.lean',recursive=True)):
    for m in re.finditer(r'^(?:private )?theorem (C(\d\d+)_\w+)',open(f).read(),re.M):
        th.setdefault('C'+m.group(2),[]).append(m.group(1))
notes={}
exec(open('/tmp/gen/notes.py').read())
claims=[]
for l in open('/verif/properties.jsonl'):
    i=json.loads(l)['id']
    if i in th:
        st,n=notes.get(i,('proved',''))
        claims.append({"property":i,"status":st,"theorems":th[i],"note":n})
    elif i in notes:
        st,n=notes[i]; claims.append({"property":i,"status":st,"theorems":[],"note":n})
    else: print('missing',i)
json.dump({"claims":claims},open('/verif/MANIFEST.json','w'),indent=1)
