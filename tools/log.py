import json,re
tight={'T29':['C07_self_assign_dataless (new)','C12_step (new rule assignSelfEmpty)']}
try: tight.update(json.load(open('/tmp/mut/tight.json')))
except FileNotFoundError: pass
out=open('/verif/seeded/LOG.jsonl','w')
seen={}
remap=json.load(open('/tmp/gen/remap.json'))
deps={}
for l in open('/tmp/deps.txt'):
    n,r=l.rstrip('\n').split('|'); deps[n]=set(x.split('.')[-1] for x in r.split())
for l in open('/tmp/mut/results.jsonl'):
    r=json.loads(l); i=r['id']
    n=seen.get(i,0); seen[i]=n+1
    failed=[f.split(' (')[0] for f in r['failed']]
    failed=[f for f in failed if f and f!=':' ]
    sh=set(f.split('.')[-1] for f in failed)
    dep=sorted(t.split('.')[-1] for t,c in deps.items() if c & sh)
    allf=failed+[d for d in dep if d not in failed]
    o=dict(id=i if n==0 else f'{i}-{n+1}',definition=r['def'],file='lean/Verif/'+r['file'],edit=r['edit'],old=r['old'],new=r['new'],breaks=(remap[i]+': ' if i in remap and not r['claim'].startswith(remap[i]) else '')+(r['claim'] if not i in remap else r['claim'].split(' ',1)[-1] if r['claim'][0]=='C' and ' ' in r['claim'] else r['claim'] if r['claim'][0]!='C' else r['edit']),
      result='survived' if r['ok'] else 'killed',theorems_failed=allf,theorems_tightened=tight.get(i,[]) if r['ok'] else [])
    if r['ok'] and i not in tight: print('UNRESOLVED',i,r['def'],r['edit'])
    out.write(json.dumps(o,ensure_ascii=False)+'\n')
