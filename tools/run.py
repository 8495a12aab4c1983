import json,subprocess,re,os,sys,shutil,collections
V='/verif/lean/Verif'; M='/tmp/mut/lean/Verif'
deps={}
for l in open('/tmp/deps.txt'):
    n,r=l.rstrip('\n').split('|'); deps[n]=set(r.split())
def sync():
    subprocess.run(['rsync','-a','--delete','/verif/lean/','/tmp/mut/lean/'],check=True) if shutil.which('rsync') else subprocess.run('rm -rf /tmp/mut/lean && cp -a /verif/lean /tmp/mut/lean',shell=True,check=True)
def decl_at(path,line):
    ls=open(path).read().split('\n')
    for i in range(line-1,-1,-1):
        m=re.match(r'\s*(?:@\[.*?\]\s*)?(?:private |protected |noncomputable )*(theorem|lemma|def|example|instance|structure|inductive|abbrev)\b\s*(\S*)',ls[i])
        if m: return m.group(1),m.group(2)
    return None,None
def run(mut):
    f,old,new=mut['file'],mut['old'],mut['new']
    p=f'{M}/{f}'
    s=open(f'{V}/{f}').read()
    if s.count(old)!=1:
        print('BAD',mut['id'],s.count(old)); return None
    open(p,'w').write(s.replace(old,new))
    try:
        r=subprocess.run('timeout 1500 lake build '+' '.join(mut.get('targets',[]))+' 2>&1',shell=True,cwd='/tmp/mut/lean',capture_output=True,text=True)
        errs=re.findall(r'error: (Verif/\S+?\.lean):(\d+):',r.stdout)
        names=collections.OrderedDict()
        for fn,ln in errs:
            k,n=decl_at('/tmp/mut/lean/'+fn,int(ln)); names[(fn,k,n)]=1
        failed=[]
        for (fn,k,n) in names:
            failed.append((fn,k,n))
        mods=re.findall(r'^- (Verif\S*)',r.stdout,re.M)
        short=set(n.split('.')[-1] for _,_,n in failed if n)
        dep=sorted(t.split('.')[-1] for t,c in deps.items() if any(x.split('.')[-1] in short for x in c))
        return dict(ok=r.returncode==0,failed=[f'{n or k} ({fn})' for fn,k,n in failed],dependents=dep,mods=mods,out=r.stdout[-3000:] if not errs and r.returncode else '')
    finally:
        open(p,'w').write(s)
def main():
    muts=json.load(open(sys.argv[1]))
    only=set(sys.argv[2:])
    res=[]
    for m in muts:
        if only and m['id'] not in only: continue
        r=run(m)
        if r is None: continue
        print(m['id'],m['def'],'->','SURVIVED' if r['ok'] else 'killed',r['failed'][:12],'| deps:',len(r['dependents']),r['dependents'][:14],r['out'][:500],flush=True)
        m2=dict(m); m2.update(r); res.append(m2)
        with open('/tmp/mut/results.jsonl','a') as g: g.write(json.dumps(m2)+'\n')
if __name__=='__main__': main()
