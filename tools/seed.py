#!/usr/bin/env python3
"""Seeded-bug harness.  usage: seed.py SEEDS.json   (list of {def,file,old,new,claim,edit})
Copies /verif/lean to /tmp/seed, applies one edit at a time to the model, rebuilds, and prints/logs what failed."""
import sys,json,subprocess,os,re,shutil,collections
SRC='/verif/lean'; DST='/tmp/seed'
def sync():
    subprocess.run(['rsync','-a','--delete','--exclude=.lake',SRC+'/',DST+'/'],check=False) if shutil.which('rsync') else None
def fresh():
    if not os.path.exists(DST):
        subprocess.run(['cp','-r',SRC,DST],check=True)
    # refresh sources
    for root,_,fs in os.walk(SRC+'/Verif'):
        for f in fs:
            a=os.path.join(root,f); b=a.replace(SRC,DST)
            os.makedirs(os.path.dirname(b),exist_ok=True)
            if not os.path.exists(b) or open(a).read()!=open(b).read(): shutil.copy(a,b)
    shutil.copy(SRC+'/Verif.lean',DST+'/Verif.lean')
decl=re.compile(r'^(?:@\[[^\]]*\]\s*)?(?:private |protected |noncomputable )*(theorem|lemma|def|example|instance|abbrev|structure)\s*([^\s:({\[]*)')
def decls(path):
    out=[];
    for i,l in enumerate(open(path),1):
        m=decl.match(l)
        if m: out.append((i,m.group(2) or 'example@%d'%i))
    return out
def at(path,line):
    name='?'
    for i,n in decls(path):
        if i<=line: name=n
    return name
def alltheorems(base=DST):
    """declarations as {(module, name): words used}, and the transitive imports of every module"""
    bodies={}; imps={}
    for root,_,fs in os.walk(base+'/Verif'):
        for f in fs:
            if not f.endswith('.lean'): continue
            p=os.path.join(root,f); mod=os.path.relpath(p,base)[:-5].replace('/','.')
            ls=open(p).read().split('\n'); ds=decls(p)
            imps[mod]=set(re.findall(r'^import (Verif\.\S+)','\n'.join(ls),re.M))
            for k,(i,n) in enumerate(ds):
                e=ds[k+1][0]-1 if k+1<len(ds) else len(ls)
                bodies.setdefault((mod,n),set()).update(t for w in re.findall(r"[A-Za-z_][\w'\.]*",'\n'.join(ls[i-1:e])) for t in ['.'.join(w.split('.')[:i+1]) for i in range(w.count('.')+1)]+[w.split('.')[-1]])
    ch=True
    while ch:
        ch=False
        for m in imps:
            new=set().union(imps[m],*[imps.get(x,set()) for x in imps[m]])
            if new!=imps[m]: imps[m]=new; ch=True
    return bodies,imps
def closure(failed,bi):
    bodies,imps=bi
    bad={k for k in bodies if k[1] in failed}; ch=True
    while ch:
        ch=False
        byname={}
        for m,n in bad:
            for t in (n,n.split('.')[-1]): byname.setdefault(t,set()).add(m)
        for (m,n),b in bodies.items():
            if (m,n) in bad: continue
            if any(m2==m or m2 in imps[m] for t in b if t in byname for m2 in byname[t]): bad.add((m,n)); ch=True
    return sorted({n for _,n in bad if re.match(r'C\d{2,3}_',n)})
def run(seed):
    fresh()
    p=os.path.join(DST,'Verif',seed['file']); s=open(p).read()
    if s.count(seed['old'])<1: return {'err':'pattern not found'}
    if s.count(seed['old'])>1 and not seed.get('all'): return {'err':'pattern %d times'%s.count(seed['old'])}
    open(p,'w').write(s.replace(seed['old'],seed['new']))
    r=subprocess.run(['lake','build'],cwd=DST,capture_output=True,text=True)
    out=r.stdout+r.stderr
    failed=[]
    for m in re.finditer(r'error: (Verif/\S+?\.lean):(\d+):\d+',out):
        n=at(os.path.join(DST,m.group(1)),int(m.group(2)))
        if n not in failed: failed.append(n)
    res={'failed':failed,'claims':closure([f for f in failed if not f.startswith('example@')],alltheorems())}
    modelerr=[m.group(0) for m in re.finditer(r'error: Verif/(Model|Spec)/\S+',out)]
    if modelerr: res['model_does_not_compile']=out[-1500:]
    shutil.copy(p.replace(DST,SRC),p)
    return res
if __name__=='__main__':
    for seed in json.load(open(sys.argv[1])):
        res=run(seed)
        print(json.dumps({'def':seed['def'],'edit':seed['edit'],**res},ensure_ascii=False)[:1500],flush=True)
        if 'err' in res or 'model_does_not_compile' in res: continue
        with open('/verif/seeded/LOG.jsonl','a') as f:
            f.write(json.dumps({'definition':seed['def'],'file':seed['file'],'edit':seed['edit'],'claim_broken':seed['claim'],
              'theorems_failed':res['failed'],'claims_depending_on_them':res['claims'],'theorems_tightened':seed.get('tightened',[])},ensure_ascii=False)+'\n')
