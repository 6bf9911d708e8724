#!/usr/bin/env python3
"""Mutation testing of the model. usage: mutate.py mutants.py  -- works in /tmp/mut, appends to /verif/seeded/LOG.jsonl.
mutants.py defines MUT = [dict(d=definition, file=..., old=..., new=..., claim=..., tightened=[...])]"""
import sys,os,subprocess,json,re,shutil,runpy
M=runpy.run_path(sys.argv[1])['MUT']
dry='--dry' in sys.argv
W='/tmp/mut'
os.makedirs(W,exist_ok=True)
subprocess.run(['rsync','-a','--delete','/verif/lean/',W+'/lean/']) if shutil.which('rsync') else (shutil.rmtree(W+'/lean',ignore_errors=True),shutil.copytree('/verif/lean',W+'/lean',symlinks=True))
def thm_at(path,line):
    ls=open(path).read().split('\n')
    for i in range(min(line,len(ls))-1,-1,-1):
        m=re.match(r'\s*(?:@\[.*?\]\s*)?(?:private |noncomputable |protected )*(theorem|lemma|def|example|instance|abbrev)\b\s*([^\s:({\[]*)',ls[i])
        if m: return m.group(2) or m.group(1)+'@%d'%(i+1)
    return '?'
for m in M:
    p=W+'/lean/'+m['file']
    src=open(p).read()
    assert src.count(m['old'])>=1,('not found',m)
    if src.count(m['old'])>1 and not m.get('all'): print('WARN multiple',m['old'])
    open(p,'w').write(src.replace(m['old'],m['new'],-1 if m.get('all') else 1))
    r=subprocess.run(['lake','build'],cwd=W+'/lean',capture_output=True,text=True)
    out=r.stdout+r.stderr
    failed=[]
    for e in re.finditer(r'error: (Verif/[^:]+):(\d+):',out):
        t=thm_at(W+'/lean/'+e.group(1),int(e.group(2)))
        if t not in failed: failed.append(t)
    print('KILLED' if r.returncode else '*** SURVIVED', m['d'],'|',m['old'][:60].replace('\n',' '),'=>',m['new'][:60].replace('\n',' '),'|',failed[:6])
    if not dry:
        open('/verif/seeded/LOG.jsonl','a').write(json.dumps(dict(definition=m['d'],edit=m['old']+'  =>  '+m['new'],claim=m['claim'],failed=failed,survived=not r.returncode,tightened=m.get('tightened',[]),note=m.get('note','')))+'\n')
    open(p,'w').write(src)
