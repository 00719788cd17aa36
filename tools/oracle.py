#!/usr/bin/env python3
"""Evaluates headline claims on concrete runs of seeded wrong programs.

usage: oracle.py mutants.json out.jsonl
For every entry (format of mutate.py) the edit is applied to a scratch copy of the sources, all definitions of the
model and of the specifications are put into one file without any proof (flat.py), and the checks of
oracle_runs.lean.txt (CHECKS=...: oracle_functions.lean.txt), which are instances of the claims' statements, are run. A claim in the output is false of the edited program."""
import json,os,re,shutil,subprocess,sys,time
from concurrent.futures import ThreadPoolExecutor
here=os.path.dirname(os.path.abspath(__file__)); base=os.environ.get('BASE','/verif/lean')
checks=os.environ.get('CHECKS',here+'/oracle_runs.lean.txt'); scratch=os.environ.get('SCRATCH','/tmp/oracle')
keep=['arrDec_arrEnc','Rep.of_isUnit']
muts=json.load(open(sys.argv[1])); outf=sys.argv[2]
done={json.loads(l)['id'] for l in open(outf)} if os.path.exists(outf) else set()
lp=subprocess.run(['lake','env','printenv','LEAN_PATH'],cwd=base,capture_output=True,text=True).stdout.strip()
def one(m):
    if m['id'] in done: return
    d=scratch+'/'+re.sub(r'\W','_',m['id'])
    shutil.rmtree(d,ignore_errors=True); os.makedirs(d)
    shutil.copytree(base+'/Verif',d+'/Verif'); shutil.copy(base+'/Verif.lean',d)
    if m.get('file'):
        p=d+'/Verif/'+m['file']; s=open(p).read()
        if s.count(m['old'])!=1: print(m['id'],'PATTERN',s.count(m['old']),flush=True); shutil.rmtree(d); return
        open(p,'w').write(s.replace(m['old'],m['new']))
    t=time.time()
    subprocess.run(['python3',here+'/flat.py',d,d+'/Flat.lean']+keep,check=True)
    open(d+'/All.lean','w').write(open(d+'/Flat.lean').read()+open(checks).read())
    try:
        r=subprocess.run(['lean',d+'/All.lean'],env=dict(os.environ,LEAN_PATH=lp),cwd=d,capture_output=True,text=True,timeout=900)
        o=r.stdout+r.stderr
    except subprocess.TimeoutExpired: o='error: TIMEOUT'
    res=re.findall(r'ORACLE (\S+) (\d+) \[(.*)\]',o); err=re.findall(r'error.*',o)
    bad=[]
    for a in res:
        for x in a[2].split(', '):
            if x and x not in bad: bad.append(x)
    rec=dict(id=m['id'],definition=m.get('def',''),edit=m.get('edit',''),claim=m.get('claim',''),violated=bad,runs={a[0]:int(a[1]) for a in res},errors=[e[:160] for e in err[:3]],secs=round(time.time()-t))
    open(outf,'a').write(json.dumps(rec,ensure_ascii=False)+'\n')
    print(m['id'],m.get('claim',''),'|',m.get('edit','')[:70],'|',bad[:12],[e[:120] for e in err[:2]],rec['secs'],flush=True)
    shutil.rmtree(d)
with ThreadPoolExecutor(int(os.environ.get('JOBS','2'))) as ex: list(ex.map(one,muts))
