#!/usr/bin/env python3
"""mut.py spec.json : list of {def,file,old,new,edit,claim}; runs each, prints and appends to LOG."""
import json,subprocess,sys,re,os,shutil
SRC='/tmp/mut/base'; DST='/tmp/mut/lean'
LOG='/verif/seeded/LOG.jsonl'
def sync():
    pass
    shutil.rmtree(DST,ignore_errors=True); subprocess.run(['cp','-a',SRC,DST],check=True)
def encl(path,line):
    name=None
    for i,l in enumerate(open(path),1):
        if i>line: break
        m=re.match(r'\s*(?:@\[.*\]\s*)?(?:private )?(?:theorem|lemma|def|noncomputable def)\s+(\S+)',l)
        if m: name=m.group(1)
        elif re.match(r'\s*example',l): name='example@%d'%i
    return name
os.makedirs('/tmp/mut',exist_ok=True); shutil.rmtree(SRC,ignore_errors=True); subprocess.run(['cp','-a','/verif/lean',SRC],check=True)
specs=json.load(open(sys.argv[1]))
for s in specs:
    sync()
    p=DST+'/Verif/'+s['file']
    t=open(p).read()
    if t.count(s['old'])<1: print('!! pattern not found',s['def']); continue
    t=t.replace(s['old'],s['new'],1) if not s.get('nth') else None
    open(p,'w').write(t)
    r=subprocess.run(['lake','build'],cwd=DST,capture_output=True,text=True)
    out=r.stdout+r.stderr
    fails=[]
    for m in re.finditer(r'error: (Verif/\S+\.lean):(\d+):',out):
        n=encl(DST+'/'+m.group(1),int(m.group(2)))
        if n and n not in fails: fails.append(n)
    notbuilt=sorted(set(re.findall(r'^- (Verif\S+)',out,re.M)))
    print(('CAUGHT' if r.returncode else 'SURVIVED'),'|',s['def'],'|',s['edit'],'|',fails[:12],notbuilt)
    if r.returncode==0 or s.get('nolog'):
        if r.returncode==0: continue
    rec={'definition':s['def'],'edit':s['edit'],'claim_broken':s['claim'],'theorems_failed':fails,'tightened':s.get('tightened',[])}
    open(LOG,'a').write(json.dumps(rec,ensure_ascii=False)+'\n')
    sys.stdout.flush()
