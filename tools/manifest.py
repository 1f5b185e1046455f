#!/usr/bin/env python3
"""Regenerates MANIFEST.json from properties.jsonl, the theorem names in lean/Verif/Props and notes.json."""
import re,json,glob,os
root=os.path.dirname(os.path.dirname(os.path.abspath(__file__)))
notes=json.load(open(root+'/tools/notes.json'))
thms={}
for f in sorted(glob.glob(root+'/lean/Verif/Props/*.lean')):
    ns=[]
    for line in open(f):
        m=re.match(r'namespace (\S+)',line)
        if m: ns.append(m.group(1))
        m=re.match(r'end (\S+)',line)
        if m and ns and ns[-1]==m.group(1): ns.pop()
        m=re.match(r'(?:private )?theorem ((C\d\d+)_\S+)',line)
        if m:
            thms.setdefault(m.group(2),[]).append('.'.join(ns+[m.group(1)]))
claims=[]
ids=[json.loads(l)['id'] for l in open(root+'/properties.jsonl')]
for i in ids:
    t=thms.get(i,[])
    n=notes.get(i,{})
    if isinstance(n,str): n={'note':n}
    st=n.get('status')
    if not st:
        st='partial' if (not t or any('_partial' in x or '_refuted' in x for x in t)) else 'proved'
    if not t and st!='not_applicable': 
        print('no theorem for',i); continue
    claims.append({'property':i,'status':st,'theorems':t,'note':n.get('note','')})
    if not n.get('note'): print('no note for',i)
extra=set(thms)-set(ids)
if extra: print('theorems without property:',extra)
json.dump({'claims':claims},open(root+'/MANIFEST.json','w'),indent=1,ensure_ascii=False)
print(len(claims),'claims')
