#!/usr/bin/env python3
"""Assembles DESIGN.md."""
import json,os
root=os.path.dirname(os.path.dirname(os.path.abspath(__file__)))
plan=json.load(open(root+'/tools/plan.json'))
man={c['property']:c for c in json.load(open(root+'/MANIFEST.json'))['claims']}
props=[json.loads(l) for l in open(root+'/properties.jsonl')]
out=open(root+'/tools/design_head.md').read().rstrip()+'\n\n## Per property: plan and outcome\n'
for p in props:
    i=p['id']; c=man.get(i)
    out+='* **%s %s** — %s'%(i,p['title'],plan.get(i,''))
    if c:
        out+=' **%s**: %s.'%(c['status'],c['note'].rstrip('.'))
    out+='\n'
ref=[(p,[t.split('.')[-1] for t in man[p['id']]['theorems'] if '_refuted' in t]) for p in props if p['id'] in man]
ref=[x for x in ref if x[1]]
out+='\n## Disagreements between code and property (all proved)\n'
for p,ts in ref:
    out+='* %s %s: %s. %s.\n'%(p['id'],p['title'],', '.join('`%s`'%t for t in ts),man[p['id']]['note'].rstrip('.'))
open(root+'/DESIGN.md','w').write(out)
miss=[p['id'] for p in props if p['id'] not in plan]
if miss: print('no plan for',miss)
