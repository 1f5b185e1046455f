import json,sys
P='/verif/properties.jsonl'
def load(): return [json.loads(l) for l in open(P)]
def save(ds): open(P,'w').write(''.join(json.dumps(d,ensure_ascii=False)+'\n' for d in ds))
def edit(i,**kw):
    ds=load()
    for d in ds:
        if d['id']==i: d.update(kw); break
    else: raise KeyError(i)
    save(ds)
def add(i,title,statement,quantifier,why,anchors):
    ds=load()
    new={'id':i,'title':title,'statement':statement,'quantifier':quantifier,'why_tests_cant':why,'anchors':anchors}
    ds=[d for d in ds if d['id']!=i]+[new]
    ds.sort(key=lambda d:int(d['id'][1:]))
    save(ds)
def note(i,n,**kw):
    f='/verif/tools/notes.json'
    d=json.load(open(f)); d[i]=dict(note=n,**kw) if kw else n
    json.dump(d,open(f,'w'),indent=1,ensure_ascii=False,sort_keys=True)
