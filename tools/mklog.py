#!/usr/bin/env python3
"""seeded/LOG.jsonl from the results of tools/mutate.py (/tmp/mut/results). `tightened.json` holds, per mutation id, theorems tightened as a result."""
import os,json
root=os.path.dirname(os.path.dirname(os.path.abspath(__file__)))
exec(open(os.path.join(root,'tools/mutations.py')).read())
os.makedirs(root+'/seeded',exist_ok=True)
tp=root+'/tools/tightened.json'
tight=json.load(open(tp)) if os.path.exists(tp) else {}
old={}
lp=root+'/seeded/LOG.jsonl'
if os.path.exists(lp):
    for l in open(lp):
        d=json.loads(l); old[d['id']]=d
out=[]
for m in mutations:
    p='/tmp/mut/results/%s.json'%m['id']
    if not os.path.exists(p):
        if m['id'] in old: out.append(old[m['id']])
        continue
    r=json.load(open(p))
    d=dict(id=m['id'],definition=m['defn'],file='lean/Verif/'+m['edits'][0][0],
      edit=dict(what=m['what'],old=m['edits'][0][1],new=m['edits'][0][2]),
      claim=m['claims'],proofs_that_broke=r['failed'],
      theorems_failed=r['broken']+[u+' (module no longer compiles)' for u in r['unknown']],
      claims_not_caught=r['weak'],theorems_tightened=tight.get(m['id'],[]))
    if r.get('limited'): d['rebuilt']=r['limited']   # only these modules and what they import
    out.append(d)
with open(lp,'w') as h:
    for d in out: h.write(json.dumps(d,ensure_ascii=False)+'\n')
print(len(out))
