#!/usr/bin/env python3
"""Regenerate MANIFEST.json: theorem names are collected from lean/Verif/Props by their Cxx_ prefix;
status and note come from tools/claims.json."""
import json,re,glob,os
root=os.path.dirname(os.path.dirname(os.path.abspath(__file__)))
props=[json.loads(l) for l in open(root+'/properties.jsonl')]
notes=json.load(open(root+'/tools/claims.json'))
th={}
for f in sorted(glob.glob(root+'/lean/Verif/Props/*.lean')):
    ns=[]
    for line in open(f):
        m=re.match(r'namespace (\S+)',line)
        if m: ns.append(m.group(1))
        m=re.match(r'end (\S+)',line)
        if m and ns and ns[-1]==m.group(1): ns.pop()
        m=re.match(r'theorem ((C\d\d+)_\S+)',line)
        if m: th.setdefault(m.group(2),[]).append('.'.join(ns+[m.group(1)]))
claims=[]
for p in props:
    i=p['id']; t=th.get(i,[])
    n=notes.get(i,{})
    st=n.get('status') or ('proved' if t else 'not_applicable')
    note=n.get('note','') or ('' if t else 'not proved yet')
    if not t and i not in notes: continue
    if st=='proved' and any(x.endswith('_partial') for x in t): print('check status of',i)
    claims.append(dict(property=i,status=st,theorems=t,note=note))
json.dump({'claims':claims},open(root+'/MANIFEST.json','w'),indent=1,ensure_ascii=False)
print(len(claims),'claims',sum(len(c['theorems']) for c in claims),'theorems', 'missing:',[p['id'] for p in props if p['id'] not in {c['property'] for c in claims}])
