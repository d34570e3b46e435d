#!/usr/bin/env python3
"""Regenerate MANIFEST.json: every theorem named Cnn_* in lean/Verif is listed under claim Cnn.
Notes and statuses come from tools/notes.json."""
import json,re,glob,os
root=os.path.dirname(os.path.dirname(os.path.abspath(__file__)))
notes=json.load(open(root+'/tools/notes.json'))
props=[json.loads(l)['id'] for l in open(root+'/properties.jsonl') if l.strip()]
thms={}
for f in sorted(glob.glob(root+'/lean/Verif/**/*.lean',recursive=True)):
    ns=[]
    for l in open(f):
        m=re.match(r'namespace (\S+)',l)
        if m: ns.append(m.group(1)); continue
        m=re.match(r'section\b\s*(\S*)',l)
        if m: ns.append(None); continue
        m=re.match(r'end\b',l)
        if m and ns: ns.pop(); continue
        m=re.match(r'(?:protected )?theorem (C(\d\d+)_[\w\']+)',l)
        if m:
            thms.setdefault('C'+m.group(2),[]).append('.'.join([x for x in ns if x]+[m.group(1)]))
claims=[]
for p in props:
    n=notes.get(p,{})
    t=thms.get(p,[])
    st=n.get('status') or ('proved' if t else None)
    if st is None: continue
    claims.append({"property":p,"status":st,"theorems":t,"note":n.get('note','')})
json.dump({"claims":claims},open(root+'/MANIFEST.json','w'),indent=1)
print(len(claims),'claims',sum(len(c['theorems']) for c in claims),'theorems; missing',[p for p in props if p not in [c['property'] for c in claims]])
