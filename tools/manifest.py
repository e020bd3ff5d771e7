#!/usr/bin/env python3
"""Regenerates MANIFEST.json from the theorem names in lean/Verif/Props (cNN_...)."""
import json,re,glob,os
root=os.path.dirname(os.path.dirname(os.path.abspath(__file__)))
props=[json.loads(l) for l in open(root+'/properties.jsonl') if l.strip()]
thms={}
for f in sorted(glob.glob(root+'/lean/Verif/Props/*.lean')):
    for m in re.finditer(r'^theorem (c(\d\d+)_\S+)',open(f).read(),re.M):
        thms.setdefault('C'+m.group(2),[]).append('Verif.'+m.group(1))
notes=json.load(open(root+'/tools/notes.json'))
claims=[]
for p in props:
    t=thms.get(p['id'],[])
    if not t: continue
    n=notes.get(p['id'],{})
    st=n.get('status') or ('partial' if any(x.endswith('_partial') or x.endswith('_fails') for x in t) else 'proved')
    claims.append({"property":p['id'],"status":st,"theorems":t,"note":n.get('note','')})
json.dump({"claims":claims},open(root+'/MANIFEST.json','w'),indent=1)
print(len(claims),'of',len(props),'; missing:',[p['id'] for p in props if p['id'] not in thms])
