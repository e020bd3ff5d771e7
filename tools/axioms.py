#!/usr/bin/env python3
"""Prints, for every theorem in MANIFEST.json, the axioms it depends on (runs Lean on a temporary file outside the project),
and writes the list between the markers in DESIGN.md."""
import json,re,subprocess,tempfile,os
root=os.path.dirname(os.path.dirname(os.path.abspath(__file__)))
names=[t for c in json.load(open(root+'/MANIFEST.json'))['claims'] for t in c['theorems']]
src='import Verif\n'+''.join(f'#print axioms {n}\n' for n in names)
f=tempfile.NamedTemporaryFile('w',suffix='.lean',delete=False); f.write(src); f.close()
out=subprocess.run(['lake','env','lean',f.name],cwd=root+'/lean',capture_output=True,text=True).stdout
out=re.sub(r'\n\s+',' ',out)
groups={}
for n in names:
    m=re.search(r"'"+re.escape(n)+r"' (depends on axioms: \[(.*?)\]|does not depend on any axioms)",out)
    assert m,n
    groups.setdefault(m.group(2) or 'none',[]).append(n.replace('Verif.',''))
s=''
for k in sorted(groups,key=lambda k:len(groups[k])):
    s+=f'* **{k}** ({len(groups[k])}): '+', '.join(f'`{n}`' for n in sorted(groups[k]))+'\n'
d=open(root+'/DESIGN.md').read()
a,b='<!-- axioms -->','<!-- /axioms -->'
if a in d:
    d=d[:d.index(a)+len(a)]+'\n'+s+d[d.index(b):]
    open(root+'/DESIGN.md','w').write(d)
print({k:len(v) for k,v in groups.items()})
