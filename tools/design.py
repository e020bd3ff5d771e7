#!/usr/bin/env python3
"""Regenerates the sections 'Files modelled' and 'Status' of DESIGN.md."""
import json,re,glob,os
root=os.path.dirname(os.path.dirname(os.path.abspath(__file__)))
d=open(root+'/DESIGN.md').read()
def put(tag,s):
    global d
    a,b=f'<!-- {tag} -->',f'<!-- /{tag} -->'
    d=d[:d.index(a)+len(a)]+'\n'+s+d[d.index(b):]
props=[json.loads(l) for l in open(root+'/properties.jsonl') if l.strip()]
man={c['property']:c for c in json.load(open(root+'/MANIFEST.json'))['claims']}
s='| id | property | status | remarks |\n|---|---|---|---|\n'
for p in sorted(props,key=lambda p:int(p['id'][1:])):
    c=man.get(p['id'])
    if c: s+=f"| {p['id']} | {p['title']} | {c['status']} | {c['note'].replace('|','/')} |\n"
put('status',s)
# files: functions covered by citations
files=sorted(os.path.relpath(p,'/repo') for p in glob.glob('/repo/**/*.go',recursive=True) if not p.endswith('_test.go'))
cov={f:set() for f in files}; mods={f:set() for f in files}
for m in glob.glob(root+'/lean/Verif/Model/*.lean'):
    for mm in re.finditer(r'([\w/]+\.go):([\d, \-–…]+)',open(m).read()):
        for f in files:
            if f==mm.group(1) or (f.endswith('/'+mm.group(1)) and (mm.group(1),f)!=('book.go','script/book.go')):
                for r in re.findall(r'(\d+)(?:\s*[-–]\s*(\d+))?',mm.group(2)):
                    cov[f]|=set(range(int(r[0]),int(r[1] or r[0])+1)); mods[f].add(os.path.basename(m)[:-5])
s='Computed from the citations in `Model/`; a function counts as modelled if at least half of its lines are cited.\n\n| file | modelled in | functions not modelled |\n|---|---|---|\n'
for f in files:
    L=open('/repo/'+f).read().split('\n'); unc=[]; i=0
    while i<len(L):
        if L[i].startswith('func '):
            j=i
            if not L[i].rstrip().endswith('}'):
                while j<len(L) and L[j]!='}': j+=1
            rng=set(range(i+1,j+2))
            m=re.match(r'func (?:\(\w* ?\*?(\w+)\) )?(\w+)',L[i])
            if len(rng&cov[f])*2<len(rng): unc.append((m.group(1)+'.' if m.group(1) else '')+m.group(2))
            i=j
        i+=1
    s+=f"| {f} | {', '.join(sorted(mods[f])) or '—'} | {', '.join(unc) or '—'} |\n"
put('files',s)
open(root+'/DESIGN.md','w').write(d)
