#!/usr/bin/env python3
"""Regenerates DESIGN.md. With --axioms, first reruns `#print axioms` for all claimed theorems (needs a built project)."""
import os,sys,json,subprocess,re
here=os.path.dirname(os.path.abspath(__file__)); root=os.path.join(here,'..')
claims=[]
for l in open(f'{here}/claims.txt'):
    l=l.rstrip('\n')
    if l.strip() and not l.startswith('#'):
        a=[x.strip() for x in l.split('|')]; claims.append((a[0],a[1],a[2].split(),a[3] if len(a)>3 else ''))
axf=f'{here}/axioms.txt'
if '--axioms' in sys.argv:
    ts=[t for c in claims for t in c[2]]
    open('/tmp/ax.lean','w').write('import Verif\n'+''.join('#print axioms %s\n'%t for t in ts))
    out=subprocess.run(['lake','env','lean','/tmp/ax.lean'],cwd=f'{root}/lean',capture_output=True,text=True).stdout
    d={}
    for m in re.finditer(r"'([^']+)' (depends on axioms: \[([^\]]*)\]|does not depend on any axioms)",out):
        d[m[1]]=' '.join((m[3] or 'none').replace(',',' ').split())
    assert set(ts)<=set(d),set(ts)-set(d)
    open(axf,'w').write(''.join(f'{t}: {d[t]}\n' for t in dict.fromkeys(ts)))
ax=dict(l.strip().split(': ') for l in open(axf))
props={json.loads(l)['id']:json.loads(l) for l in open(f'{root}/properties.jsonl')}
how={}
for l in open(f'{here}/design_props.txt'):
    a=[x.strip() for x in l.split('|')]
    if len(a)==3: how[a[0]]=(a[1],a[2])
o=open(f'{here}/design_head.md').read().replace('@@MODULES@@\n','')
o+='## Per property\n\n'
for id in sorted(props):
    c=[x for x in claims if x[0]==id]
    m,p=how.get(id,('',''))
    o+=f'### {id} {props[id]["title"]}\n\n* Modelled: {m}.\n* Proof: {p}.\n'
    for _,st,ts,note in c:
        o+=f'* Status: {st}.'+(f' {note[0].upper()+note[1:]}.' if note else '')+'\n'
        o+='* Theorems: '+', '.join('`'+t.replace('Verif.','',1)+'`' for t in ts)+'\n'
    o+='\n'
o+='## Axioms of the claimed theorems\n\nAll are among `propext`, `Quot.sound`, `Classical.choice` (from Lean core tactics).\n\n'
g={}
for t,a in ax.items(): g.setdefault(a,[]).append(t)
for a in sorted(g): o+=f'* {a}: {len(g[a])} theorems'+('' if len(g[a])>60 else ' — '+', '.join(x.replace("Verif.","",1) for x in g[a]))+'\n'
o+='\nThe full list, one theorem per line, is `tools/axioms.txt`.\n'
open(f'{root}/DESIGN.md','w').write(o)
missing=[i for i in props if i not in how]; print('no design line:',missing)
