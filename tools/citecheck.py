#!/usr/bin/env python3
"""Audit of the citations in the model: for every docstring that cites file:lines of /repo, check that the file exists, that the lines exist, and
that the first Go identifier the docstring names in backquotes occurs in (or next to) one of the cited ranges."""
import os,re,sys
R='/repo'
files={}
for d,_,fs in os.walk(R):
    for f in fs:
        p=os.path.join(d,f); files.setdefault(f,[]).append(p)
def resolve(name,ctx):
    b=os.path.basename(name)
    c=[p for p in files.get(b,[]) if p.endswith('/'+name)]
    return c
pat=re.compile(r'([A-Za-z0-9_./\-]+\.(?:go|txt|md|sh|xgo\.patch|patch|html|js|json))[:,] ?((?:\d+(?:-\d+)?)(?:, ?\d+(?:-\d+)?)*)')
bad=0; tot=0
for d,_,fs in os.walk('/verif/lean/Verif'):
    for f in sorted(fs):
        p=os.path.join(d,f)
        s=open(p).read()
        head=re.match(r'\s*/-(.*?)-/',s,re.S)
        headfiles=[q for n in re.findall(r'([A-Za-z0-9_./\-]+\.go)',head.group(1)) for q in resolve(n,'')] if head else []
        for m in re.finditer(r'/--(.*?)-/',s,re.S):
            doc=m.group(1)
            cites=pat.findall(doc)
            if not cites: continue
            tot+=1
            line=s[:m.start()].count('\n')+1
            ids=[i for i in re.findall(r'`([^`]+)`',doc)]
            ids=[re.split(r'[(\[{ ]',i.lstrip('&*!'))[0].split('.')[-1] for i in ids]
            ids=[i for i in ids if re.match(r'^[A-Za-z_]\w+$',i)]
            ok=False; why=[]
            text=''
            for name,rng in cites:
                c=resolve(name,p)
                if not c: why.append(f'no file {name}'); continue
                for part in re.split(r', ?',rng):
                    a,_,b=part.partition('-'); a=int(a); b=int(b or a)
                    good=False
                    for q in c:
                        L=open(q,errors='replace').read().split('\n')
                        if b<=len(L)+1 and a<=b:
                            good=True
                            text+='\n'.join(L[max(0,a-4):b+3])+'\n'
                    if not good: why.append(f'range {name}:{part}')
            if ids and not any(re.search(r'\b'+re.escape(i)+r'\b',text) for i in ids[:3]):
                why.append('none of '+','.join(ids[:3])+' in cited lines')
            if why:
                bad+=1
                print(f'{p[len("/verif/lean/"):]}:{line}: {"; ".join(why)} :: {" ".join(doc.split())[:150]}')
print(tot,'docstrings with citations,',bad,'flagged')
