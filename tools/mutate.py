#!/usr/bin/env python3
"""Mutation testing. usage: mutate.py mutants.json [--log]
Each mutant: {"file": module path under lean/Verif, "def": name, "edit": text, "old":..., "new":..., "claim":..., "tightened": []}
Works in a scratch copy /tmp/mut; appends one line per mutant to /verif/seeded/LOG.jsonl with --log."""
import json,os,re,subprocess,sys
V='/verif/lean'; M=os.environ.get('MUT','/tmp/mut')
muts=json.load(open(sys.argv[1])); log='--log' in sys.argv
os.makedirs(M,exist_ok=True)
subprocess.run(['rsync','-a','--delete',V+'/',M+'/'],check=True) if os.path.exists('/usr/bin/rsync') else subprocess.run(f'rm -rf {M} && cp -a {V} {M}',shell=True,check=True)
def enclosing(path,line):
    L=open(path).read().split('\n')
    for i in range(min(line,len(L))-1,-1,-1):
        m=re.match(r'\s*(?:@\[.*?\]\s*)?(?:private\s+|protected\s+|noncomputable\s+)*(theorem|lemma|def|instance|example|inductive|structure|abbrev)\s*([^\s:({\[]*)',L[i])
        if m: return (m.group(1)+' '+m.group(2)).strip() if m.group(1)!='theorem' else m.group(2)
    return '?'
for mu in muts:
    p=f"{M}/Verif/{mu['file']}"
    src=open(p).read()
    if src.count(mu['old'])!=1:
        print('BAD MUTANT (count %d):'%src.count(mu['old']),mu['def'],mu['edit']); continue
    open(p,'w').write(src.replace(mu['old'],mu['new']))
    r=subprocess.run(['lake','build'],cwd=M,capture_output=True,text=True)
    out=r.stdout+r.stderr
    failed=[]
    for m in re.finditer(r'error: (Verif/\S+?\.lean):(\d+):\d+',out):
        n=enclosing(f"{M}/{m.group(1)}",int(m.group(2)))
        if n not in failed: failed.append(n)
    open(p,'w').write(src)
    if r.returncode!=0 and not failed:  # the prover ran out of memory: name the modules
        failed=['module '+x for x in re.findall(r'✖ \[\d+/\d+\] Building (\S+)',out)]
    st='KILLED' if failed else ('SURVIVED' if r.returncode==0 else 'ODD')
    print(st,mu['def'],'|',mu['edit'],'|',failed[:8])
    if log:
        with open('/verif/seeded/LOG.jsonl','a') as f:
            f.write(json.dumps(dict(definition=mu['def'],file='lean/Verif/'+mu['file'],edit=mu['edit'],claim=mu['claim'],failed=failed,survived=not failed,tightened=mu.get('tightened',[]),note=mu.get('note','')))+'\n')
