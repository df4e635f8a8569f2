#!/usr/bin/env python3
"""Automatic mutants. usage: automutate.py out.jsonl seed per_def [substring of file ...]
Edits one place of one definition of a model module (no Spec/Props/Main modules) that LOG.jsonl does not name yet,
in a scratch copy /tmp/amut, rebuilds and writes what failed. Mutants whose definition no longer compiles are skipped."""
import json,os,re,subprocess,sys,random,glob,time
V='/verif/lean'; M='/tmp/amut'
out,seed,per=sys.argv[1],int(sys.argv[2]),int(sys.argv[3]); subs=sys.argv[4:]
random.seed(seed)
os.makedirs(M,exist_ok=True)
subprocess.run(f'rm -rf {M} && cp -a {V} {M}',shell=True,check=True)
logged=set()
for f in ['/verif/seeded/LOG.jsonl',out]:
    if os.path.exists(f):
        for l in open(f):
            d=json.loads(l)
            for x in re.split(r"[^\w.?!']+",d['definition'] or ''): logged.add((os.path.basename(d['file']),x))
def mainmodel(f): return not re.search(r'(Spec|Props|Main|Cases|Sample|Examples|Top|More|Run|Read)\.lean$',f)
OPS=[(r' && ',' || '),(r' \|\| ',' && '),(r' ≤ ',' < '),(r'(?<![<|:]) < (?![|<])',' ≤ '),(r' \+ 1\b',' + 2'),(r' - 1\b',''),(r'\btrue\b','false'),(r'\bfalse\b','true'),
 (r'\bhead\?','getLast?'),(r'\bgetLast\?','head?'),(r'\.reverse\b',''),(r'\.1\b','.2'),(r'\.2\b','.1'),(r'"([^"\n]+)"',r'"\1x"'),(r"'(\w)'","'#'"),
 (r' ≠ ',' = '),(r'(if [^\n]*?) = ',r'\1 ≠ '),(r' == ',' != '),(r' != ',' == '),(r'\bthen (\S+) else (\S+)$',r'then \2 else \1'),(r'\bany\b','all'),(r'\ball\b','any'),
 (r'\btake\b','drop'),(r'\bdrop\b','take'),(r'\bfoldl\b','foldr'),(r'=> some [^\n]*$','=> none'),(r'\bsome \((.*)\)$','none'),(r' \+\+ \[[^\]\n]*\]',''),(r'\[([^\[\],\n]+), ([^\[\],\n]+)\]',r'[\2, \1]'),
 (r'=> \.(\w+)$','=> .MUTCON'),(r' \+\+ ([^\s()]+)',''),(r'!(?=[a-z(])',''),(r'\bnone => none','none => some default'),(r' \+ ',' - '),(r'\bmin\b','max'),(r'\b0\b','1'),(r'\b1\b','0')]
todo=[]
for f in sorted(glob.glob(M+'/Verif/**/*.lean',recursive=True)):
    if not mainmodel(f) or (subs and not any(s in f for s in subs)): continue
    s=open(f).read()
    ds=list(re.finditer(r'^(?:private )?def ([^\s:({\[]+)',s,re.M))
    for m in ds:
        n=m.group(1)
        if (os.path.basename(f),n) in logged or (os.path.basename(f),n.split('.')[-1]) in logged: continue
        e=re.search(r'\n\n|\n(?=/--)|\n(?=theorem|example|end )',s[m.end():])
        end=m.end()+(e.start() if e else len(s)-m.end())
        b=re.search(r':=|\n *\|| where',s[m.end():end])
        if not b: continue
        bs=m.end()+b.start()
        body=s[bs:end]
        if 'Prop' in s[m.start():bs]: continue
        cands=[]
        for pat,rep in OPS:
            for k in re.finditer(pat,body,re.M):
                new=k.expand(rep) if '\\' in rep else rep
                if 'MUTCON' in new: continue
                if new!=k.group(0): cands.append((bs+k.start(),bs+k.end(),k.group(0),new))
        random.shuffle(cands)
        for a,z,o,nw in cands[:per*3]:
            todo.append((f,n,m.start(),end,a,z,o,nw))
random.shuffle(todo)
done={}
def enclosing(path,line):
    L=open(path).read().split('\n')
    for i in range(min(line,len(L))-1,-1,-1):
        m=re.match(r'\s*(?:@\[.*?\]\s*)?(?:private\s+|protected\s+|noncomputable\s+)*(theorem|lemma|def|instance|example|inductive|structure|abbrev)\s*([^\s:({\[]*)',L[i])
        if m: return (m.group(1)+' '+m.group(2)).strip() if m.group(1)!='theorem' else m.group(2)
    return '?'
print(len(todo),'candidates',flush=True)
for f,n,ds,de,a,z,o,nw in todo:
    if done.get((f,n),0)>=per: continue
    if os.path.exists('/tmp/amut.stop'): break
    s=open(f).read()
    assert s[a:z]==o
    open(f,'w').write(s[:a]+nw+s[z:])
    t0=time.time()
    rel=os.path.relpath(f,M)
    r0=subprocess.run(['lake','env','lean',rel],cwd=M,capture_output=True,text=True)
    l1=s[:ds].count('\n')+1; l2=s[:de].count('\n')+1
    bad=any(l1<=int(x)<=l2 for x in re.findall(r'\.lean:(\d+):\d+: error',r0.stdout+r0.stderr))
    failed=[]; st='INVALID'
    if not bad:
        r=subprocess.run(['lake','build'],cwd=M,capture_output=True,text=True)
        t=r.stdout+r.stderr
        for m in re.finditer(r'error: (Verif/\S+?\.lean):(\d+):\d+',t):
            x=enclosing(f"{M}/{m.group(1)}",int(m.group(2)))
            if x not in failed: failed.append(x)
        if r.returncode!=0 and not failed: failed=['module '+x for x in re.findall(r'✖ \[\d+/\d+\] Building (\S+)',t)]
        weak=failed and all(x.startswith('example') for x in failed)
        st=('BUILDERROR' if r.returncode!=0 else 'SURVIVED') if not failed else ('EXAMPLE' if weak else 'KILLED')
        done[(f,n)]=done.get((f,n),0)+1
    open(f,'w').write(s)
    line=s[s.rfind('\n',0,a)+1:s.find('\n',z)]
    print(st,rel,n,'|',o.strip(),'->',nw.strip(),'|',line.strip()[:150],'|',failed[:4],round(time.time()-t0),flush=True)
    if st!='INVALID':
        ml=line.strip().replace(o,nw,1)
        with open(out,'a') as h:
            h.write(json.dumps(dict(definition=n,file='lean/'+rel,edit=f'`{line.strip()}` becomes `{(s[s.rfind(chr(10),0,a)+1:a]+nw+s[z:s.find(chr(10),z)]).strip()}`',failed=failed,status=st))+'\n')
