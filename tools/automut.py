#!/usr/bin/env python3
"""Random small edits of the model, each tried against the proofs in a scratch copy.
usage: automut.py seed count [file-substring]
Appends to /tmp/autolog.jsonl.  The build is stopped shortly after the first failing proof."""
import sys, os, re, json, random, subprocess, glob, time, signal, collections
sys.path.insert(0,'/verif/tools')
SRC="/verif/lean"; DST="/tmp/seed"
OPS=[(r'\+ 1\b',''),(r'- 1\b',''),(r'\+ 1\b','+ 2'),(r' ≤ ',' < '),(r' < ',' ≤ '),(r' ≥ ',' > '),(r' > ',' ≥ '),
 (r' && ',' || '),(r' \|\| ',' && '),(r' ∧ ',' ∨ '),(r'\btrue\b','false'),(r'\bfalse\b','true'),
 (r'(?<=[a-z\)])\.1\b','.2'),(r'(?<=[a-z\)])\.2\b','.1'),(r'\.left\b','.right'),(r'\.right\b','.left'),
 (r'\.send\b','.recv'),(r'\.recv\b','.send'),(r' != ',' == '),(r' == ',' != '),(r' ≠ ',' = '),(r'¬ ?',''),
 (r'\bnone\b(?= =>)','none'),(r'=> none\b','=> some default'),(r'\.reverse\b',''),(r'\.tail\b',''),
 (r'\.take (\w+)',r'.drop \1'),(r'\bdropEnd 1\b','dropEnd 2'),(r'\b0\b','1'),(r'\b1\b','2'),(r'\b2\b','3'),(r'\b3\b','2')]
def defs(path):
    s=open(path).read(); out=[]
    ms=list(re.finditer(r'^(?:@\[[^\]]*\]\s*)?(?:private |noncomputable )?(def|inductive|structure|abbrev)\s+(\S+)',s,re.M))
    for i,m in enumerate(ms):
        e=ms[i+1].start() if i+1<len(ms) else len(s)
        b=s[m.start():e]
        k=b.find('\n/--'); 
        if m.group(1)!='inductive' and k>=0: b=b[:k]
        k=b.find('\n/-!')
        if k>=0: b=b[:k]
        out.append((m.group(1),m.group(2),m.start(),m.start()+len(b)))
    return s,out
def comments(s):
    return [(m.start(),m.end()) for m in re.finditer(r'/-.*?-/|--[^\n]*|"[^"\n]*"',s,re.S)]
def mutants(path):
    s,ds=defs(path); cs=comments(s); res=[]
    for kind,name,a,b in ds:
        if kind in('structure','abbrev'): continue
        def ok(i): return not any(x<=i<y for x,y in cs)
        sig=s.find(':=',a,b)
        for pat,new in OPS:
            for m in re.finditer(pat,s[a:b]):
                i=a+m.start(); j=a+m.end()
                if not ok(i) or (kind=='def' and sig>=0 and i<sig): continue
                r=m.expand(new)
                if r==m.group(0): continue
                res.append((name,i,j,r))
        if kind=='inductive':
            # drop a premise of a rule
            for m in re.finditer(r'(?<=[:→]) ([^→\n{}:]+) →',s[a:b]):
                i=a+m.start(); j=a+m.end()
                if ok(i): res.append((name,i,j,''))
        # drop or keep an updated field
        for m in re.finditer(r'with\s+(\w+ := [^,{}]+),',s[a:b]):
            i=a+m.start(1); j=a+m.end()
            if ok(i): res.append((name,i,j,''))
        for m in re.finditer(r'\bif ([^\n]+?) then ([^\n]+?) else ([^\n]+)',s[a:b]):
            i=a+m.start(2); j=a+m.end(3)
            if ok(i) and kind=='def': res.append((name,i,j,m.group(3).rstrip(')')+' else '+m.group(2)+(')' if m.group(3).endswith(')') else '')))
    return s,res
def build():
    p=subprocess.Popen("exec nice lake build 2>&1",shell=True,cwd=DST,stdout=subprocess.PIPE,text=True,errors="replace",start_new_session=True)
    errs=[];t0=time.time();stop=None;out=[]
    import selectors
    sel=selectors.DefaultSelector(); sel.register(p.stdout,selectors.EVENT_READ)
    os.set_blocking(p.stdout.fileno(),False); buf=''
    done=False
    while True:
        ev=sel.select(timeout=2)
        if ev:
            c=p.stdout.read()
            if c=='' : 
                done=True; break
            if c: buf+=c
        *ls,buf=buf.split('\n')
        for l in ls:
            out.append(l)
            m=re.match(r'error: (Verif/\S+\.lean):(\d+):',l)
            if m:
                errs.append((m.group(1),int(m.group(2))))
                if stop is None: stop=time.time()+5
        if stop and time.time()>stop: break
        if time.time()-t0>2400: break
    if not done:
        try: os.killpg(p.pid,signal.SIGKILL)
        except ProcessLookupError: pass
    p.wait()
    return (None if not done else p.returncode),errs,out
from importlib import util
def decl_at(path,line):
    ls=open(path).read().split("\n")
    for i in range(min(line,len(ls))-1,-1,-1):
        m=re.match(r"\s*(?:private |protected )?(theorem|lemma|example|def|instance|abbrev)\s*([^\s:({\[]*)",ls[i])
        if m: return m.group(2) or m.group(1)
    return "?"
def main():
    rnd=random.Random(int(sys.argv[1])); count=int(sys.argv[2]); sub=sys.argv[3] if len(sys.argv)>3 else ''
    subprocess.run(f"mkdir -p {DST}; rm -rf {DST}/Verif; cp -a {SRC}/Verif {SRC}/Verif.lean {SRC}/lakefile.toml {SRC}/lean-toolchain {SRC}/lake-manifest.json {DST}/ 2>/dev/null; test -d {DST}/.lake || cp -a {SRC}/.lake {DST}/.lake",shell=True)
    seen=set()
    if os.path.exists('/tmp/autolog.jsonl'):
        seen={(r['definition'],r['edit']) for r in map(json.loads,open('/tmp/autolog.jsonl'))}
    per=collections.defaultdict(list)
    for f in sorted(glob.glob(DST+'/Verif/Model/*.lean')):
        if sub and sub not in f: continue
        s,ms=mutants(f)
        for m in ms: per[(f,m[0])].append(m)
    keys=sorted(per); n=0
    while n<count and keys:
        k=rnd.choice(keys); 
        if not per[k]: keys.remove(k); continue
        m=per[k].pop(rnd.randrange(len(per[k])))
        f=k[0]; s=open(f).read(); name,i,j,r=m
        ls=s.rfind('\n',0,i)+1; le=s.find('\n',j); le=len(s) if le<0 else le
        edit=s[ls:le].strip()+'  ==>  '+(s[ls:i]+r+s[j:le]).strip()
        d=os.path.basename(f)[:-5]+'.'+name
        if (d,edit) in seen: continue
        seen.add((d,edit))
        open(f,'w').write(s[:i]+r+s[j:])
        t=time.time(); rc,errs,out=build()
        rel=f[len(DST)+1:]
        failed=[]
        if any(e[0].startswith('Verif/Model/') for e in errs): res='nocompile'
        else:
            for e in errs:
                x=f"{e[0][6:-5].replace('/','.')}.{decl_at(DST+'/'+e[0],e[1])}"
                if x not in failed: failed.append(x)
            res='caught' if failed else ('SURVIVED' if rc==0 else 'UNCLEAR')
        open(f,'w').write(s)
        n+=1
        print(n,res,d,edit[:150],failed[:4],int(time.time()-t),flush=True)
        with open('/tmp/autolog.jsonl','a') as g: g.write(json.dumps({"definition":d,"edit":edit,"outcome":res,"failed":failed[:8]},ensure_ascii=False)+'\n')
main()
