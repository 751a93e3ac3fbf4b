#!/usr/bin/env python3
"""Runs the seeded bugs of tools/mutants*.py against a scratch copy of the Lean project and logs the outcome.
usage: seed.py mutants_file [first [last]]"""
import sys, os, re, json, subprocess, shutil, importlib.util
SRC="/verif/lean"; DST="/tmp/seed"
def sync():
    os.makedirs(DST, exist_ok=True)
    subprocess.run(["rsync","-a","--delete","--exclude=.lake",SRC+"/",DST+"/"],check=False) if shutil.which("rsync") else copy()
    if not os.path.exists(DST+"/.lake"):
        subprocess.run(["cp","-a",SRC+"/.lake",DST+"/.lake"])
def copy():
    for d in ["Verif"]:
        shutil.rmtree(f"{DST}/{d}",ignore_errors=True)
    subprocess.run(f"cp -a {SRC}/Verif {SRC}/Verif.lean {SRC}/lakefile.toml {DST}/; cp -a {SRC}/lean-toolchain {SRC}/lake-manifest.json {DST}/ 2>/dev/null",shell=True)
def decl_at(path,line):
    ls=open(path).read().split("\n")
    for i in range(min(line,len(ls))-1,-1,-1):
        m=re.match(r"\s*(?:private |protected )?(theorem|lemma|example|def|instance|abbrev)\s*([^\s:({\[]*)",ls[i])
        if m: return m.group(2) or m.group(1)
    return "?"
def deps():
    d={}
    for root,_,fs in os.walk(DST+"/Verif"):
        for f in fs:
            if f.endswith(".lean"):
                p=os.path.join(root,f); mod=p[len(DST)+1:-5].replace("/",".")
                d[mod]=re.findall(r"^import (Verif\.\S+)",open(p).read(),re.M)
    return d
def props_in(mod):
    p=DST+"/"+mod.replace(".","/")+".lean"
    return re.findall(r"^theorem (C\d\d_\S+)",open(p).read(),re.M)
def build():
    r=subprocess.run("nice lake build 2>&1",shell=True,cwd=DST,capture_output=True,text=True,timeout=3000)
    return r.returncode,r.stdout
def main():
    spec=importlib.util.spec_from_file_location("m",sys.argv[1]); m=importlib.util.module_from_spec(spec); spec.loader.exec_module(m)
    lo=int(sys.argv[2]) if len(sys.argv)>2 else 0
    hi=int(sys.argv[3]) if len(sys.argv)>3 else len(m.M)
    sync()
    for n,(file,defn,old,new,claim,target) in list(enumerate(m.M))[lo:hi]:
        p=f"{DST}/Verif/Model/{file}.lean"; s=open(p).read()
        if s.count(old)!=1:
            print(n,"BAD MATCH",file,defn,s.count(old),flush=True); continue
        open(p,"w").write(s.replace(old,new))
        rc,out=build()
        open(p,"w").write(s)
        errs=re.findall(r"^error: (Verif/\S+\.lean):(\d+):",out,re.M)
        if "unexpected token" in out and any("Model/"+file in e[0] for e in errs) or any(e[0]==f"Verif/Model/{file}.lean" for e in errs):
            msg=[l for l in out.split("\n") if l.startswith("error")][:3]
            print(n,"MODEL DOES NOT COMPILE",file,defn,msg,flush=True); continue
        failed=[]; mods=set()
        for f,l in errs:
            mods.add(f[:-5].replace('/','.'))
            t=decl_at(f"{DST}/{f}",int(l)); x=f"{f[6:-5].replace('/','.')}.{t}"
            if x not in failed: failed.append(x)
        bad=mods
        d=deps(); ch=True; blocked=set()
        while ch:
            ch=False
            for k,v in d.items():
                if k not in blocked and any(i in bad or i in blocked for i in v):
                    blocked.add(k); ch=True
        direct=[x.rsplit(".",1)[1] for x in failed if re.match(r"C\d\d_",x.rsplit(".",1)[1])]
        bl=sorted({t for b in blocked-{"Verif.Audit","Verif"} if b.startswith("Verif.Prop") for t in props_in(b)})
        # lemmas failing inside a property file take its later theorems with them
        lem=[x for x in failed if not re.match(r"C\d\d_",x.rsplit(".",1)[1])]
        inprop=sorted({t for x in lem if x.startswith("Prop.") for t in props_in("Verif."+x.rsplit(".",1)[0])})
        hit=[t for t in direct+bl+inprop if t.startswith(target)] if target else direct+bl+inprop
        rec={"definition":f"{file}.{defn}","edit":f"{old.strip()}  ==>  {new.strip()}","claim":claim,
             "outcome":"caught" if rc!=0 and hit else "SURVIVED",
             "failed":failed[:12],"blocked_property_theorems":[t for t in bl if t.startswith(target)][:12] if target else bl[:12],"tightened":[]}
        print(n,rec["outcome"],file,defn,failed[:5],flush=True)
        with open("/tmp/seedlog.jsonl","a") as f: f.write(json.dumps(rec,ensure_ascii=False)+"\n")
main()
