"""Writes lean/Verif/Check/Recorded*.lean: tests of the model against the outputs recorded in /repo.

Type aliases in the tests of /repo are expanded the way the compiler does for `std::any::type_name`; the expected graphs
are copied from the `assert_eq!`s next to them.  For the generator the protocols and the generated files are copied.
Run: python3 tools/recorded.py
"""
import re,sys,os
LIB={'Send':'mpstthree::binary::struct_trait::send::Send','Recv':'mpstthree::binary::struct_trait::recv::Recv','End':'mpstthree::binary::struct_trait::end::End','RoleEnd':'mpstthree::role::end::RoleEnd','RoleBroadcast':'mpstthree::role::broadcast::RoleBroadcast','i32':'i32','Either':'either::Either','bool':'bool','String':'alloc::string::String','()':'()'}
def strip(s):
    s=re.sub(r'//[^\n]*','',s); return s
def parse_ty(s,i=0):
    # returns (ast,i)
    while s[i].isspace(): i+=1
    if s.startswith('()',i): return ('()',[]),i+2
    if s[i]=='<':
        t,i=parse_ty(s,i+1)
        m=re.compile(r'\s*as\s+(\w+)\s*>\s*::\s*Dual').match(s,i); assert m,s[i:i+40]
        return ('DUAL',[t]),m.end()
    m=re.compile(r'[\w:]+').match(s,i); assert m,(s[i:i+50])
    n=m.group(0).split('::')[-1]; i=m.end(); args=[]
    j=i
    while j<len(s) and s[j].isspace(): j+=1
    if j<len(s) and s[j]=='<':
        i=j+1
        while True:
            while s[i].isspace(): i+=1
            if s[i]=='>': i+=1; break
            t,i=parse_ty(s,i); args.append(t)
            while s[i].isspace(): i+=1
            if s[i]==',': i+=1
    return (n,args),i
def subst(t,env):
    n,a=t
    if n in env and not a: return env[n]
    return (n,[subst(x,env) for x in a])
def dual(t):
    n,a=t
    if n=='Send': return ('Recv',[a[0],dual(a[1])])
    if n=='Recv': return ('Send',[a[0],dual(a[1])])
    if n in('End','RoleEnd'): return t
    if n=='MeshedChannels': return (n,[dual(x) for x in a[:-1]]+[a[-1]])
    if n.startswith('Role'):
        swap={'RoleBroadcast':'RoleBroadcast'}
        for x in 'ABC': swap['RoleAllto'+x]='Role%stoAll'%x; swap['Role%stoAll'%x]='RoleAllto'+x
        m=swap.get(n) or (n[:-4] if n.endswith('Dual') else n+'Dual')
        return (m,[dual(x) for x in a])
    raise Exception(t)
def load(f):
    global STD
    s=strip(open(f).read()); STD='use mpstthree::meshedchannels::MeshedChannels' in s
    al={}
    P=lambda x:parse_ty(x)[0]
    if re.search(r'functionmpst::ChooseMpst',s):
        # /repo/src/functionmpst/mod.rs:34-57
        al['OfferMpst']=(['S0','S1','S2','S3','R0','R1','N0'],P(OFFER)); al['ChooseMpst']=(['S0','S1','S2','S3','R0','R1','N0'],P(CHOOSE))
    for m in re.finditer(r'type\s+(\w+)(<[\w,\s]*>)?\s*=',s):
        ps=[x.strip() for x in (m.group(2) or '')[1:-1].split(',') if x.strip()]
        al[m.group(1)]=(ps,parse_ty(s,m.end())[0])
    en={}
    for m in re.finditer(r'enum\s+(\w+)\s*\{',s):
        i=m.end(); vs=[]
        while True:
            mm=re.compile(r'\s*(\w+)\s*\(').match(s,i)
            if not mm: break
            t,i=parse_ty(s,mm.end())
            i=re.compile(r'\s*,?\s*\)\s*,?').match(s,i).end()
            vs.append((mm.group(1),t))
        en[m.group(1)]=vs
    return s,al,en
def norm(t,al,en):
    n,a=t
    if n=='DUAL': return dual(norm(a[0],al,en))
    a=[norm(x,al,en) for x in a]
    if n in al:
        ps,b=al[n]; return norm(subst(b,dict(zip(ps,a))),al,en) if ps else norm(b,al,en)
    return (n,a)
def show(t,mod):
    n,a=t
    std=STD
    if n in LIB: p=LIB[n]
    elif std and n=='MeshedChannels': p='mpstthree::meshedchannels::MeshedChannels'
    elif std and n.startswith('Role'): p='mpstthree::role::%s::%s'%(n[4:].lower(),n)
    elif std and n.startswith('Name'): p='mpstthree::name::%s::%s'%(n[4:].lower(),n)
    else: p='checking::%s::%s'%(mod,n)
    return p+('<'+', '.join(show(x,mod) for x in a)+'>' if a else '')
fm=strip(open('/repo/src/functionmpst/mod.rs').read())
OFFER=re.search(r'type OfferMpst<[^>]*>\s*=(.*?);',fm,re.S).group(1)
CHOOSE=re.search(r'type ChooseMpst<[^>]*>\s*=(.*?);',fm,re.S).group(1)
def macro(s,i):
    i=s.index('checker_concat!(',i)+len('checker_concat!(')
    m=re.compile(r'\s*"([^"]*)"\s*,').match(s,i); name=m.group(1); i=m.end()
    sess=[];groups=[]
    while True:
        t,i=parse_ty(s,i); sess.append(t)
        m=re.compile(r'\s*(,|=>|\))').match(s,i); i=m.end()
        if m.group(1)!=',':break
        if re.compile(r'\s*(=>|\))').match(s,i):
            m=re.compile(r'\s*(=>|\))').match(s,i); i=m.end();break
    if m.group(1)=='=>':
        while True:
            m=re.compile(r'\s*\[').match(s,i)
            if not m: break
            t,i=parse_ty(s,m.end()); cells=[]
            while True:
                m=re.compile(r'\s*,\s*(\w+)\s*,\s*(\w+)').match(s,i)
                if not m: break
                cells.append((m.group(1),m.group(2))); i=m.end()
            i=re.compile(r'\s*,?\s*\]\s*,?').match(s,i).end()
            groups.append((t,cells))
    return name,sess,groups

def expected(s):
    out=[]
    for m in re.finditer(r'graphs\["(\w+)"\];\s*assert_eq!\(\s*format!\("\{:\?\}", Dot::new\(&\w+\)\),\s*"(.*?)"\s*\);',s,re.S):
        t=re.sub(r'\\\n\s*','',m.group(2))
        t=t.replace('\\n','\n').replace('\\"','"').replace('\\\\','\\')
        out.append((m.group(1),t))
    k=re.search(r'assert_eq!\(kmc,\s*(\w+(\(\d+\))?)\)',s)
    return out,k and k.group(1)
def cases(f):
    mod=os.path.basename(f)[:-3]
    s,al,en=load(f); raw=open(f).read()
    T=lambda t: show(norm(t,al,en),mod)
    ps=[m.start() for m in re.finditer(r'checker_concat!\(',s)]
    rs=[m.start() for m in re.finditer(r'checker_concat!\(',raw)]+[len(raw)]
    for n,p in enumerate(ps):
        name,sess,groups=macro(s,p)
        yield dict(file=f,mod=mod,name=name,sess=[T(t) for t in sess],groups=[(T(t),c) for t,c in groups],variants=[(e,[(v,T(t)) for v,t in vs]) for e,vs in en.items()],exp=expected(raw[rs[n]:rs[n+1]]))


import glob, json
OUT='/verif/lean/Verif/Check/'
q=lambda s:json.dumps(s,ensure_ascii=False)
L=lambda xs:'['+', '.join(xs)+']'
pr=lambda cs:L('(%s, %s)'%(q(a),q(b)) for a,b in cs)
nl=lambda xs,ind='    ':'['+(',\n'+ind).join(xs)+']'

def checker_file():
    fs=sorted(glob.glob('/repo/tests/checking_mod/*/*.rs')+glob.glob('/repo/tests/ba*_mod/simple_ba*/*.rs'))
    fs=[f for f in fs if 'Dot::new' in open(f).read()]
    parts={}
    for f in fs:
        for c in cases(f):
            if not c['exp'][0]: continue
            key='Checking' if 'checking_mod' in f else 'Baking' if 'baking_mod' in f else 'Basics'
            o='-- %s, file name given: %s\n'%(f,q(c['name']))
            o+='#guard sameGraphs %s\n    %s\n    %s\n    %s\n    %s\n\n'%(
              q(c['name']),
              nl(map(q,c['sess'])),
              nl('(%s, %s)'%(q(t),pr(cs)) for t,cs in c['groups']),
              nl('(%s, %s)'%(q(e),pr(vs)) for e,vs in c['variants']),
              nl('(%s, %s)'%(q(a),nl(map(q,b.split('\n')),'      ')) for a,b in c['exp'][0]))
            parts.setdefault(key,[]).append(o)
    for k,os_ in parts.items():
        open(OUT+'Recorded%s.lean'%k,'w').write('import Verif.Check.Checker\n/-! Written by tools/recorded.py.  Tests, not proofs: the graphs which the tests of the repository expect of the checker. -/\nnamespace Verif.CheckTest\n\n'+''.join(os_)+'end Verif.CheckTest\n')

def nuscr_lines(t):
    """The items of a generated file: one line each, with the lines inserted in a function after its head."""
    out=[]; fn=None
    for l in t.split('\n'):
        x=l.strip()
        if x.startswith('fn main'): fn=None; continue
        if re.match(r'(type|enum|struct) ',x): out.append(x)
        elif re.match(r'Branching\w*\(',x): out.append(x)
        elif x.startswith('fn '): out.append(x); fn=len(out)-1
        elif x.startswith('all_clocks.insert') and fn is not None: out[fn]+=' '+x
    return out

def nuscr_file():
    o='import Verif.Check.Nuscr\n/-! Written by tools/recorded.py.  Tests, not proofs: the files generated from the protocols kept in the repository. -/\nnamespace Verif.NuscrTest\n\n'
    d='/repo/tests/nuscr_mod/correct/'
    for a,b in [('basic','Basic'),('choice','Choice'),('recursion','Recursion')]:
        ls=open(d+a+'.nuscr').read().split('\n')
        if ls and ls[-1]=='': ls=ls[:-1]
        o+='-- %s%s.nuscr, %s.rs\n#guard sameFile\n    %s\n    %s\n\n'%(d,a,b,nl(map(q,ls)),nl(map(q,nuscr_lines(open(d+b+'.rs').read()))))
    for f in [d+'nested_choice.nuscr']+['/repo/tests/nuscr_mod/failing/%s.nuscr'%x for x in ('wrong_interval','wrong_consecutive_intervals')]:
        ls=open(f).read().split('\n')
        if ls and ls[-1]=='': ls=ls[:-1]
        o+='-- %s: an error\n#guard refused\n    %s\n\n'%(f,nl(map(q,ls)))
    open(OUT+'RecordedNuscr.lean','w').write(o+'end Verif.NuscrTest\n')

if __name__=='__main__':
    os.makedirs(OUT,exist_ok=True)
    checker_file(); nuscr_file()
