#!/usr/bin/env python3
"""Seeded wrong programs: for each mutation in the given JSON file, edit a scratch copy of the Lean
project, rebuild, and report which declarations no longer check and which property theorems rest
(transitively, by name) on those.  usage: mutate.py batch.json out.jsonl"""
import json,os,re,subprocess,sys,shutil
SRC=os.environ.get('SRC','/verif/lean'); W='/tmp/scratch/lean'
batch=json.load(open(sys.argv[1])); out=sys.argv[2]
def decls():
    D={}
    for root,_,fs in os.walk(SRC+'/Verif'):
        for f in fs:
            if not f.endswith('.lean'): continue
            p=os.path.join(root,f); rel=os.path.relpath(p,SRC)
            cur=None
            for i,l in enumerate(open(p),1):
                m=re.match(r'^(?:@\[.*?\]\s*)?(?:private |protected )?(theorem|def|example|instance|structure|inductive|abbrev|lemma)\b\s*([^\s:({\[]*)',l)
                if m:
                    cur=m.group(2) or f'{m.group(1)}@{rel}:{i}'
                    D[cur]=dict(file=rel,line=i,kind=m.group(1),text='')
                if cur: D[cur]['text']+=l
    return D
DECL=re.compile(r'^(?:@\[.*?\]\s*)?(?:private |protected )?(theorem|def|example|instance|structure|inductive|abbrev|lemma)\b\s*([^\s:({\[]*)')
D=decls()
toks={k:set(re.findall(r"[A-Za-z_][\w'.?]*",v['text'])) for k,v in D.items()}
for k in toks: toks[k]|={t.split('.')[0] for t in toks[k]}|{t.split('.')[-1] for t in toks[k]}
bare=lambda k: k if '@' in k else k.split('.')[-1]
def at(rel,line):
    best=None
    for k,v in D.items():
        if v['file']==rel and v['line']<=line and (best is None or v['line']>D[best]['line']): best=k
    return best
def closure(bad):
    bad=set(bad); ch=True
    while ch:
        ch=False
        for k in D:
            if k not in bad and D[k]['kind'] in('theorem','lemma','example') and toks[k]&{bare(b) for b in bad}:
                bad.add(k); ch=True
    return bad
def sh(c): return subprocess.run(c,shell=True,capture_output=True,text=True)
for mu in batch:
    sh(f'mkdir -p {W}; rm -rf {W}; cp -a {SRC} {W}')
    p=f'{W}/Verif/{mu["file"]}'
    s=open(p).read()
    n=s.count(mu['old'])
    if n!=1 and not mu.get('all'):
        print('BAD MUTATION',n,mu['def'],mu['old']); continue
    nl_before=s[:s.index(mu['old'])].count('\n')
    s=s.replace(mu['old'],mu['new']); open(p,'w').write(s)
    bad=[]; extra=[]
    for rnd in range(12):
        r=sh(f'cd {W} && nice lake build 2>&1')
        here={}
        for m in re.finditer(r'^error: (Verif/\S+?\.lean):(\d+):\d+: (.*)$',r.stdout,re.M):
            rel,ln=m.group(1),int(m.group(2))
            L=open(f'{W}/{rel}').read().split('\n')
            k0=ln-1
            while k0>0 and not DECL.match(L[k0]): k0-=1
            mm=DECL.match(L[k0])
            if not mm: extra.append(m.group(3)[:100]); continue
            here.setdefault(rel,{})[k0]=(mm.group(1),mm.group(2) or f'{mm.group(1)}@{rel}:{k0+1}',m.group(3)[:100])
        if not here:
            # a prover that was killed (out of memory, mostly a `decide +kernel` of something that is false now): drop the
            # evaluated cases of that module, then count the module itself
            dead=re.findall(r'^✖ \[\d+/\d+\] Building (Verif\S*)',r.stdout,re.M) if re.search(r'exited with code 13\d',r.stdout) else []
            again=False
            for mod in dead:
                rel=mod.replace('.','/')+'.lean'
                t=open(f'{W}/{rel}').read()
                L=t.split('\n'); ch=False; k0=0
                while k0<len(L):
                    mm=DECL.match(L[k0])
                    if mm and mm.group(1) in('example','theorem'):
                        e=k0+1
                        while e<len(L) and (L[e]=='' or L[e][0] in ' \t)|·'): e+=1
                        tx='\n'.join(L[k0:e])
                        if mm.group(1)=='example' and 'decide +kernel' in tx:
                            L[k0:e]=['example : True := trivial','']; ch=True; continue
                        q=re.search(r':=\s*by\b',tx)
                        if mm.group(1)=='theorem' and 'decide +kernel' in tx and q:
                            L[k0:e]=(tx[:q.start()]+':= by so'+'rry\n').split('\n'); ch=True
                            k0+=1; continue
                    k0+=1
                if ch:
                    open(f'{W}/{rel}','w').write('\n'.join(L)); again=True
                    bad.append('killed@'+rel)
                elif 'module@'+rel not in bad: bad.append('module@'+rel)
            if again: continue
            break
        stop=False
        for rel,ks in here.items():
            L=open(f'{W}/{rel}').read().split('\n')
            for k0 in sorted(ks,reverse=True):
                kind,name,msg=ks[k0]
                if name in bad: stop=True
                if name not in bad: bad.append(name)
                if kind not in('theorem','lemma','example'): extra.append(msg); stop=True; continue
                e=k0+1
                while e<len(L) and (L[e]=='' or L[e][0] in ' \t)|·'): e+=1
                if kind=='example': L[k0:e]=['example : True := trivial','']; continue
                t='\n'.join(L[k0:e]); d=0; pos=None
                for q,ch in enumerate(t):
                    if ch in '([{⟨': d+=1
                    elif ch in ')]}⟩': d-=1
                    elif ch==':' and t[q:q+2]==':=' and d==0:
                        # skip the := of a let in the statement
                        if re.search(r'\blet [^\n;]*$',t[:q]): continue
                        pos=q; break
                if pos is None: stop=True; continue
                L[k0:e]=(t[:pos]+':= by so'+'rry\n').split('\n')
            open(f'{W}/{rel}','w').write('\n'.join(L))
        if stop: break
    cl=closure(bad)
    claims=sorted(k for k in cl if re.match(r'C\d+_',k))
    rec=dict(definition=mu['def'],file='Verif/'+mu['file'],edit=mu['why'],claim=mu['claim'],failed_declarations=bad,property_theorems_affected=claims)
    ok=[c for c in mu['claim'].split() if any(k.startswith(c+'_') for k in claims)]
    rec['caught']=bool(ok) 
    if extra: rec['model_errors']=extra
    rec['tightened']=[]
    open(out,'a').write(json.dumps(rec,ensure_ascii=False)+'\n')
    print(('CAUGHT ' if ok else 'SURVIVED '),mu['def'],mu['claim'],bad[:4],extra[:1],flush=True)
