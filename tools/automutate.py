#!/usr/bin/env python3
"""Mechanical mutants of definitions of the model that no hand-written mutant has touched. Each edit is tried in a scratch copy; the build is
stopped at the first module that fails. Usage: automutate.py seed first_id max_count [file-substring ...]"""
import sys, subprocess, re, json, os, random, glob, time, signal
SRC='/verif/lean'; MUT='/tmp/automut'; PRI='/tmp/automut_pristine'
LOG='/verif/seeded/LOG.jsonl'
RULES=[(r' && ',' || '),(r' \|\| ',' && '),(r' == ',' != '),(r' != ',' == '),(r' < ',' ≤ '),(r' ≤ ',' < '),(r'\.lt ','.le '),(r'\.le ','.lt '),
 (r'\+ 1\b','+ 2'),(r'- 1\b','- 2'),(r'\btrue\b','false'),(r'\bfalse\b','true'),(r'\.1\b','.2'),(r'\.2\b','.1'),(r' = ',' ≠ '),(r' ≠ ',' = '),
 (r'\.src\b','.tgt'),(r'\.tgt\b','.src'),(r'\bnone\b','some default'),(r'\.add ','.sub '),(r'\.sub ','.add '),(r'\.find\? ','.find? (fun x => x) '),
 (r'\.filter ','.filter (!·) '),(r' \+\+ (\S+)',r''),(r'\.x\b','.y'),(r'\.y\b','.z'),(r'\.layers\b','.dynLayers'),(r'\b0\b','1'),(r'\b1\b','0'),(r'\b2\b','3'),(r'\b8\b','7'),
 (r'\.siblings\b','.children'),(r'\.children\b','.parents'),(r'\.parents\b','.siblings'),(r'\binsert (\S+) ',r'erase '),(r' \* ',' + '),(r' \+ ',' - '),(r' - ',' + '),
 (r'\.isSome\b','.isNone'),(r'\.isNone\b','.isSome'),(r'\.isEmpty\b','.isEmpty.not'),(r'if (.+?) then',r'if ¬ (\1) then'),(r'\.reverse\b',''),(r'\bp\b','q'),(r'\bq\b','p'),
 (r'\.ok \(\)','.throw .json'),(r'\.throw \.\w+','.ub'),(r'\.ub\b','.throw .json')]
def restore():
    import shutil, time
    for _ in range(20):
        try: return restore1()
        except FileNotFoundError: time.sleep(3)
def restore1():
    import shutil
    for root,ds,fs in os.walk(MUT):
        o=root.replace(MUT,PRI,1)
        for x in fs:
            q=os.path.join(root,x); w=os.path.join(o,x)
            if not os.path.exists(w): os.remove(q); continue
            a,b=os.stat(q),os.stat(w)
            if a.st_mtime_ns!=b.st_mtime_ns or a.st_size!=b.st_size: shutil.copy2(w,q)
    for root,ds,fs in os.walk(PRI):
        o=root.replace(PRI,MUT,1)
        os.makedirs(o,exist_ok=True)
        for x in fs:
            if not os.path.exists(os.path.join(o,x)): shutil.copy2(os.path.join(root,x),os.path.join(o,x))
def sh(c): return subprocess.run(c,shell=True,capture_output=True,text=True)
def defs(f):
    s=open(f).read()
    ms=list(re.finditer(r'^(?:noncomputable |@\[.*?\] )?(?:def|abbrev) (\S+)',s,re.M))
    for m in ms:
        e=re.compile(r'^(?:\S|/--)',re.M)
        # end: next line starting at column 0 that is not a continuation
        end=len(s)
        for x in re.finditer(r'^(?=[^\s|])',s[m.end():],re.M):
            end=m.end()+x.start(); break
        body=s[m.start():end]
        k=body.find(':=')
        bar=body.find('\n  |')
        if k<0 or (0<=bar<k): k=bar
        if k<0: continue
        yield m.group(1), m.start()+k, end
def main():
    seed,first,cnt=int(sys.argv[1]),int(sys.argv[2]),int(sys.argv[3]); pats=sys.argv[4:]
    random.seed(seed)
    done={}
    for l in open(LOG):
        d=json.loads(l); done[d['definition'].split('.')[-1]]=1
    sh(f'rm -rf {MUT} {PRI}; cp -a {SRC} {MUT}; cp -a {SRC} {PRI}')
    cands=[]
    for f in sorted(glob.glob(SRC+'/Verif/Model/*.lean')):
        if pats and not any(p in f for p in pats): continue
        s=open(f).read()
        for name,a,b in defs(f):
            if name.split('.')[-1] in done: continue
            body=s[a:b]; opts=[]
            for r,t in RULES:
                for m in re.finditer(r,body):
                    ln=body.rfind('\n',0,m.start())+1
                    if '/--' in body[ln:m.start()] or '--' in body[ln:m.start()]: continue
                    opts.append((a+m.start(),a+m.end(),m.expand(t)))
            random.shuffle(opts)
            cands.append((f,name,opts[:3]))
    random.shuffle(cands)
    n=0; ident=first
    for f,name,opts in cands:
        if n>=cnt: break
        rel=f[len(SRC)+1:]
        src=open(f).read()
        for a,b,t in opts:
            new=src[:a]+t+src[b:]
            p=f'{MUT}/{rel}'
            open(p,'w').write(new)
            r=sh(f'cd {MUT} && timeout 120 lake env lean {rel}')
            if r.returncode!=0: restore(); continue
            t0=time.time()
            pr=subprocess.Popen('nice -n 5 timeout 1200 lake build Verif 2>&1',shell=True,cwd=MUT,stdout=subprocess.PIPE,text=True,start_new_session=True)
            killed=None
            for line in pr.stdout:
                m=re.search(r'error: (Verif/\S+?\.lean):(\d+):',line)
                if m: killed=(m.group(1),int(m.group(2))); break
            try: os.killpg(pr.pid,signal.SIGKILL)
            except ProcessLookupError: pass
            pr.wait()
            ln0=src.rfind('\n',0,a)+1; ln1=src.find('\n',b)
            old=src[ln0:ln1].strip(); nw=(src[ln0:a]+t+src[b:ln1]).strip()
            sys.path.insert(0,'/verif/tools')
            decl='?'
            if killed:
                for i,l in enumerate(open(f'{MUT}/{killed[0]}'),1):
                    if i>killed[1]: break
                    mm=re.match(r'(?:@\[.*?\]\s*)?(?:private |protected |noncomputable )*(theorem|def|example|instance|abbrev|structure|inductive)\s*(\S*)',l)
                    if mm: decl=mm.group(2) or mm.group(1)
            print(f'M{ident}','KILLED' if killed else 'SURVIVED',rel,name,'|',old,'->',nw,'|',(killed[0][6:-5].replace('/','.')+':'+decl) if killed else '',f'{time.time()-t0:.0f}s',flush=True)
            if killed:
                open(LOG,'a').write(json.dumps(dict(id=f'M{ident}',definition=name,edit=f'{old}  ->  {nw}',claim=f'mechanical mutant of {rel[12:-5]}: the model no longer follows the cited lines',theorems_failed=[killed[0][6:-5].replace('/','.')+':'+decl],note='build stopped at the first failing module',theorems_tightened=[]))+'\n')
            ident+=1; n+=1
            restore()
            break
main()
