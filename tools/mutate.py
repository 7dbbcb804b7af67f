#!/usr/bin/env python3
"""Run seeded bugs: each entry of mutants*.py edits one definition of the model in a scratch copy and rebuilds.
Usage: mutate.py mutants_file.py   (appends one JSON line per mutant to ../seeded/LOG.jsonl)"""
import sys, subprocess, re, json, shutil, os, runpy
SRC='/verif/lean'; MUT='/tmp/mut'
LOG='/verif/seeded/LOG.jsonl'
def sh(cmd, **k): return subprocess.run(cmd, shell=True, capture_output=True, text=True, **k)
def sync():
    sh(f'rm -rf {MUT} && cp -a {SRC} {MUT}')
def decl_at(path, line):
    name='?'
    ns=[]
    for i,l in enumerate(open(path),1):
        if i>line: break
        m=re.match(r'namespace (\S+)',l)
        if m: ns.append(m.group(1))
        m=re.match(r'end (\S+)',l)
        if m and ns and ns[-1]==m.group(1): ns.pop()
        m=re.match(r'(?:@\[.*?\]\s*)?(?:private |protected )?(theorem|def|example|instance|abbrev|structure|inductive)\s*(\S*)',l)
        if m: name=(m.group(2) if m.group(1)!='example' else 'example') or m.group(1)
    return name
def theorems(path):
    return [m.group(1) for m in re.finditer(r'^(?:theorem)\s+(\S+)',open(path).read(),re.M)]
def main(f):
    sync()
    muts=runpy.run_path(f)['M']
    r=sh('lake build Verif 2>&1 | tail -3', cwd=MUT)
    if 'success' not in r.stdout: print('baseline', r.stdout); sys.exit(1)
    only=set(sys.argv[2:])
    for m in muts:
        if only and m['id'] not in only: continue
        p=f"{MUT}/Verif/{m['file']}"
        src=open(p).read()
        n=src.count(m['old'])
        if n<1: print('NOT FOUND',m['id']); continue
        k=m.get('nth',0)
        if n>1 and 'nth' not in m: print('AMBIGUOUS',m['id'],n); continue
        pos=-1
        for _ in range(k+1): pos=src.index(m['old'],pos+1)
        new=src[:pos]+m['new']+src[pos+len(m['old']):]
        open(p,'w').write(new)
        r=sh('timeout 1500 lake build Verif 2>&1', cwd=MUT)
        errs=[]
        for mm in re.finditer(r'error: (Verif/\S+?\.lean):(\d+):',r.stdout):
            d=mm.group(1)[6:-5].replace('/','.')+':'+decl_at(f'{MUT}/{mm.group(1)}',int(mm.group(2)))
            if d not in errs: errs.append(d)
        failedmods={mm.group(1) for mm in re.finditer(r'error: (Verif/\S+?)\.lean',r.stdout)}
        # modules that import a failed module, transitively
        imports={}
        for root,_,fs in os.walk(f'{MUT}/Verif'):
            for x in fs:
                if x.endswith('.lean'):
                    q=os.path.join(root,x); mod=q[len(MUT)+1:-5]
                    imports[mod]=[i.replace('.','/') for i in re.findall(r'^import (Verif\S*)',open(q).read(),re.M)]
        bad=set(failedmods); ch=True
        while ch:
            ch=False
            for mod,im in imports.items():
                if mod not in bad and any(i in bad for i in im): bad.add(mod); ch=True
        deps=sorted(x[6:].replace('/','.') for x in bad-failedmods if '/Props/' in x)
        open(p,'w').write(src)
        entry=dict(id=m['id'],definition=m['definition'],edit=m.get('edit') or f"{m['old']}  ->  {m['new']}",claim=m['claim'],theorems_failed=errs,property_modules_no_longer_established=deps,theorems_tightened=m.get('tightened',[]))
        if m.get('note'): entry['note']=m['note']
        print(m['id'],'KILLED' if errs else 'SURVIVED',errs[:6],flush=True)
        if m.get('log',True) and errs or m.get('note'):
            open(LOG,'a').write(json.dumps(entry)+'\n')
main(sys.argv[1])
