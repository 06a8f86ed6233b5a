#!/usr/bin/env python3
"""Checks that every definition in lean/Verif/Model carries a doc comment citing file:lines of /repo (or says
that it is a library/modelling device), and that cited files and line ranges exist."""
import re,os,glob,sys
repo={}
for d,_,fs in os.walk('/repo'):
    for f in fs:
        if f.endswith('.go'): repo.setdefault(f,[]).append((os.path.join(d,f),sum(1 for _ in open(os.path.join(d,f),errors='replace'))+1))
bad=0
DECL=re.compile(r'^(?:@\[[^\]]*\]\s*)?(?:private |protected |noncomputable |partial )*(def|structure|inductive|abbrev|class)\s+(\S+)')
for p in sorted(glob.glob('/verif/lean/Verif/Model/*.lean')):
    ls=open(p).read().split('\n')
    last=None
    for i,l in enumerate(ls):
        m=DECL.match(l)
        if not m: continue
        j=i-1
        while j>=0 and (ls[j].startswith('@[') ): j-=1
        doc=''
        if j>=0 and ls[j].rstrip().endswith('-/'):
            k=j
            while k>=0 and '/-' not in ls[k]: k-=1
            doc='\n'.join(ls[k:j+1])
        ok=re.search(r'[a-zA-Z0-9_]+\.go:\d+',doc) or re.search(r'Library|library|modelling device|Go runtime|model only|Go language',doc)
        if not ok: bad+=1; print(f'{os.path.basename(p)}:{i+1}: {m.group(2)}: no citation: {doc[:100]!r}')
    for m in re.finditer(r'((?:[a-zA-Z0-9_]+/)*[a-zA-Z0-9_]+\.go):(\d+)(?:-(\d+))?',open(p).read()):
        f=os.path.basename(m.group(1)); 
        if f not in repo: bad+=1; print(os.path.basename(p),'unknown file',m.group(0)); continue
        hi=int(m.group(3) or m.group(2))
        if not any(hi<=n for _,n in repo[f]): bad+=1; print(os.path.basename(p),'bad lines',m.group(0))
print('problems:',bad)
