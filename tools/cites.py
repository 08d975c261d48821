#!/usr/bin/env python3
"""Lists every citation of a Go file in the model with the first and last line it covers, for checking by eye."""
import re, glob, os
base='/repo'
files={}
for r,_,fs in os.walk(base):
    for f in fs:
        if f.endswith('.go') or f.endswith('.bnf'): files.setdefault(f,[]).append(os.path.join(r,f))
for m in sorted(glob.glob(os.path.join(os.path.dirname(__file__),'../lean/Verif/Model/*.lean'))):
    for i,l in enumerate(open(m),1):
        for c in re.finditer(r'([\w/]+\.(?:go|bnf)):(\d+)(?:-(\d+))?',l):
            n=os.path.basename(c.group(1)); ps=[p for p in files.get(n,[]) if p.endswith(c.group(1))]
            a=int(c.group(2)); b=int(c.group(3) or a)
            for p in ps[:1]:
                t=open(p).read().split('\n')
                print(os.path.basename(m),i,c.group(0),'|',t[a-1].strip()[:60] if a<=len(t) else '???','|',t[b-1].strip()[:40] if b<=len(t) else '???')
            if not ps: print(os.path.basename(m),i,c.group(0),'NO FILE')
