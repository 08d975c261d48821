#!/usr/bin/env python3
"""Rewrites the axiom table of DESIGN.md (between the markers) from `#print axioms` of every theorem of MANIFEST.json."""
import os,re,json,subprocess
root=os.path.dirname(os.path.dirname(os.path.abspath(__file__)))
man=json.load(open(root+'/MANIFEST.json'))['claims']
ths=sorted({t for c in man for t in c['theorems']})
p='/tmp/axioms_check.lean'
with open(p,'w') as h:
    h.write('import Verif\n')
    for t in ths: h.write('#print axioms %s\n'%t)
out=subprocess.run(['lake','env','lean',p],cwd=root+'/lean',stdout=subprocess.PIPE,stderr=subprocess.STDOUT).stdout.decode()
groups={}
for t in ths:
    m=re.search(r"'%s' (does not depend|depends on axioms: \[([^\]]*)\])"%re.escape(t),out,re.S)
    assert m,t
    ax=', '.join(sorted(x.strip() for x in (m.group(2) or '').split(','))) or 'no axioms'
    groups.setdefault(ax,[]).append(t.split('.')[-1])
txt=''
for ax in sorted(groups,key=lambda a:(len(a),a)):
    txt+='* **%s** (%d): %s\n'%(ax,len(groups[ax]),', '.join('`%s`'%t for t in groups[ax]))
d=root+'/DESIGN.md'
s=open(d).read()
a,b='<!-- axioms -->','<!-- /axioms -->'
i=s.index(a)+len(a); j=s.index(b)
open(d,'w').write(s[:i]+'\n'+txt+s[j:])
print({k:len(v) for k,v in groups.items()})
