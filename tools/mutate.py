#!/usr/bin/env python3
"""Mutation testing of the theorems (outside /verif).

For each mutation: copy the project, edit one definition of the model, rebuild. Each theorem whose proof breaks is cut off (its proof is
replaced by the placeholder that Lean marks with the axiom sorryAx) and the build is repeated, so that afterwards `#print axioms` tells for every theorem of the
manifest whether its proof still goes through (directly and in all lemmas it uses) for the edited program.

usage: mutate.py [-s SLOT] [ids...]     results go to /tmp/mut/results/<id>.json
"""
import sys,os,re,json,subprocess,shutil
root=os.path.dirname(os.path.dirname(os.path.abspath(__file__)))
exec(open(os.path.join(root,'tools/mutations.py')).read())
PL='sor'+'ry'
def sh(cmd,cwd,timeout=3000):
    p=subprocess.run(cmd,shell=True,cwd=cwd,stdout=subprocess.PIPE,stderr=subprocess.STDOUT,timeout=timeout)
    return p.stdout.decode('utf8','replace')
DECL=re.compile(r'^(?:@\[[^\]]*\] *)*(?:private |protected |noncomputable )*(theorem|lemma|def|example|instance|abbrev|structure|inductive)\b\s*(\S*)')
TOP=re.compile(r'^(?:@\[|private |protected |theorem|lemma|def|example|instance|abbrev|structure|inductive|/-|end\b|section|mutual|open|namespace|variable|omit|set_option|local|macro|attribute)')
def cut(path,line):
    L=open(path).read().split('\n')
    i=min(line-1,len(L)-1)
    while i>=0 and not DECL.match(L[i]): i-=1
    if i<0: return None
    kind,name=DECL.match(L[i]).groups()
    j=i+1
    while j<len(L) and not TOP.match(L[j]): j+=1
    block='\n'.join(L[i:j])
    if kind=='example':
        if i>0 and L[i-1].rstrip().endswith('-/'):  # its doc comment goes too
            d=i-1
            while d>0 and not L[d].startswith('/--'): d-=1
            if L[d].startswith('/--'): L[d:i]=['']*(i-d)
        L[i:j]=['']; open(path,'w').write('\n'.join(L)); return (kind,'example')
    if kind not in('theorem','lemma'):
        return (kind,name)
    depth=0;pos=None;k=0;arms=False
    while k<len(block):
        ch=block[k]
        if ch=='"':   # a string literal
            k+=1
            while k<len(block) and block[k]!='"': k+=2 if block[k]=='\\' else 1
        elif ch in '([{⟨': depth+=1
        elif ch in ')]}⟩': depth-=1
        elif depth==0 and block.startswith(':=',k) and not re.search(r'\blet \S+ $',block[:k]): pos=k;break
        elif depth==0 and not arms and ch=='\n' and re.match(r'\n\s*\| ',block[k:k+20]):
            if re.search(r'\bwith\s*$',block[:k]): arms=True   # a `match` in the statement
            else: pos=k;break
        k+=1
    if pos is None: return ('?',name)
    nb=block[:pos]+' := by '+PL
    if nb==block: return ('again',name)
    pad=block.count('\n')-nb.count('\n')
    nb=nb+'\n'*pad
    L[i:j]=nb.split('\n')
    open(path,'w').write('\n'.join(L))
    return (kind,name)
LIMIT=os.environ.get('LIMIT')   # build only the modules with the theorems of the claims of the mutation
_where={}
def where():
    if not _where:
        for d,_,fs in os.walk('/tmp/mut/base/Verif'):
            for f in fs:
                if f.endswith('.lean') and '/Model' not in d:
                    p=os.path.join(d,f)
                    for x in re.findall(r'^(?:@\[[^\]]*\] *)*theorem (\S+)',open(p).read(),re.M): _where.setdefault(x,[]).append(os.path.relpath(p,'/tmp/mut/base')[:-5].replace('/','.'))
    return _where
def mods(m):
    if not LIMIT: return []
    man=json.load(open('/tmp/mut/MANIFEST.json'))['claims']
    out=set()
    for c in man:
        if c['property'] in m['claims']:
            for t in c['theorems']:
                out|={x for x in where().get(t.split('.')[-1],[]) if x.startswith('Verif.Props')}
    return sorted(out)
def run(m,slot):
    base='/tmp/mut/base'; W='/tmp/mut/w%s'%slot
    shutil.rmtree(W,ignore_errors=True)
    subprocess.check_call(['cp','-a',base,W])
    for (f,old,new) in m['edits']:
        p=os.path.join(W,'Verif',f)
        s=open(p).read()
        n=s.count(old)
        assert n==m.get('count',1),(m['id'],f,old,n)
        open(p,'w').write(s.replace(old,new))
    v=open(W+'/Verif.lean').read()   # the tests are not theorems, and slow
    open(W+'/Verif.lean','w').write(re.sub(r'^import Verif\.Tests\..*\n','',v,flags=re.M))
    failed=[];defs=[]
    for pc in os.environ.get('PRECUT','').split():   # FILE:LINE of a theorem whose check no longer ends (runs out of memory) for this edit
        f,l=pc.split(':'); failed.append(cut(os.path.join(W,f),int(l))[1])
    for it in range(40):
        out=sh('lake build %s 2>&1'%' '.join(mods(m)),W)
        errs=re.findall(r'^error: (Verif/\S+?\.lean):(\d+):\d+: (.*)$',out,re.M)
        if not errs:
            if 'exited with code 137' in out and it<4: continue   # killed for lack of memory: try again
            break
        progress=False
        seen=set()
        for f,l,msg in errs:
            if f.startswith('Verif/Model') : defs.append(('model',f+':'+l+' '+msg)); continue
            r=cut(os.path.join(W,f),int(l))
            if r is None: defs.append(('?',f+':'+l)); continue
            key=(f,r[1])
            if key in seen: continue
            seen.add(key)
            if r[0] in('theorem','lemma'):
                if r[1] not in failed: failed.append(r[1])
                progress=True
            elif r[0]=='example': progress=True
            elif r[0]=='again': pass
            else: defs.append((r[0],r[1]+' '+f+':'+l+' '+msg))
        if not progress: break
    res_out=out
    man=json.load(open('/tmp/mut/MANIFEST.json'))['claims']
    ths=sorted({t for c in man for t in c['theorems'] if not LIMIT or any(x in mods(m) for x in where().get(t.split('.')[-1],[]))})
    stuck=set(re.findall(r'^✖ \[\d+/\d+\] Building (Verif\.\S+)',res_out,re.M))   # modules that are not built, because of an error that is not cut off
    imps={}
    for d,_,fs in os.walk(W+'/Verif'):
        for f in fs:
            if f.endswith('.lean'):
                p=os.path.join(d,f)
                imps[os.path.relpath(p,W)[:-5].replace('/','.')]=re.findall(r'^import (Verif\.\S+)',open(p).read(),re.M)
    un=set(stuck);n=-1
    while n!=len(un):
        n=len(un); un|={x for x in imps if any(y in un for y in imps[x])}
    goal=mods(m) or re.findall(r'^import (Verif\.\S+)',open(W+'/Verif.lean').read(),re.M)
    with open(W+'/Check.lean','w') as h:
        for x in goal:
            if x not in un: h.write('import %s\n'%x)
            else:
                for y in imps[x]:
                    if y not in un: h.write('import %s\n'%y)
        for t in ths: h.write('#print axioms %s\n'%t)
    out=sh('lake env lean Check.lean',W)
    taint={}
    for t in ths:
        mm=re.search(r"'%s' (does not depend|depends on axioms: \[([^\]]*)\])"%re.escape(t),out,re.S)
        taint[t]=None if not mm else ('sorryAx' in (mm.group(2) or ''))
    res={'id':m['id'],'stuck':sorted(stuck),'limited':mods(m),'tail':re.findall(r'^error.*',res_out,re.M)[:20],'failed':failed,'defs':defs,'builtok':all(v is not None for v in taint.values())}
    res['broken']=[t.split('.')[-1] for t in ths if taint[t]]
    res['unknown']=[t.split('.')[-1] for t in ths if taint[t] is None]
    weak=[]
    for p in m['claims']:
        c=[c for c in man if c['property']==p][0]
        if not any(taint.get(t) is not False for t in c['theorems']): weak.append(p)
    res['weak']=weak
    os.makedirs('/tmp/mut/results',exist_ok=True)
    json.dump(res,open('/tmp/mut/results/%s.json'%m['id'],'w'),indent=1)
    print(m['id'],m['what'],'| claims',m['claims'],'| WEAK' if weak else '| ok',weak,'| failed',len(failed),failed[:6],'| broken',len(res['broken']),'| defs',defs[:2],'| unknown',len(res['unknown']),flush=True)
if __name__=='__main__':
    a=sys.argv[1:]; slot='0'
    if a and a[0]=='-s': slot=a[1]; a=a[2:]
    shard=None
    if a and a[0]=='-k': shard=(int(a[1]),int(a[2])); a=a[3:]
    for ix,m in enumerate(mutations):
        if shard and ix%shard[1]!=shard[0]: continue
        if a and m['id'] not in a: continue
        if not a and os.path.exists('/tmp/mut/results/%s.json'%m['id']): continue
        try: run(m,slot)
        except Exception as e: print(m['id'],'EXC',repr(e)[:300],flush=True)
