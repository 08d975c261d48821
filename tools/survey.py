#!/usr/bin/env python3
"""Survey with automatic mutants: edits single tokens of the definitions under lean/Verif/Model (outside /verif), rebuilds, and stops at the first error.

usage: survey.py gen            write the list of mutants to /tmp/survey/mutants.json (shuffled, the same number from each definition first)
       survey.py run SLOT N M   run the mutants number N, N+M, N+2M, ...; results are appended to /tmp/survey/results.jsonl
A mutant is killed (error outside Model), invalid (error in Model) or a survivor (everything builds).
"""
import sys,os,re,json,subprocess,shutil,random,signal,time,threading
root=os.path.dirname(os.path.dirname(os.path.abspath(__file__)))
BASE='/tmp/mut/base'
SKIP={'Gzip','Gob','TableInit','LexTables','ParseTables','TableData','AttrTable','TokTables'}
OPS=[(r' < ',[' ≤ ']),(r' ≤ ',[' < ']),(r' > ',[' ≥ ']),(r' ≥ ',[' > ']),(r' = ',[' ≠ ']),(r' ≠ ',[' = ']),(r' \+ 1\b',['',' + 2']),(r' - 1\b',['']),
 (r'\btrue\b',['false']),(r'\bfalse\b',['true']),(r' && ',[' || ']),(r' \|\| ',[' && ']),(r' ∧ ',[' ∨ ']),(r' ∨ ',[' ∧ ']),(r'!(?=[(a-z])',['']),
 (r'\.src\b',['.dst']),(r'\.dst\b',['.src']),(r'\.srcPort\b',['.dstPort']),(r'\.dstPort\b',['.srcPort']),(r'\.1\b',['.2']),(r'\.2\b',['.1']),
 (r'(?<=b!")[^"\\](?=[^"]*")',['?']),(r'(?<![\w.!"])\d+(?![\w."])',['N+1']),(r' \+\+ (\[[^\]]*\]|\([^()]*\)|[\w.!"]+)',['']),
 (r'\bif (?!let\b)([^\n]*?) then',['if ¬ (\\1) then']),(r', \w+ := [^,}⟩]+(?= })',['']),
 (r'\b(parent) (name)\b',['\\2 \\1']),(r'\b(src) (dst)\b',['\\2 \\1']),(r'\b(field) (value)\b',['\\2 \\1']),(r'\b(k) (v)\b',['\\2 \\1']),
 (r'\(([a-z]\w*) :: ',['(']),(r'\.reverse\b',['']),(r'\.tail\b',['']),(r'\bmset (\S+) ',['id (\\1) --']),(r'\bsome (\w+)\b(?! *[=|,⟩)])',['none'])]
DEF=re.compile(r'^(?:@\[[^\]]*\] *)*(?:private |protected |noncomputable )*(?:def|inductive|instance|abbrev)\s+(\S+)')
def mask(s):
    out=list(s);i=0
    for m in re.finditer(r'/-.*?-/|--[^\n]*',s,re.S):
        for k in range(*m.span()):
            if out[k]!='\n': out[k]=' '
    return ''.join(out)
def gen():
    by={}
    for f in sorted(os.listdir(root+'/lean/Verif/Model')):
        if f[:-5] in SKIP: continue
        s=open(root+'/lean/Verif/Model/'+f).read(); t=mask(s)
        pos=0;cur=None
        for line in s.split('\n'):
            ml=t[pos:pos+len(line)]
            m=DEF.match(ml)
            if m: cur=m.group(1)
            elif re.match(r'^(theorem|lemma|example|structure|namespace|open|end|variable|deriving|import|mutual)',ml): 
                if not ml.startswith('mutual') and not ml.startswith('end'): cur=None
            if cur and ml.strip():
                start=0
                if m: 
                    k=ml.find(':='); start=k if k>=0 else len(ml)
                mm=[]
                for pat,reps in OPS:
                    for x in re.finditer(pat,ml):
                        if x.start()<start: continue
                        for r in reps:
                            if r=='N+1': new=str(int(x.group(0))+1)
                            else: new=x.expand(r) if '\\' in r else r
                            mm.append((pos+x.start(),pos+x.end(),new))
                # drop a statement of a do block
                if re.match(r'^\s+(modGraph|store|setAdd|mapSet|copyInto|nodesAddM|edgesAddM)\b',ml): mm.append((pos,pos+len(line)+1,''))
                for a,b,n in mm: by.setdefault((f,cur),[]).append({'file':f,'def':cur,'a':a,'b':b,'old':s[a:b],'new':n,'line':line.strip()})
            pos+=len(line)+1
    rng=random.Random(7)
    for v in by.values(): rng.shuffle(v)
    out=[];r=0
    while any(len(v)>r for v in by.values()):
        lay=[v[r] for v in by.values() if len(v)>r]; rng.shuffle(lay); out+=lay; r+=1
    for i,m in enumerate(out): m['id']=i
    json.dump(out,open('/tmp/survey/mutants.json','w'))
    print(len(by),'definitions',len(out),'mutants')
def run(slot,n,step):
    ms=json.load(open('/tmp/survey/mutants.json'))
    done=set()
    if os.path.exists('/tmp/survey/results.jsonl'):
        done={json.loads(l)['id'] for l in open('/tmp/survey/results.jsonl')}
    W='/tmp/survey/w'+slot
    for m in ms[n::step]:
        if m['id'] in done: continue
        shutil.rmtree(W,ignore_errors=True)
        subprocess.check_call(['cp','-a',BASE,W])
        p=W+'/Verif/Model/'+m['file']
        s=open(p).read()
        if s[m['a']:m['b']]!=m['old']: continue
        open(p,'w').write(s[:m['a']]+m['new']+s[m['b']:])
        v=open(W+'/Verif.lean').read()
        open(W+'/Verif.lean','w').write(re.sub(r'^import Verif\.Tests\..*\n','',v,flags=re.M))
        t0=time.time()
        pr=subprocess.Popen(['lake','build'],cwd=W,stdout=subprocess.PIPE,stderr=subprocess.STDOUT,preexec_fn=os.setsid)
        res='survivor';where=''
        timer=threading.Timer(600,lambda:os.killpg(pr.pid,signal.SIGKILL)); timer.start()
        for line in pr.stdout:
            line=line.decode('utf8','replace')
            x=re.match(r'^error: (Verif/\S+?\.lean:\d+)',line)
            if x:
                where=x.group(1)
                res='invalid' if where.startswith('Verif/Model') else 'killed'
                break
            if line.startswith('error:'): where=line.strip(); res='error'
        timer.cancel()
        if time.time()-t0>599: res='timeout'
        try: os.killpg(pr.pid,signal.SIGKILL)
        except Exception: pass
        pr.wait()
        m=dict(m,result=res,where=where,time=round(time.time()-t0))
        open('/tmp/survey/results.jsonl','a').write(json.dumps(m)+'\n')
if sys.argv[1]=='gen': gen()
else: run(sys.argv[2],int(sys.argv[3]),int(sys.argv[4]))
