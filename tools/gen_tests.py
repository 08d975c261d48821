#!/usr/bin/env python3
"""Transcribes the tests of /repo that consist of an input text (analysewrite_test.go, internal/parser/parser_test.go, the small files of testdata) to
lean/Verif/Tests/RepoAnal.lean and RepoParse.lean."""
import re,os
root=os.path.dirname(os.path.dirname(os.path.abspath(__file__)))
LIMIT=410
def lit(b):
    o=''
    for c in b:
        ch=chr(c)
        if ch=='\n': o+='\\n'
        elif ch=='\t': o+='\\t'
        elif ch=='\r': o+='\\r'
        elif ch in '"\\': o+='\\'+ch
        elif 32<=c<127: o+=ch
        else: return None
    return '(b!"%s")'%o
def term(b):
    t=lit(b)
    return t if t else '['+', '.join(map(str,b))+']'
def tests(path,fn,fnfile):
    s=open(path,encoding='utf8').read()
    L=s.split('\n')
    out=[]
    for m in re.finditer(r'^func (Test\w+)\(t \*testing\.T\) \{\n(.*?)^\}',s,re.M|re.S):
        line=s[:m.start()].count('\n')+1
        name,body=m.groups()
        x=re.search(fn+r'\(t,\s*(`([^`]*)`|"([^"]*)")\)',body)
        y=re.search(r'(?:%s)\(t, "(?:\./testdata/)?([^"]*)"\)'%fnfile,body)
        if x:
            t=x.group(2) if x.group(2) is not None else x.group(3)
            if len(t)<=LIMIT: out.append((name,line,t.encode('utf8')))
        elif re.search(r'input := `([^`]*)`',body):
            out.append((name,line,re.search(r'input := `([^`]*)`',body).group(1).encode('utf8')))
        elif y:
            b=open('/repo/testdata/'+y.group(1),'rb').read()
            if len(b)<=LIMIT: out.append((name+' ('+y.group(1)+')',line,b))
    return out
def write(mod,doc,src,ts,form):
    o='import Verif.Tests.Harness\n/-!\n'+doc+'\n\nGenerated by tools/gen_tests.py.\n-/\nnamespace Gographviz.Tests\n\nset_option maxRecDepth 10000000\n'
    for name,line,b in ts:
        o+='\n/-- %s:%d `%s`. -/\nexample : %s := by decide +kernel\n'%(src,line,name,form%term(b))
    o+='\nend Gographviz.Tests\n'
    open(root+'/lean/Verif/Tests/'+mod+'.lean','w').write(o)
    print(mod,len(ts))
write('RepoAnal','The tests of analysewrite_test.go with inputs of at most %d bytes: parse, analyse, write, parse again, analyse with `Escape`, write, compare.'%LIMIT,
  'analysewrite_test.go',tests('/repo/analysewrite_test.go','anal','analfile|analtest'),'(anal %s).isSome = true')
write('RepoParse','The tests of internal/parser/parser_test.go with inputs of at most %d bytes: parse, print, parse again, print, compare.'%LIMIT,
  'internal/parser/parser_test.go',tests('/repo/internal/parser/parser_test.go','parseStringTest','parseTest'),'parseStringTest %s = true')
