#!/usr/bin/env python3
"""Transcribes the tests of /repo that call the API to lean/Verif/Tests/RepoApi.lean."""
import re
go=lambda f:open('/repo/'+f,encoding='utf8').read()
def L(s):
    o=''
    for ch in s:
        if ch=='\n': o+='\\n'
        elif ch=='\t': o+='\\t'
        elif ch in '"\\': o+='\\'+ch
        else: o+=ch
    return '(b!"%s")'%o
def ops(body):
    """the calls on g in a piece of a test"""
    out=[]
    for m in re.finditer(r'\bg\.(SetName|SetDir|AddNode|AddEdge|AddPortEdge|AddSubGraph|RemoveNode|RemoveSubGraph)\((.*?)\); err',body,re.S):
        fn,args=m.groups()
        mp=re.search(r'map\[string\]string\{(.*)\}',args,re.S)
        kv=[]
        if mp:
            kv=re.findall(r'"([^"]*)":\s*"([^"]*)"',mp.group(1))
            args=args[:mp.start()]
        a=re.findall(r'"([^"]*)"|\b(true|false)\b',args)
        a=[x[1] if x[1] else (L(x[0]) if x[0] else '[]') for x in a]
        n=fn[0].lower()+fn[1:]
        t='.'+n+' '+' '.join(a)
        if fn.startswith('Add'): t+=' ['+', '.join('(%s, %s)'%(L(k)[1:-1],L(v)[1:-1]) for k,v in sorted(kv))+']'
        if fn=='RemoveSubGraph': t='REMSUB '+a[1]
        out.append(t)
    return out
def func(f,name):
    s=go(f)
    m=re.search(r'^func '+name+r'\(.*?\{\n(.*?)(?=^func |^type |\Z)',s,re.M|re.S)
    l1=s[:m.start()].count('\n')+1
    return m.group(1),l1,s[:m.end()].rstrip().count('\n')+1
o='''import Verif.Tests.Harness
/-!
The tests of /repo that call the API: escape_test.go, example_test.go, issue21_test.go, issue26_test.go, issue32_test.go, remove_test.go, edges_test.go and ast/ast_test.go.

Generated by tools/gen_tests_api.py.
-/
namespace Gographviz.Tests

open Gographviz

set_option maxRecDepth 10000000

'''
def wrap(l): return '\n  ['+',\n   '.join(l)+']'
b,l1,l2=func('escape_test.go','TestEscape')
exp=re.search(r'HasPrefix\(s, `([^`]*)`',b).group(1)
o+='/-- escape_test.go:%d-%d `TestEscape`: the calls. -/\ndef testEscape : Option (Graph × List (Option Err)) := escRun latin newGraph%s\n\n'%(l1,l2,wrap(ops(b)))
o+='example : (testEscape.map fun r => r.2.all Option.isNone) = some true := by decide +kernel\n\n'
o+='example : (testEscape.bind fun r => str r.1) = some %s := by decide +kernel\n\n'%L(exp+'\n')
o+='example : (testEscape.bind fun r => escIsNode latin r.1 (b!"a << b")) = some true := by decide +kernel\n\n'
b,l1,l2=func('escape_test.go','TestClusterSubgraphs')
exp=re.search(r'graphStr := `([^`]*)`',b).group(1)
o+='/-- escape_test.go:%d-%d `TestClusterSubgraphs`: the calls. -/\ndef testClusterSubgraphs : Option (Graph × List (Option Err)) := escRun latin newGraph%s\n\n'%(l1,l2,wrap(ops(b)))
o+='example : (testClusterSubgraphs.map fun r => r.2.all Option.isNone) = some true := by decide +kernel\n\n'
o+='example : (testClusterSubgraphs.bind fun r => str r.1) = some %s := by decide +kernel\n\n'%L(exp+'\n')
o+='/-- The text is parsed and printed again. -/\nexample : (match Parse.parseBytes rnd 0 %s with | .ok t _ => some (Ast.graphStr t) | _ => none) = some %s := by decide +kernel\n\n'%(L(exp+'\n'),L(exp+'\n'))
b,l1,l2=func('example_test.go','ExampleRead')
exp='\n'.join(x.strip('/').lstrip(' ') if not x.strip().startswith('//\t') else x.strip()[2:] for x in re.search(r'// Output: (.*)',b,re.S).group(1).rstrip()[:-1].rstrip().split('\n'))
exp=re.sub(r'^\t*//','',exp,flags=re.M)
print(repr(exp))
o+='/-- example_test.go:%d-%d `ExampleRead`. -/\nexample : ((readGraph (b!"digraph G {Hello->World}")).bind str) = some %s := by decide +kernel\n\n'%(l1,l2,L(exp+'\n'))
b,l1,l2=func('example_test.go','ExampleNewGraph')
o+='/-- example_test.go:%d-%d `ExampleNewGraph`. -/\nexample : str (newGraph.run%s) = some %s := by decide +kernel\n\n'%(l1,l2,wrap(ops(b)),L(exp+'\n'))
# own structure
b,l1,l2=func('example_test.go','ExampleMyOwnGraphStructure')
src=re.search(r'Parse\(\[\]byte\(`([^`]*)`',b).group(1)
exp=re.sub(r'^\t//','',re.search(r'// Output: (.*)',b,re.S).group(1).rstrip()[:-1].rstrip(),flags=re.M)
print(repr(exp[:60]))
o+='''/-- example_test.go:62-114 `MyOwnGraphStructure`: the calls of `AddPortEdge` with their labels (the conversions to numbers are done in the test below). -/
def ownIface : Iface (List (Str × Str × Str)) where
  setStrict s _ := (s, none)
  setDir s _ := (s, none)
  setName s _ := (s, none)
  addPortEdge s src _ dst _ _ attrs := (s ++ [(src, dst, mgetS attrs (b!"label"))], none)
  addNode s _ _ _ := (s, none)
  addAttr s _ _ _ := (s, none)
  addSubGraph s _ _ _ := (s, none)

/-- example_test.go:%d-%d `ExampleMyOwnGraphStructure`: what the user's structure gets. -/
example : (match Parse.parseBytes rnd 0 %s with
    | .ok t _ => analyse ownIface t []
    | _ => ([], none)) =
  ([(b!"1", b!"2", b!"5"), (b!"4", b!"2", b!"1"), (b!"4", b!"1", b!"2"), (b!"1", b!"1", b!"0")], none) := by decide +kernel

/-- The label of the edge from `i` to `j` in the matrix. -/
def weight (i j : Nat) : Str := if i = 1 ∧ j = 2 then b!"5" else if i = 4 ∧ j = 2 then b!"1" else if i = 4 ∧ j = 1 then b!"2" else b!"0"

/-- The matrix that the example writes. -/
example : str (newGraph.run ([.setName (b!"matrix"), .setDir true] ++ [1, 2, 3, 4].map (fun i => .addNode (b!"matrix") [48 + i] []) ++
    [1, 2, 3, 4].flatMap fun i => [1, 2, 3, 4].map fun j => .addEdge [48 + i] [48 + j] true [(b!"label", weight i j)])) =
  some %s := by decide +kernel

'''%(l1,l2,L(src),L(exp+'\n'))
# issue21
b,l1,l2=func('issue21_test.go','TestIssue21Subgraph')
src=re.search(r'inputString := `([^`]*)`',b).group(1)
o+='/-- issue21_test.go: the four relations that the test looks up. -/\ndef related (g : Graph) : Bool :=\n  mhas (g.relations.children (b!"G")) (b!"clusterone") && mhas (g.relations.children (b!"clusterone")) (b!"clustertwo") &&\n  mhas (g.relations.parents (b!"clusterone")) (b!"G") && mhas (g.relations.parents (b!"clustertwo")) (b!"clusterone")\n\n'
o+='/-- issue21_test.go:%d-%d `TestIssue21Subgraph`. -/\nexample : (readGraph %s).map related = some true := by decide +kernel\n\n'%(l1,l2,L(src))
o+='example : related (newGraph.run%s) = true := by decide +kernel\n\n'%wrap(ops(b))
# issues 26, 32
o+='/-- The value of an attribute of a node that was read. -/\ndef nodeAttr (g : Graph) (name attr : Str) : Option Str := (g.nodes.find name).map fun n => mgetS n.attrs attr\n\n'
o+='/-- The values of an attribute of the edges from `src` to `dst`. -/\ndef edgeAttr (g : Graph) (src dst attr : Str) : List Str := (g.edges.edges.filter fun e => e.src == src && e.dst == dst).map fun e => mgetS e.attrs attr\n\n'
for f,n in (('issue26_test.go','TestIssue26DefaultAttrs'),('issue32_test.go','TestIssue32DefaultAttrs')):
    b,l1,l2=func(f,n)
    src=re.search(r'inputString := `([^`]*)`',b).group(1)
    nodes=re.findall(r'^\t\t\{"(\w*)", "(\w*)", "(\w*)"\},',b,re.M)
    edges=re.findall(r'^\t\t\{"(\w*)", "(\w*)", "(\w*)", "(\w*)"\},',b,re.M)
    print(len(nodes),len(edges))
    S=lambda x:L(x)[1:-1] if x else '[]'
    o+='/-- %s:%d-%d `%s`. -/\nexample : ((readGraph %s).map fun g =>\n    [%s].all (fun c => nodeAttr g c.1 c.2.1 == some c.2.2)'%(f,l1,l2,n,L(src),', '.join('(%s, %s, %s)'%tuple(map(S,x)) for x in nodes))
    if edges:
        o+=' &&\n    [%s].all (fun c => edgeAttr g c.1 c.2.1 c.2.2.1 == [c.2.2.2]) &&\n    mhas (g.relations.children (b!"cluster_key")) (b!"user") && mhas (g.relations.children (b!"cluster_key")) (b!"dep")'%', '.join('(%s, %s, %s, %s)'%tuple(map(S,x)) for x in edges)
    o+=') = some true := by decide +kernel\n\n'
# remove
o+='''/-- A call of the remove tests; `RemoveSubGraph` ranges over a map, here in the order of the keys (unobservable, C10). -/
def removeSub (g : Graph) (name : Str) : Graph := g.run [.removeSubGraph (b!"G") name (mkeys (g.relations.children name))]

'''
for n in ('TestRemoveNode','TestRemoveSubGraph'):
    b,l1,l2=func('remove_test.go',n)
    parts=re.split(r'expected :?= `([^`]*)`',b)
    ref='newGraph';i=0
    for k in range(0,len(parts)-1,2):
        os_=ops(parts[k]);exp=parts[k+1]
        d=n[0].lower()+n[1:]+str(i)
        if os_[0].startswith('REMSUB'):
            assert len(os_)==1
            body='removeSub %s %s'%(ref,os_[0][7:])
        else: body='%s.run%s'%(ref,wrap(os_))
        o+='/-- remove_test.go:%d-%d `%s`, step %d. -/\ndef %s : Graph := %s\n\nexample : str %s = some %s := by decide +kernel\n\n'%(l1,l2,n,i+1,d,body,d,L(exp))
        ref=d;i+=1
# edges
s=go('edges_test.go')
cases=re.findall(r'^\t\t"([^"]*)": \{\n\t\t\tedges:\s*\[\]\*Edge\{(.*?)\n?\t*\},\n\t\t\texpected:\s*\[\]\*Edge\{(.*?)\n?\t*\},\n\t\t\},',s,re.M|re.S)
print(len(cases))
def edges(t):
    out=[]
    for line in t.split('\n'):
        line=line.strip()
        if not line: continue
        g=lambda k:(re.search(r'\b'+k+r': "([^"]*)"',line) or [None,''])[1]
        at=re.search(r'Attrs: Attrs\{(.*?)\}',line)
        kv=[]
        if at:
            for x in at.group(1).split(', '):
                k,v=x.split(': '); kv.append(('label' if k=='Label' else k.strip('"'),v.strip('"')))
        S=lambda x:L(x)[1:-1] if x else '[]'
        d='true' if 'Dir: true' in line else 'false'
        out.append('⟨%s, %s, %s, %s, %s, [%s]⟩'%(S(g('Src')),S(g('SrcPort')),S(g('Dst')),S(g('DstPort')),d,', '.join('(%s, %s)'%(S(k),S(v)) for k,v in sorted(kv))))
    return '['+',\n   '.join(out)+']'
o+='/-- The slices after adding edges to `NewEdges()`, and sorted. -/\ndef sortedEdges (es : List Edge) : List Edge × List Edge :=\n  let r := es.foldl Edges.add newEdges\n  (edgeInsertionSort r.edges, r.edges)\n\n'
for name,a,e in cases:
    o+='/-- edges_test.go:22 `TestEdges_Sorted`: %s. -/\nexample : sortedEdges\n  %s =\n  (%s,\n   %s) := by decide +kernel\n\n'%(name,edges(a),edges(e),edges(a))
# ast
o+='/-- ast/ast_test.go:7-46 `TestMakeNodeID`. -/\nexample : [Ast.makeNodeID [] [], Ast.makeNodeID (b!"id") (b!"p1"), Ast.makeNodeID (b!"_id") (b!"p1:p2"), Ast.makeNodeID (b!"1id") (b!"p1:p2:p3"), Ast.makeNodeID (b!"?id") (b!":p2:p3")] =\n  [⟨[], ⟨[], []⟩⟩, ⟨b!"id", ⟨b!"p1", []⟩⟩, ⟨b!"_id", ⟨b!"p1", b!"p2"⟩⟩, ⟨b!"1id", ⟨b!"p1", b!"p2"⟩⟩, ⟨b!"?id", ⟨[], b!"p2"⟩⟩] := by decide +kernel\n\n'
o+='end Gographviz.Tests\n'
open('/verif/lean/Verif/Tests/RepoApi.lean','w').write(o)
