#!/usr/bin/env python3
"""Writes lean/Verif/Proofs/LRCert.lean: for every state of the LR automaton what is known about the stack below it. This is only a
certificate: Lean checks it against the tables (Proofs/LR.lean)."""
import re, os
D = os.path.join(os.path.dirname(os.path.abspath(__file__)), '..', 'lean', 'Verif')
src = open(os.path.join(D, 'Model', 'ParseTables.lean')).read()
NTS = [None, 'DotGraph', 'StmtList', 'Stmt1', 'Stmt', 'AttrStmt', 'AttrList', 'AList', 'Attr', 'EdgeStmt', 'EdgeRHS', 'NodeStmt',
       'NodeId', 'Port', 'SubGraphStmt', 'EdgeOp', 'Id']
a = src.index('def actionTab'); g = src.index('def gotoTab'); p = src.index('def prodTab')
act = [re.findall(r'\((\d+), \.(shift|reduce|accept) ?(\d*)\)', l) for l in src[a:g].split('\n') if re.match(r'\s*/- \d+ -/', l)]
goto = [re.findall(r'none|some \d+', l) for l in src[g:p].split('\n') if re.match(r'\s*/- \d+ -/', l)]
assert len(act) == len(goto) == 128
edges = []
for s in range(128):
    for t, k, m in act[s]:
        if k == 'shift': edges.append((s, f'.t {t}', int(m)))
    for i, e in enumerate(goto[s]):
        if e != 'none': edges.append((s, f'.n .{NTS[i]}', int(e.split()[1])))
pre = [[] for _ in range(128)]
for s, x, d in edges: pre[d].append((s, x))
past = [None] * 128
past[0] = ([], [])
ch = True
while ch:
    ch = False
    for d in range(1, 128):
        new = None
        for s, x in pre[d]:
            if past[s] is None: continue
            c = ([x] + past[s][0], [{s}] + past[s][1])
            if new is None: new = c
            else:
                n = 0
                while n < min(len(new[0]), len(c[0])) and new[0][n] == c[0][n]: n += 1
                new = (new[0][:n], [new[1][i] | c[1][i] for i in range(n)])
        if new is not None:
            new = (new[0][:6], new[1][:6])
            if new != past[d]: past[d] = new; ch = True
with open(os.path.join(D, 'Proofs', 'LRCert.lean'), 'w') as f:
    f.write('import Verif.Spec.Grammar\n/- Generated by tools/gen_cert.py. A certificate, checked in Proofs/LR.lean. -/\nnamespace Gographviz.Parse\n\nopen Gographviz.Spec.Grammar\n\n')
    f.write('/-- For every state: symbols known to be on top of the stack, top first. -/\ndef pastSyms : List (List Sym) := [\n')
    f.write(',\n'.join(f'  /- {i} -/ [' + ', '.join(x[0]) + ']' for i, x in enumerate(past)) + ']\n\n')
    f.write('/-- For every state: the states possible at the positions below it. -/\ndef pastStates : List (List (List Nat)) := [\n')
    f.write(',\n'.join(f'  /- {i} -/ [' + ', '.join(str(sorted(y)) for y in x[1]) + ']' for i, x in enumerate(past)) + ']\n\nend Gographviz.Parse\n')
