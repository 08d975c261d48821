#!/usr/bin/env python3
"""Writes lean/Verif/Proofs/LRItems.lean: the item set of every state of the LR automaton. Only a certificate: Lean checks it against the
grammar and the tables (Proofs/LRViable.lean)."""
import re, os
D = os.path.join(os.path.dirname(os.path.abspath(__file__)), '..', 'lean', 'Verif')
src = open(os.path.join(D, 'Model', 'ParseTables.lean')).read()
NTS = [None, 'DotGraph', 'StmtList', 'Stmt1', 'Stmt', 'AttrStmt', 'AttrList', 'AList', 'Attr', 'EdgeStmt', 'EdgeRHS', 'NodeStmt',
       'NodeId', 'Port', 'SubGraphStmt', 'EdgeOp', 'Id']
a = src.index('def actionTab'); g = src.index('def gotoTab'); p = src.index('def prodTab')
act = [re.findall(r'\((\d+), \.(shift|reduce|accept) ?(\d*)\)', l) for l in src[a:g].split('\n') if re.match(r'\s*/- \d+ -/', l)]
goto = [re.findall(r'none|some \d+', l) for l in src[g:p].split('\n') if re.match(r'\s*/- \d+ -/', l)]
gr = open(os.path.join(D, 'Spec', 'Grammar.lean')).read()
T = {m.group(1): int(m.group(2)) for m in re.finditer(r'^abbrev (\w+) := Sym.t (\d+)', gr, re.M)}
rules = []
for m in re.finditer(r'^  \((\w+), \[(.*?)\]\)', gr, re.M):
    rules.append((m.group(1), [x[3:] if x.startswith('.n ') else T[x] for x in m.group(2).split(', ')]))
assert len(rules) == 59
first = {n: set() for n in NTS if n}
ch = True
while ch:
    ch = False
    for n, r in rules:
        f = {r[0]} if isinstance(r[0], int) else first[r[0]]
        if not f <= first[n]: first[n] |= f; ch = True
def fst(x): return {x} if isinstance(x, int) else first[x]
def closure(kern, start=False):
    """kern: {(r, d): set}; result: list of [r, d, L, just]"""
    E = [[r, d, set(L), 0] for (r, d), L in sorted(kern.items())]
    done = {}
    def add(B, las, j):
        for q, (n, _) in enumerate(rules):
            if n == B:
                new = las - done.setdefault(q, set())
                if new: done[q] |= new; E.append([q, 0, new, j])
    if start: add('DotGraph', {1}, 0)
    i = 0
    while i < len(E):
        r, d, L, _ = E[i]
        rhs = rules[r][1]
        if d < len(rhs) and isinstance(rhs[d], str):
            add(rhs[d], fst(rhs[d + 1]) if d + 1 < len(rhs) else L, i)
        i += 1
    return E
num = {0: closure({}, True), 1: []}; todo = [0]
while todo:
    s = todo.pop(0)
    tr = {}
    for r, d, L, _ in num[s]:
        rhs = rules[r][1]
        if d < len(rhs): tr.setdefault(rhs[d], {}).setdefault((r, d + 1), set()).update(L)
    A = {int(t): (k, m) for t, k, m in act[s]}
    for x, K in tr.items():
        d = int(A[x][1]) if isinstance(x, int) else int(goto[s][NTS.index(x)].split()[1])
        if d not in num: num[d] = closure(K); todo.append(d)
with open(os.path.join(D, 'Proofs', 'LRItems.lean'), 'w') as f:
    f.write('/- Generated by tools/gen_items.py. A certificate, checked in Proofs/LRViable.lean. -/\nnamespace Gographviz.Parse\n\n')
    f.write('/-- For every state: (rule, position of the dot, lookaheads, index of the entry that justifies it if the position is 0). -/\n')
    f.write('def itemTab : List (List (Nat × Nat × List Nat × Nat)) := [\n')
    f.write(',\n'.join('  /- %d -/ [' % s + ', '.join('(%d, %d, %s, %d)' % (r, d, sorted(L), j) for r, d, L, j in num[s]) + ']' for s in range(128)))
    f.write(']\n\nend Gographviz.Parse\n')
print(sum(len(v) for v in num.values()), max(len(v) for v in num.values()))
