#!/usr/bin/env python3
"""Generates the table modules of the Lean model from the text of /repo (read only).

  lean/Verif/Model/AttrTable.lean   <- attr.go (validAttrs)
  lean/Verif/Model/LexTables.lean   <- internal/lexer/{transitiontable,acttab}.go
  lean/Verif/Model/ParseTables.lean <- internal/parser/{actiontable,gototable,productionstable}.go
                                       (the first two are gzip+gob blobs, decoded here and, in Props/Tables.lean, by the model)
  lean/Verif/Model/TokTables.lean   <- internal/token/token.go
  lean/Verif/Model/TableData.lean   <- internal/parser/{actiontable,gototable}.go (the blobs themselves)
"""
import re, gzip, os, sys
REPO = '/repo'
OUT = os.path.join(os.path.dirname(os.path.abspath(__file__)), '..', 'lean', 'Verif', 'Model')
def rd(p): return open(os.path.join(REPO, p)).read()
def lit(s): return '[' + ', '.join(str(b) for b in s.encode()) + ']'

# ---------------------------------------------------------------- gob
class R:
    def __init__(s, b): s.b = b; s.i = 0
    def u(s):
        c = s.b[s.i]; s.i += 1
        if c < 128: return c
        n = 256 - c
        v = int.from_bytes(s.b[s.i:s.i+n], 'big'); s.i += n
        return v
    def int(s):
        u = s.u()
        return ~(u >> 1) if u & 1 else u >> 1
def payload(go):
    m = re.search(r'data := \[\]byte\{(.*?)\n\t\}', rd(go), re.S)
    r = R(gzip.decompress(bytes(int(x, 16) for x in re.findall(r'0x[0-9a-f]{2}', m.group(1)))))
    while r.i < len(r.b):
        n = r.u(); end = r.i + n
        if r.int() > 0:               # value message (type definitions have negative ids)
            assert r.b[r.i] == 0; r.i += 1
            return r, end
        r.i = end
def actions():
    r, end = payload('internal/parser/actiontable.go'); rows = []
    for _ in range(r.u()):
        can = False; acts = []; f = -1
        while True:
            d = r.u()
            if d == 0: break
            f += d
            if f == 0: can = bool(r.u())
            else:
                for _ in range(r.u()):
                    v = [0, 0, 0]; g = -1
                    while True:
                        d2 = r.u()
                        if d2 == 0: break
                        g += d2; v[g] = r.int()
                    acts.append(tuple(v))
        rows.append((can, acts))
    assert r.i == end
    return rows
def gotos():
    r, end = payload('internal/parser/gototable.go')
    rows = [[r.int() for _ in range(r.u())] for _ in range(r.u())]
    assert r.i == end
    return rows

HEAD = '/- Generated by tools/gen_tables.py from the text of /repo. Do not edit. -/\n'

# ---------------------------------------------------------------- attr.go
src = rd('attr.go')
consts = dict(re.findall(r'^\t(\w+)\s+Attr\s*=\s*"([^"]*)"', src, re.M))
entries = re.findall(r'^\tstring\((\w+)\):\s*(\w+),', src, re.M)
assert all(a == b for a, b in entries)
lines = {}
for i, l in enumerate(src.split('\n'), 1):
    m = re.match(r'\tstring\((\w+)\):', l)
    if m: lines[m.group(1)] = i
first, last = min(lines.values()), max(lines.values())
with open(os.path.join(OUT, 'AttrTable.lean'), 'w') as f:
    f.write(HEAD + 'import Verif.Model.Base\nnamespace Gographviz\n\n')
    f.write(f'/-- attr.go:{first}-{last} `validAttrs`: every entry has the form `string(X): X`, so the map sends a\n'
            'registered name to itself and is modelled by the list of registered names (in source order). -/\n')
    f.write('def validAttrs : List Str := [\n')
    f.write(',\n'.join(f'  {lit(consts[a])} /- {consts[a]} -/' for a, _ in entries))
    f.write(']\n\nend Gographviz\n')

# ---------------------------------------------------------------- lexer
src = rd('internal/lexer/transitiontable.go')
parts = re.split(r'\n\t// S(\d+)\n', src)[1:]
rows = []
srcl = src.split('\n')
for k in range(0, len(parts), 2):
    n, body = int(parts[k]), parts[k+1]
    assert n == len(rows)
    cases = []; default = None
    toks = re.findall(r'case (.*?): //.*?\n\t\t\treturn (\w+)|default:\n\t\t\treturn (\d+)', body)
    for cond, tgt, dflt in toks:
        if dflt: default = int(dflt); continue
        m = re.fullmatch(r'r == (\d+)', cond)
        if m: lo = hi = int(m.group(1))
        else:
            m = re.fullmatch(r'(\d+) <= r && r <= (\d+)', cond)
            lo, hi = int(m.group(1)), int(m.group(2))
        cases.append((lo, hi, int(tgt)))
    assert len(cases) == body.count('case ') and body.count('default:') == (default is not None)
    assert (default is not None) or 'return NoState' in body
    rows.append((cases, default))
act = re.findall(r'ActionRow\{ // S(\d+)\n\s+Accept: (-?\d+),\n\s+Ignore: "(.*?)",', rd('internal/lexer/acttab.go'))
assert len(act) == len(rows) == 141
with open(os.path.join(OUT, 'LexTables.lean'), 'w') as f:
    f.write(HEAD + 'namespace Gographviz.Lex\n\n')
    f.write('/-- internal/lexer/transitiontable.go:12-2731 `TransTab`. Row `s` is the list of the cases `(lo, hi, target)`\n'
            'of the switch of state `s`, in order, and the target of its `default` case if it has one\n'
            '(no match and no default means `NoState`). -/\n')
    f.write('def transTab : List (List (Nat × Nat × Nat) × Option Nat) := [\n')
    f.write(',\n'.join(f'  /- S{i} -/ ([' + ', '.join(f'({a}, {b}, {t})' for a, b, t in c) + '], ' + ('none' if d is None else f'some {d}') + ')'
                       for i, (c, d) in enumerate(rows)))
    f.write(']\n\n')
    f.write('/-- internal/lexer/acttab.go:22-587 `ActTab`. `some t` is a row with `Accept: t` and `Ignore: ""`, `none` a row with\n'
            '`Accept: -1` and a non-empty `Ignore` (the generated table has no other rows). -/\n')
    f.write('def actTab : List (Option Nat) := [\n  ')
    out = []
    for i, (n, a, ig) in enumerate(act):
        assert int(n) == i and ((int(a) == -1) == (ig != ''))
        out.append('none' if ig else f'some {a}')
    f.write(', '.join(out) + ']\n\nend Gographviz.Lex\n')

# ---------------------------------------------------------------- parser
A = actions(); G = gotos()
ents = re.findall(r'String:\s+`(.*?)`,\s+Id:\s+"(.*?)",\s+NTType:\s+(\d+),\s+Index:\s+(\d+),\s+NumSymbols:\s+(\d+)',
                  rd('internal/parser/productionstable.go'), re.S)
tokmap = re.search(r'typeMap: \[\]string\{(.*?)\}', rd('internal/token/token.go'), re.S)
assert len(A) == len(G) == 128 and len(ents) == 60 and not any(c for c, _ in A)
toks = re.findall(r'^\t\t"(.*)",$', re.search(r'typeMap: \[\]string\{\n(.*?)\n\t\},\n', rd('internal/token/token.go'), re.S).group(1), re.M)
tid = {t: i for i, t in enumerate(toks)}
NT = {}
for s, i, n, idx, ns in ents: NT[i] = int(n)
def sym(x):
    if x in NT: return f'.nt {NT[x]}'
    return f'.t {tid[x.strip(chr(34))]}'
with open(os.path.join(OUT, 'ParseTables.lean'), 'w') as f:
    f.write(HEAD + 'namespace Gographviz.Parse\n\n')
    f.write('/-- internal/parser/action.go:14-18: parser actions. -/\ninductive Action where\n  | accept\n  | shift (state : Nat)\n  | reduce (prod : Nat)\n  deriving DecidableEq, Repr\n\n')
    f.write('/-- internal/parser/actiontable.go:20-152 `actionTab`, decoded from the gzip+gob blob: for each state the list of\n'
            '(token type, action); absent token types have a nil action. `canRecover` is false in every row. -/\n')
    f.write('def actionTab : List (List (Nat × Action)) := [\n')
    def act1(i, k, m): return f'({i}, ' + ['.accept', f'.reduce {m}', f'.shift {m}'][k] + ')'
    f.write(',\n'.join(f'  /- {i} -/ [' + ', '.join(act1(*a) for a in r[1]) + ']' for i, r in enumerate(A)))
    f.write(']\n\n')
    f.write('/-- internal/parser/gototable.go:18-56 `gotoTab`, decoded from the gzip+gob blob; `none` is the entry -1. -/\n')
    f.write('def gotoTab : List (List (Option Nat)) := [\n')
    f.write(',\n'.join(f'  /- {i} -/ [' + ', '.join('none' if x < 0 else f'some {x}' for x in r) + ']' for i, r in enumerate(G)))
    f.write(']\n\n')
    f.write('/-- internal/parser/productionstable.go:20-622: `NTType` and `NumSymbols` of every production, in order. -/\n')
    f.write('def prodTab : List (Nat × Nat) := [\n')
    f.write(',\n'.join(f'  /- {idx}: {s.split("<<")[0].strip()} -/ ({n}, {ns})' for s, i, n, idx, ns in ents))
    f.write(']\n\n')
    f.write('/-- The calls made by the `ReduceFunc`s. An argument `some i` is `X[i]`, `none` is `nil`. -/\n'
            'inductive Act where\n'
            '  | x (i : Nat)\n'
            '  | newGraph (type_ strict : Bool) (id l : Option Nat)\n'
            '  | op (directed : Bool)\n'
            '  | newStmtList (s : Option Nat)\n  | appendStmtList (ss s : Option Nat)\n'
            '  | newAttr (f v : Option Nat)\n'
            '  | newGraphAttrs (a : Option Nat)\n  | newNodeAttrs (a : Option Nat)\n  | newEdgeAttrs (a : Option Nat)\n'
            '  | newAttrList (a : Option Nat)\n  | appendAttrList (as a : Option Nat)\n'
            '  | newAList (a : Option Nat)\n  | appendAList (as a : Option Nat)\n'
            '  | newEdgeStmt (id e attrs : Option Nat)\n'
            '  | newEdgeRHS (op id : Option Nat)\n  | appendEdgeRHS (e op id : Option Nat)\n'
            '  | newNodeStmt (id attrs : Option Nat)\n  | newNodeID (id port : Option Nat)\n'
            '  | newPort (id1 id2 : Option Nat)\n  | newSubGraph (id l : Option Nat)\n  | newID (id : Option Nat)\n'
            '  deriving DecidableEq, Repr\n\n')
    f.write('/-- internal/parser/productionstable.go:20-622: the bodies of the `ReduceFunc`s, in order. -/\n')
    f.write('def prodActs : List Act := [\n')
    src = rd('internal/parser/productionstable.go')
    bodies = re.findall(r'ReduceFunc: func\(X \[\]Attrib, C interface\{\}\) \(Attrib, error\) \{\n\t\t\treturn (.*)\n', src)
    assert len(bodies) == 60
    def arg(a):
        if a == 'nil': return 'none'
        m = re.fullmatch(r'X\[(\d+)\]', a)
        if m: return f'(some {m.group(1)})'
        return {'ast.GRAPH': 'false', 'ast.DIGRAPH': 'true', 'ast.FALSE': 'false', 'ast.TRUE': 'true'}[a]
    def body(b):
        m = re.fullmatch(r'X\[(\d+)\], nil', b)
        if m: return f'.x {m.group(1)}'
        if b == 'ast.DIRECTED, nil': return '.op true'
        if b == 'ast.UNDIRECTED, nil': return '.op false'
        m = re.fullmatch(r'ast\.(\w+)\((.*)\)(, nil)?', b)
        n = m.group(1)
        assert (m.group(3) is not None) == (n == 'NewPort')
        return '.' + n[0].lower() + n[1:] + ' ' + ' '.join(arg(a) for a in m.group(2).split(', '))
    lines_ = [i for i, l in enumerate(src.split('\n'), 1) if 'ReduceFunc: func' in l]
    f.write(',\n'.join(f'  /- {i}: line {lines_[i]+1} -/ {body(b)}' for i, b in enumerate(bodies)))
    f.write(']\n\nend Gographviz.Parse\n')
with open(os.path.join(OUT, 'TokTables.lean'), 'w') as f:
    f.write(HEAD + 'namespace Gographviz.Parse\n\n')
    f.write('/-- internal/parser/actiontable.go:20-152 `actionTab[s].canRecover`, decoded from the gzip+gob blob. -/\n')
    f.write('def canRecoverTab : List Bool := [\n  ' + ', '.join('true' if c else 'false' for c, _ in A) + ']\n\n')
    idm = re.findall(r'^\t\t"(.*)":\s+(\d+),$', rd('internal/token/token.go'), re.M)
    f.write('/-- internal/token/token.go:138-158 `TokMap.typeMap`. -/\n')
    f.write('def typeMap : List (List Nat) := [\n' + ',\n'.join(f'  {lit(t)} /- {t} -/' for t in toks) + ']\n\n')
    f.write('/-- internal/token/token.go:160-180 `TokMap.idMap`. -/\n')
    f.write('def idMap : List (List Nat × Nat) := [\n' + ',\n'.join(f'  ({lit(t)}, {n}) /- {t} -/' for t, n in idm) + ']\n\n')
    f.write('end Gographviz.Parse\n')
# ---------------------------------------------------------------- the bytes of the parser tables
def blob(p):
    s = rd(p); m = re.search(r'data := \[\]byte\{(.*?)\n\t\}', s, re.S)
    a = s[:m.start()].count('\n') + 1; b = s[:m.end()].count('\n') + 1
    return a, b, [int(x, 16) for x in re.findall(r'0x[0-9a-f]{2}', m.group(1))]
with open(os.path.join(OUT, 'TableData.lean'), 'w') as f:
    f.write(HEAD + 'namespace Gographviz.Parse\n\n')
    for n, p in (('actionData', 'actiontable.go'), ('gotoData', 'gototable.go')):
        a, b, d = blob('internal/parser/' + p)
        f.write(f'/-- internal/parser/{p}:{a}-{b} `data`. -/\ndef {n} : List Nat := [\n')
        f.write(',\n'.join('  ' + ', '.join('%d' % x for x in d[i:i+32]) for i in range(0, len(d), 32)) + ']\n\n')
    f.write('end Gographviz.Parse\n')
print('ok', len(entries), 'attrs')
