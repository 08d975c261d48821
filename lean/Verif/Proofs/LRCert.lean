import Verif.Spec.Grammar
/- Generated by tools/gen_cert.py. A certificate, checked in Proofs/LR.lean. -/
namespace Gographviz.Parse

open Gographviz.Spec.Grammar

/-- For every state: symbols known to be on top of the stack, top first. -/
def pastSyms : List (List Sym) := [
  /- 0 -/ [],
  /- 1 -/ [.n .DotGraph],
  /- 2 -/ [.t 2],
  /- 3 -/ [.t 5],
  /- 4 -/ [.t 6],
  /- 5 -/ [.t 3, .t 2],
  /- 6 -/ [.n .Id, .t 2],
  /- 7 -/ [.t 18],
  /- 8 -/ [.t 2, .t 5],
  /- 9 -/ [.t 6, .t 5],
  /- 10 -/ [.t 3, .t 6],
  /- 11 -/ [.n .Id, .t 6],
  /- 12 -/ [.t 2],
  /- 13 -/ [.t 3],
  /- 14 -/ [.t 4, .t 3, .t 2],
  /- 15 -/ [.n .Id],
  /- 16 -/ [.n .StmtList, .t 3, .t 2],
  /- 17 -/ [.n .Stmt1, .t 3],
  /- 18 -/ [.n .Stmt],
  /- 19 -/ [.n .NodeStmt],
  /- 20 -/ [.n .EdgeStmt],
  /- 21 -/ [.n .AttrStmt],
  /- 22 -/ [.n .SubGraphStmt],
  /- 23 -/ [.t 9],
  /- 24 -/ [.t 10],
  /- 25 -/ [.n .NodeId],
  /- 26 -/ [.t 15],
  /- 27 -/ [.t 18],
  /- 28 -/ [.t 3, .n .Id, .t 2],
  /- 29 -/ [.t 3, .t 2, .t 5],
  /- 30 -/ [.n .Id, .t 2, .t 5],
  /- 31 -/ [.t 3, .t 6, .t 5],
  /- 32 -/ [.n .Id, .t 6, .t 5],
  /- 33 -/ [.t 4, .t 3, .t 6],
  /- 34 -/ [.n .StmtList, .t 3, .t 6],
  /- 35 -/ [.t 3, .n .Id, .t 6],
  /- 36 -/ [.n .AttrList, .t 2],
  /- 37 -/ [.t 11],
  /- 38 -/ [.n .StmtList, .t 3],
  /- 39 -/ [.t 8, .n .Id],
  /- 40 -/ [.n .Port, .n .Id],
  /- 41 -/ [.t 14, .n .Id],
  /- 42 -/ [.t 4, .n .StmtList, .t 3, .t 2],
  /- 43 -/ [.n .Stmt1, .n .StmtList, .t 3],
  /- 44 -/ [.t 7, .n .Stmt],
  /- 45 -/ [.n .EdgeRHS, .n .SubGraphStmt],
  /- 46 -/ [.n .EdgeOp],
  /- 47 -/ [.t 16],
  /- 48 -/ [.t 17],
  /- 49 -/ [.n .AttrList, .t 9],
  /- 50 -/ [.n .AttrList, .t 10],
  /- 51 -/ [.n .AttrList, .n .NodeId],
  /- 52 -/ [.n .EdgeRHS, .n .NodeId],
  /- 53 -/ [.t 3, .t 15],
  /- 54 -/ [.n .Id, .t 15],
  /- 55 -/ [.t 4, .t 3, .n .Id, .t 2],
  /- 56 -/ [.n .StmtList, .t 3, .n .Id, .t 2],
  /- 57 -/ [.t 4, .t 3, .t 2, .t 5],
  /- 58 -/ [.n .StmtList, .t 3, .t 2, .t 5],
  /- 59 -/ [.t 3, .n .Id, .t 2, .t 5],
  /- 60 -/ [.t 4, .t 3, .t 6, .t 5],
  /- 61 -/ [.n .StmtList, .t 3, .t 6, .t 5],
  /- 62 -/ [.t 3, .n .Id, .t 6, .t 5],
  /- 63 -/ [.t 4, .n .StmtList, .t 3, .t 6],
  /- 64 -/ [.t 4, .t 3, .n .Id, .t 6],
  /- 65 -/ [.n .StmtList, .t 3, .n .Id, .t 6],
  /- 66 -/ [.t 11, .n .AttrList],
  /- 67 -/ [.n .Id],
  /- 68 -/ [.t 12, .t 11],
  /- 69 -/ [.n .AList, .t 11],
  /- 70 -/ [.n .Attr, .t 11],
  /- 71 -/ [.t 18],
  /- 72 -/ [.t 4, .n .StmtList, .t 3],
  /- 73 -/ [.n .Id, .t 8, .n .Id],
  /- 74 -/ [.t 18, .t 8, .n .Id],
  /- 75 -/ [.n .Id, .t 14, .n .Id],
  /- 76 -/ [.t 18],
  /- 77 -/ [.n .AttrList, .n .EdgeRHS, .n .SubGraphStmt],
  /- 78 -/ [.n .EdgeOp, .n .EdgeRHS],
  /- 79 -/ [.t 3, .n .EdgeOp],
  /- 80 -/ [.n .Id, .n .EdgeOp],
  /- 81 -/ [.n .SubGraphStmt, .n .EdgeOp],
  /- 82 -/ [.n .NodeId, .n .EdgeOp],
  /- 83 -/ [.t 15, .n .EdgeOp],
  /- 84 -/ [.n .AttrList, .n .EdgeRHS, .n .NodeId],
  /- 85 -/ [.t 4, .t 3, .t 15],
  /- 86 -/ [.n .StmtList, .t 3, .t 15],
  /- 87 -/ [.t 3, .n .Id, .t 15],
  /- 88 -/ [.t 4, .n .StmtList, .t 3, .n .Id, .t 2],
  /- 89 -/ [.t 4, .n .StmtList, .t 3, .t 2, .t 5],
  /- 90 -/ [.t 4, .t 3, .n .Id, .t 2, .t 5],
  /- 91 -/ [.n .StmtList, .t 3, .n .Id, .t 2, .t 5],
  /- 92 -/ [.t 4, .n .StmtList, .t 3, .t 6, .t 5],
  /- 93 -/ [.t 4, .t 3, .n .Id, .t 6, .t 5],
  /- 94 -/ [.n .StmtList, .t 3, .n .Id, .t 6, .t 5],
  /- 95 -/ [.t 4, .n .StmtList, .t 3, .n .Id, .t 6],
  /- 96 -/ [.t 12, .t 11, .n .AttrList],
  /- 97 -/ [.n .AList, .t 11, .n .AttrList],
  /- 98 -/ [.t 8, .n .Id],
  /- 99 -/ [.t 12, .n .AList, .t 11],
  /- 100 -/ [.n .Attr, .n .AList, .t 11],
  /- 101 -/ [.t 13, .n .AList, .t 11],
  /- 102 -/ [.t 14, .n .Id, .t 14, .n .Id],
  /- 103 -/ [.n .SubGraphStmt, .n .EdgeOp, .n .EdgeRHS],
  /- 104 -/ [.n .NodeId, .n .EdgeOp, .n .EdgeRHS],
  /- 105 -/ [.n .StmtList, .t 3, .n .EdgeOp],
  /- 106 -/ [.t 3, .t 15, .n .EdgeOp],
  /- 107 -/ [.n .Id, .t 15, .n .EdgeOp],
  /- 108 -/ [.t 4, .n .StmtList, .t 3, .t 15],
  /- 109 -/ [.t 4, .t 3, .n .Id, .t 15],
  /- 110 -/ [.n .StmtList, .t 3, .n .Id, .t 15],
  /- 111 -/ [.t 4, .n .StmtList, .t 3, .n .Id, .t 2, .t 5],
  /- 112 -/ [.t 4, .n .StmtList, .t 3, .n .Id, .t 6, .t 5],
  /- 113 -/ [.t 12, .n .AList, .t 11, .n .AttrList],
  /- 114 -/ [.n .Id, .t 8, .n .Id],
  /- 115 -/ [.t 18, .t 8, .n .Id],
  /- 116 -/ [.n .Attr, .t 13, .n .AList, .t 11],
  /- 117 -/ [.n .Id, .t 14, .n .Id, .t 14, .n .Id],
  /- 118 -/ [.t 18, .t 14, .n .Id, .t 14, .n .Id],
  /- 119 -/ [.t 4, .n .StmtList, .t 3, .n .EdgeOp],
  /- 120 -/ [.t 4, .t 3, .t 15, .n .EdgeOp],
  /- 121 -/ [.n .StmtList, .t 3, .t 15, .n .EdgeOp],
  /- 122 -/ [.t 3, .n .Id, .t 15, .n .EdgeOp],
  /- 123 -/ [.t 4, .n .StmtList, .t 3, .n .Id, .t 15],
  /- 124 -/ [.t 4, .n .StmtList, .t 3, .t 15, .n .EdgeOp],
  /- 125 -/ [.t 4, .t 3, .n .Id, .t 15, .n .EdgeOp],
  /- 126 -/ [.n .StmtList, .t 3, .n .Id, .t 15, .n .EdgeOp],
  /- 127 -/ [.t 4, .n .StmtList, .t 3, .n .Id, .t 15, .n .EdgeOp]]

/-- For every state: the states possible at the positions below it. -/
def pastStates : List (List (List Nat)) := [
  /- 0 -/ [],
  /- 1 -/ [[0]],
  /- 2 -/ [[0]],
  /- 3 -/ [[0]],
  /- 4 -/ [[0]],
  /- 5 -/ [[2], [0]],
  /- 6 -/ [[2], [0]],
  /- 7 -/ [[2, 4, 8, 9, 26, 83]],
  /- 8 -/ [[3], [0]],
  /- 9 -/ [[3], [0]],
  /- 10 -/ [[4], [0]],
  /- 11 -/ [[4], [0]],
  /- 12 -/ [[5, 10, 13, 16, 28, 29, 31, 34, 35, 38, 53, 56, 58, 59, 61, 62, 65, 79, 86, 87, 91, 94, 105, 106, 110, 121, 122, 126]],
  /- 13 -/ [[5, 10, 13, 16, 28, 29, 31, 34, 35, 38, 53, 56, 58, 59, 61, 62, 65, 79, 86, 87, 91, 94, 105, 106, 110, 121, 122, 126]],
  /- 14 -/ [[5], [2], [0]],
  /- 15 -/ [[5, 10, 13, 16, 28, 29, 31, 34, 35, 38, 53, 56, 58, 59, 61, 62, 65, 79, 86, 87, 91, 94, 105, 106, 110, 121, 122, 126]],
  /- 16 -/ [[5], [2], [0]],
  /- 17 -/ [[5, 10, 13, 28, 29, 31, 35, 53, 59, 62, 79, 87, 106, 122], [2, 4, 5, 6, 8, 9, 10, 11, 13, 16, 26, 28, 29, 30, 31, 32, 34, 35, 38, 46, 53, 54, 56, 58, 59, 61, 62, 65, 78, 79, 83, 86, 87, 91, 94, 105, 106, 107, 110, 121, 122, 126]],
  /- 18 -/ [[5, 10, 13, 16, 28, 29, 31, 34, 35, 38, 53, 56, 58, 59, 61, 62, 65, 79, 86, 87, 91, 94, 105, 106, 110, 121, 122, 126]],
  /- 19 -/ [[5, 10, 13, 16, 28, 29, 31, 34, 35, 38, 53, 56, 58, 59, 61, 62, 65, 79, 86, 87, 91, 94, 105, 106, 110, 121, 122, 126]],
  /- 20 -/ [[5, 10, 13, 16, 28, 29, 31, 34, 35, 38, 53, 56, 58, 59, 61, 62, 65, 79, 86, 87, 91, 94, 105, 106, 110, 121, 122, 126]],
  /- 21 -/ [[5, 10, 13, 16, 28, 29, 31, 34, 35, 38, 53, 56, 58, 59, 61, 62, 65, 79, 86, 87, 91, 94, 105, 106, 110, 121, 122, 126]],
  /- 22 -/ [[5, 10, 13, 16, 28, 29, 31, 34, 35, 38, 53, 56, 58, 59, 61, 62, 65, 79, 86, 87, 91, 94, 105, 106, 110, 121, 122, 126]],
  /- 23 -/ [[5, 10, 13, 16, 28, 29, 31, 34, 35, 38, 53, 56, 58, 59, 61, 62, 65, 79, 86, 87, 91, 94, 105, 106, 110, 121, 122, 126]],
  /- 24 -/ [[5, 10, 13, 16, 28, 29, 31, 34, 35, 38, 53, 56, 58, 59, 61, 62, 65, 79, 86, 87, 91, 94, 105, 106, 110, 121, 122, 126]],
  /- 25 -/ [[5, 10, 13, 16, 28, 29, 31, 34, 35, 38, 53, 56, 58, 59, 61, 62, 65, 79, 86, 87, 91, 94, 105, 106, 110, 121, 122, 126]],
  /- 26 -/ [[5, 10, 13, 16, 28, 29, 31, 34, 35, 38, 53, 56, 58, 59, 61, 62, 65, 79, 86, 87, 91, 94, 105, 106, 110, 121, 122, 126]],
  /- 27 -/ [[5, 10, 13, 16, 28, 29, 31, 34, 35, 38, 53, 56, 58, 59, 61, 62, 65, 79, 86, 87, 91, 94, 105, 106, 110, 121, 122, 126]],
  /- 28 -/ [[6], [2], [0]],
  /- 29 -/ [[8], [3], [0]],
  /- 30 -/ [[8], [3], [0]],
  /- 31 -/ [[9], [3], [0]],
  /- 32 -/ [[9], [3], [0]],
  /- 33 -/ [[10], [4], [0]],
  /- 34 -/ [[10], [4], [0]],
  /- 35 -/ [[11], [4], [0]],
  /- 36 -/ [[12], [5, 10, 13, 16, 28, 29, 31, 34, 35, 38, 53, 56, 58, 59, 61, 62, 65, 79, 86, 87, 91, 94, 105, 106, 110, 121, 122, 126]],
  /- 37 -/ [[12, 23, 24, 25, 45, 52]],
  /- 38 -/ [[13], [5, 10, 13, 16, 28, 29, 31, 34, 35, 38, 53, 56, 58, 59, 61, 62, 65, 79, 86, 87, 91, 94, 105, 106, 110, 121, 122, 126]],
  /- 39 -/ [[15], [5, 10, 13, 16, 28, 29, 31, 34, 35, 38, 53, 56, 58, 59, 61, 62, 65, 79, 86, 87, 91, 94, 105, 106, 110, 121, 122, 126]],
  /- 40 -/ [[15, 80], [5, 10, 13, 16, 28, 29, 31, 34, 35, 38, 46, 53, 56, 58, 59, 61, 62, 65, 78, 79, 86, 87, 91, 94, 105, 106, 110, 121, 122, 126]],
  /- 41 -/ [[15, 80], [5, 10, 13, 16, 28, 29, 31, 34, 35, 38, 46, 53, 56, 58, 59, 61, 62, 65, 78, 79, 86, 87, 91, 94, 105, 106, 110, 121, 122, 126]],
  /- 42 -/ [[16], [5], [2], [0]],
  /- 43 -/ [[16, 34, 38, 56, 58, 61, 65, 86, 91, 94, 105, 110, 121, 126], [5, 10, 13, 28, 29, 31, 35, 53, 59, 62, 79, 87, 106, 122], [2, 4, 5, 6, 8, 9, 10, 11, 13, 16, 26, 28, 29, 30, 31, 32, 34, 35, 38, 46, 53, 54, 56, 58, 59, 61, 62, 65, 78, 79, 83, 86, 87, 91, 94, 105, 106, 107, 110, 121, 122, 126]],
  /- 44 -/ [[18], [5, 10, 13, 16, 28, 29, 31, 34, 35, 38, 53, 56, 58, 59, 61, 62, 65, 79, 86, 87, 91, 94, 105, 106, 110, 121, 122, 126]],
  /- 45 -/ [[22], [5, 10, 13, 16, 28, 29, 31, 34, 35, 38, 53, 56, 58, 59, 61, 62, 65, 79, 86, 87, 91, 94, 105, 106, 110, 121, 122, 126]],
  /- 46 -/ [[22, 25]],
  /- 47 -/ [[22, 25, 45, 52]],
  /- 48 -/ [[22, 25, 45, 52]],
  /- 49 -/ [[23], [5, 10, 13, 16, 28, 29, 31, 34, 35, 38, 53, 56, 58, 59, 61, 62, 65, 79, 86, 87, 91, 94, 105, 106, 110, 121, 122, 126]],
  /- 50 -/ [[24], [5, 10, 13, 16, 28, 29, 31, 34, 35, 38, 53, 56, 58, 59, 61, 62, 65, 79, 86, 87, 91, 94, 105, 106, 110, 121, 122, 126]],
  /- 51 -/ [[25], [5, 10, 13, 16, 28, 29, 31, 34, 35, 38, 53, 56, 58, 59, 61, 62, 65, 79, 86, 87, 91, 94, 105, 106, 110, 121, 122, 126]],
  /- 52 -/ [[25], [5, 10, 13, 16, 28, 29, 31, 34, 35, 38, 53, 56, 58, 59, 61, 62, 65, 79, 86, 87, 91, 94, 105, 106, 110, 121, 122, 126]],
  /- 53 -/ [[26], [5, 10, 13, 16, 28, 29, 31, 34, 35, 38, 53, 56, 58, 59, 61, 62, 65, 79, 86, 87, 91, 94, 105, 106, 110, 121, 122, 126]],
  /- 54 -/ [[26], [5, 10, 13, 16, 28, 29, 31, 34, 35, 38, 53, 56, 58, 59, 61, 62, 65, 79, 86, 87, 91, 94, 105, 106, 110, 121, 122, 126]],
  /- 55 -/ [[28], [6], [2], [0]],
  /- 56 -/ [[28], [6], [2], [0]],
  /- 57 -/ [[29], [8], [3], [0]],
  /- 58 -/ [[29], [8], [3], [0]],
  /- 59 -/ [[30], [8], [3], [0]],
  /- 60 -/ [[31], [9], [3], [0]],
  /- 61 -/ [[31], [9], [3], [0]],
  /- 62 -/ [[32], [9], [3], [0]],
  /- 63 -/ [[34], [10], [4], [0]],
  /- 64 -/ [[35], [11], [4], [0]],
  /- 65 -/ [[35], [11], [4], [0]],
  /- 66 -/ [[36, 49, 50, 51, 77, 84], [12, 23, 24, 25, 45, 52]],
  /- 67 -/ [[37, 66, 69, 97, 101]],
  /- 68 -/ [[37], [12, 23, 24, 25, 45, 52]],
  /- 69 -/ [[37], [12, 23, 24, 25, 45, 52]],
  /- 70 -/ [[37, 66], [12, 23, 24, 25, 36, 45, 49, 50, 51, 52, 77, 84]],
  /- 71 -/ [[37, 66, 69, 97, 101]],
  /- 72 -/ [[38], [13], [5, 10, 13, 16, 28, 29, 31, 34, 35, 38, 53, 56, 58, 59, 61, 62, 65, 79, 86, 87, 91, 94, 105, 106, 110, 121, 122, 126]],
  /- 73 -/ [[39], [15], [5, 10, 13, 16, 28, 29, 31, 34, 35, 38, 53, 56, 58, 59, 61, 62, 65, 79, 86, 87, 91, 94, 105, 106, 110, 121, 122, 126]],
  /- 74 -/ [[39], [15], [5, 10, 13, 16, 28, 29, 31, 34, 35, 38, 53, 56, 58, 59, 61, 62, 65, 79, 86, 87, 91, 94, 105, 106, 110, 121, 122, 126]],
  /- 75 -/ [[41], [15, 80], [5, 10, 13, 16, 28, 29, 31, 34, 35, 38, 46, 53, 56, 58, 59, 61, 62, 65, 78, 79, 86, 87, 91, 94, 105, 106, 110, 121, 122, 126]],
  /- 76 -/ [[41, 46, 78]],
  /- 77 -/ [[45], [22], [5, 10, 13, 16, 28, 29, 31, 34, 35, 38, 53, 56, 58, 59, 61, 62, 65, 79, 86, 87, 91, 94, 105, 106, 110, 121, 122, 126]],
  /- 78 -/ [[45, 52], [22, 25]],
  /- 79 -/ [[46, 78], [22, 25, 45, 52]],
  /- 80 -/ [[46, 78], [22, 25, 45, 52]],
  /- 81 -/ [[46], [22, 25]],
  /- 82 -/ [[46], [22, 25]],
  /- 83 -/ [[46, 78], [22, 25, 45, 52]],
  /- 84 -/ [[52], [25], [5, 10, 13, 16, 28, 29, 31, 34, 35, 38, 53, 56, 58, 59, 61, 62, 65, 79, 86, 87, 91, 94, 105, 106, 110, 121, 122, 126]],
  /- 85 -/ [[53], [26], [5, 10, 13, 16, 28, 29, 31, 34, 35, 38, 53, 56, 58, 59, 61, 62, 65, 79, 86, 87, 91, 94, 105, 106, 110, 121, 122, 126]],
  /- 86 -/ [[53], [26], [5, 10, 13, 16, 28, 29, 31, 34, 35, 38, 53, 56, 58, 59, 61, 62, 65, 79, 86, 87, 91, 94, 105, 106, 110, 121, 122, 126]],
  /- 87 -/ [[54], [26], [5, 10, 13, 16, 28, 29, 31, 34, 35, 38, 53, 56, 58, 59, 61, 62, 65, 79, 86, 87, 91, 94, 105, 106, 110, 121, 122, 126]],
  /- 88 -/ [[56], [28], [6], [2], [0]],
  /- 89 -/ [[58], [29], [8], [3], [0]],
  /- 90 -/ [[59], [30], [8], [3], [0]],
  /- 91 -/ [[59], [30], [8], [3], [0]],
  /- 92 -/ [[61], [31], [9], [3], [0]],
  /- 93 -/ [[62], [32], [9], [3], [0]],
  /- 94 -/ [[62], [32], [9], [3], [0]],
  /- 95 -/ [[65], [35], [11], [4], [0]],
  /- 96 -/ [[66], [36, 49, 50, 51, 77, 84], [12, 23, 24, 25, 45, 52]],
  /- 97 -/ [[66], [36, 49, 50, 51, 77, 84], [12, 23, 24, 25, 45, 52]],
  /- 98 -/ [[67], [37, 66, 69, 97, 101]],
  /- 99 -/ [[69], [37], [12, 23, 24, 25, 45, 52]],
  /- 100 -/ [[69, 97], [37, 66], [12, 23, 24, 25, 36, 45, 49, 50, 51, 52, 77, 84]],
  /- 101 -/ [[69, 97], [37, 66], [12, 23, 24, 25, 36, 45, 49, 50, 51, 52, 77, 84]],
  /- 102 -/ [[75], [41], [15, 80], [5, 10, 13, 16, 28, 29, 31, 34, 35, 38, 46, 53, 56, 58, 59, 61, 62, 65, 78, 79, 86, 87, 91, 94, 105, 106, 110, 121, 122, 126]],
  /- 103 -/ [[78], [45, 52], [22, 25]],
  /- 104 -/ [[78], [45, 52], [22, 25]],
  /- 105 -/ [[79], [46, 78], [22, 25, 45, 52]],
  /- 106 -/ [[83], [46, 78], [22, 25, 45, 52]],
  /- 107 -/ [[83], [46, 78], [22, 25, 45, 52]],
  /- 108 -/ [[86], [53], [26], [5, 10, 13, 16, 28, 29, 31, 34, 35, 38, 53, 56, 58, 59, 61, 62, 65, 79, 86, 87, 91, 94, 105, 106, 110, 121, 122, 126]],
  /- 109 -/ [[87], [54], [26], [5, 10, 13, 16, 28, 29, 31, 34, 35, 38, 53, 56, 58, 59, 61, 62, 65, 79, 86, 87, 91, 94, 105, 106, 110, 121, 122, 126]],
  /- 110 -/ [[87], [54], [26], [5, 10, 13, 16, 28, 29, 31, 34, 35, 38, 53, 56, 58, 59, 61, 62, 65, 79, 86, 87, 91, 94, 105, 106, 110, 121, 122, 126]],
  /- 111 -/ [[91], [59], [30], [8], [3], [0]],
  /- 112 -/ [[94], [62], [32], [9], [3], [0]],
  /- 113 -/ [[97], [66], [36, 49, 50, 51, 77, 84], [12, 23, 24, 25, 45, 52]],
  /- 114 -/ [[98], [67], [37, 66, 69, 97, 101]],
  /- 115 -/ [[98], [67], [37, 66, 69, 97, 101]],
  /- 116 -/ [[101], [69, 97], [37, 66], [12, 23, 24, 25, 36, 45, 49, 50, 51, 52, 77, 84]],
  /- 117 -/ [[102], [75], [41], [15, 80], [5, 10, 13, 16, 28, 29, 31, 34, 35, 38, 46, 53, 56, 58, 59, 61, 62, 65, 78, 79, 86, 87, 91, 94, 105, 106, 110, 121, 122, 126]],
  /- 118 -/ [[102], [75], [41], [15, 80], [5, 10, 13, 16, 28, 29, 31, 34, 35, 38, 46, 53, 56, 58, 59, 61, 62, 65, 78, 79, 86, 87, 91, 94, 105, 106, 110, 121, 122, 126]],
  /- 119 -/ [[105], [79], [46, 78], [22, 25, 45, 52]],
  /- 120 -/ [[106], [83], [46, 78], [22, 25, 45, 52]],
  /- 121 -/ [[106], [83], [46, 78], [22, 25, 45, 52]],
  /- 122 -/ [[107], [83], [46, 78], [22, 25, 45, 52]],
  /- 123 -/ [[110], [87], [54], [26], [5, 10, 13, 16, 28, 29, 31, 34, 35, 38, 53, 56, 58, 59, 61, 62, 65, 79, 86, 87, 91, 94, 105, 106, 110, 121, 122, 126]],
  /- 124 -/ [[121], [106], [83], [46, 78], [22, 25, 45, 52]],
  /- 125 -/ [[122], [107], [83], [46, 78], [22, 25, 45, 52]],
  /- 126 -/ [[122], [107], [83], [46, 78], [22, 25, 45, 52]],
  /- 127 -/ [[126], [122], [107], [83], [46, 78], [22, 25, 45, 52]]]

end Gographviz.Parse
