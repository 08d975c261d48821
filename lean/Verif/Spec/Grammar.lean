import Verif.Model.Lexer
/-!
Specification: the syntactic grammar of dot.bnf (lines 165-292), transcribed by hand. Independent of the generated parser tables.
-/
namespace Gographviz.Spec.Grammar

open Gographviz Gographviz.Lex

/-- The nonterminals of dot.bnf. -/
inductive NT where
  | DotGraph | StmtList | Stmt1 | Stmt | AttrStmt | AttrList | AList | Attr | EdgeStmt | EdgeRHS | NodeStmt | NodeId | Port
  | SubGraphStmt | EdgeOp | Id
  deriving DecidableEq, Repr

/-- A symbol: a token type or a nonterminal. -/
inductive Sym where
  | t (typ : Nat)
  | n (N : NT)
  deriving DecidableEq, Repr

/-- Token types (internal/token/token.go:84-103). -/
abbrev graphx := Sym.t 2
abbrev lbrace := Sym.t 3
abbrev rbrace := Sym.t 4
abbrev strict := Sym.t 5
abbrev digraph := Sym.t 6
abbrev semi := Sym.t 7
abbrev eq := Sym.t 8
abbrev node := Sym.t 9
abbrev edge := Sym.t 10
abbrev lbrack := Sym.t 11
abbrev rbrack := Sym.t 12
abbrev comma := Sym.t 13
abbrev colon := Sym.t 14
abbrev subgraph := Sym.t 15
abbrev arrow := Sym.t 16
abbrev dashes := Sym.t 17
abbrev id := Sym.t 18

open NT in
/-- The rules of dot.bnf in the order of the file. -/
def rules : List (NT × List Sym) := [
  (DotGraph, [graphx, lbrace, rbrace]),
  (DotGraph, [strict, graphx, lbrace, rbrace]),
  (DotGraph, [graphx, .n Id, lbrace, rbrace]),
  (DotGraph, [strict, graphx, .n Id, lbrace, rbrace]),
  (DotGraph, [graphx, lbrace, .n StmtList, rbrace]),
  (DotGraph, [graphx, .n Id, lbrace, .n StmtList, rbrace]),
  (DotGraph, [strict, graphx, lbrace, .n StmtList, rbrace]),
  (DotGraph, [strict, graphx, .n Id, lbrace, .n StmtList, rbrace]),
  (DotGraph, [digraph, lbrace, rbrace]),
  (DotGraph, [strict, digraph, lbrace, rbrace]),
  (DotGraph, [digraph, .n Id, lbrace, rbrace]),
  (DotGraph, [strict, digraph, .n Id, lbrace, rbrace]),
  (DotGraph, [digraph, lbrace, .n StmtList, rbrace]),
  (DotGraph, [digraph, .n Id, lbrace, .n StmtList, rbrace]),
  (DotGraph, [strict, digraph, lbrace, .n StmtList, rbrace]),
  (DotGraph, [strict, digraph, .n Id, lbrace, .n StmtList, rbrace]),
  (StmtList, [.n Stmt1]),
  (StmtList, [.n StmtList, .n Stmt1]),
  (Stmt1, [.n Stmt]),
  (Stmt1, [.n Stmt, semi]),
  (Stmt, [.n Id, eq, .n Id]),
  (Stmt, [.n NodeStmt]),
  (Stmt, [.n EdgeStmt]),
  (Stmt, [.n AttrStmt]),
  (Stmt, [.n SubGraphStmt]),
  (AttrStmt, [graphx, .n AttrList]),
  (AttrStmt, [node, .n AttrList]),
  (AttrStmt, [edge, .n AttrList]),
  (AttrList, [lbrack, rbrack]),
  (AttrList, [lbrack, .n AList, rbrack]),
  (AttrList, [.n AttrList, lbrack, rbrack]),
  (AttrList, [.n AttrList, lbrack, .n AList, rbrack]),
  (AList, [.n Attr]),
  (AList, [.n AList, .n Attr]),
  (AList, [.n AList, comma, .n Attr]),
  (Attr, [.n Id]),
  (Attr, [.n Id, eq, .n Id]),
  (EdgeStmt, [.n NodeId, .n EdgeRHS]),
  (EdgeStmt, [.n NodeId, .n EdgeRHS, .n AttrList]),
  (EdgeStmt, [.n SubGraphStmt, .n EdgeRHS]),
  (EdgeStmt, [.n SubGraphStmt, .n EdgeRHS, .n AttrList]),
  (EdgeRHS, [.n EdgeOp, .n NodeId]),
  (EdgeRHS, [.n EdgeOp, .n SubGraphStmt]),
  (EdgeRHS, [.n EdgeRHS, .n EdgeOp, .n NodeId]),
  (EdgeRHS, [.n EdgeRHS, .n EdgeOp, .n SubGraphStmt]),
  (NodeStmt, [.n NodeId]),
  (NodeStmt, [.n NodeId, .n AttrList]),
  (NodeId, [.n Id]),
  (NodeId, [.n Id, .n Port]),
  (Port, [colon, .n Id]),
  (Port, [colon, .n Id, colon, .n Id]),
  (SubGraphStmt, [lbrace, .n StmtList, rbrace]),
  (SubGraphStmt, [subgraph, lbrace, .n StmtList, rbrace]),
  (SubGraphStmt, [subgraph, .n Id, lbrace, .n StmtList, rbrace]),
  (SubGraphStmt, [subgraph, lbrace, rbrace]),
  (SubGraphStmt, [subgraph, .n Id, lbrace, rbrace]),
  (EdgeOp, [arrow]),
  (EdgeOp, [dashes]),
  (Id, [id])]

/-- Parse trees: leaves are tokens, inner nodes are labelled with the index of a rule. -/
inductive Tree where
  | leaf (t : Token)
  | node (rule : Nat) (children : List Tree)

mutual
/-- The tree is a parse tree for the symbol. -/
inductive Derives : Sym → Tree → Prop where
  | leaf {t : Token} : Derives (.t t.typ) (.leaf t)
  | node {N : NT} {r : Nat} {rhs : List Sym} {cs : List Tree} : rules[r]? = some (N, rhs) → DerivesAll rhs cs →
      Derives (.n N) (.node r cs)
/-- The trees are parse trees for the symbols, one by one. -/
inductive DerivesAll : List Sym → List Tree → Prop where
  | nil : DerivesAll [] []
  | cons {X : Sym} {Xs : List Sym} {T : Tree} {Ts : List Tree} : Derives X T → DerivesAll Xs Ts → DerivesAll (X :: Xs) (T :: Ts)
end

mutual
/-- The tokens at the leaves, from left to right. -/
def yield : Tree → List Token
  | .leaf t => [t]
  | .node _ cs => yields cs
/-- `yield` of several trees. -/
def yields : List Tree → List Token
  | [] => []
  | T :: Ts => yield T ++ yields Ts
end

/-- The token sequence is a sentence of the grammar. -/
def Sentence (ts : List Token) : Prop := ∃ T, Derives (.n .DotGraph) T ∧ yield T = ts

end Gographviz.Spec.Grammar
