import Verif.Model.Ast
/-!
Specification: the meaning of a DOT text. The relations below define which sequence of lexemes (token type and text) denotes which syntax
tree, following the comments of dot.bnf (`graph : [ strict ] (graph | digraph) [ ID ] '{' stmt_list '}'` and so on). Nothing here mentions
the parser, its tables or its actions.

`gen k` is the `k`-th generated name. A subgraph without a name takes the next generated name at its closing brace, so inner subgraphs draw
before outer ones; the two numbers of the relations are the numbers of names drawn before and after.
-/
namespace Gographviz.Spec.Meaning

open Gographviz Gographviz.Ast

/-- Token type and text. The types: 2 graph, 3 `{`, 4 `}`, 5 strict, 6 digraph, 7 `;`, 8 `=`, 9 node, 10 edge, 11 `[`, 12 `]`, 13 `,`,
14 `:`, 15 subgraph, 16 `->`, 17 `--`, 18 identifier (internal/token/token.go:138-179). -/
abbrev Lexeme := Nat × Str

/-- An optional token. -/
inductive Opt (typ : Nat) : List Lexeme → Prop where
  | absent : Opt typ []
  | present {l : Str} : Opt typ [(typ, l)]

/-- An optional identifier. -/
inductive OptId : List Lexeme → Str → Prop where
  | absent : OptId [] []
  | present {s : Str} : OptId [(18, s)] s

/-- `ID` or `ID = ID`; `ID` alone means `ID=true`. -/
inductive AttrM : List Lexeme → Attr → Prop where
  | flag {f : Str} : AttrM [(18, f)] ⟨f, b!"true"⟩
  | pair {f l v : Str} : AttrM [(18, f), (8, l), (18, v)] ⟨f, v⟩

/-- Attributes with optional commas between them. -/
inductive AListM : List Lexeme → AList → Prop where
  | one {ts : List Lexeme} {a : Attr} : AttrM ts a → AListM ts [a]
  | snoc {ts cm us : List Lexeme} {as : AList} {a : Attr} : AListM ts as → Opt 13 cm → AttrM us a → AListM (ts ++ (cm ++ us)) (as ++ [a])

/-- `[ ]` or `[ a_list ]`; an empty pair of brackets contributes nothing. -/
inductive BracketM : List Lexeme → AttrList → Prop where
  | empty {l l' : Str} : BracketM [(11, l), (12, l')] []
  | full {l l' : Str} {ts : List Lexeme} {as : AList} : AListM ts as → BracketM ((11, l) :: (ts ++ [(12, l')])) [as]

/-- One or more brackets. -/
inductive AttrListM : List Lexeme → AttrList → Prop where
  | one {ts : List Lexeme} {as : AttrList} : BracketM ts as → AttrListM ts as
  | snoc {ts us : List Lexeme} {as bs : AttrList} : AttrListM ts as → BracketM us bs → AttrListM (ts ++ us) (as ++ bs)

/-- Zero or more brackets. -/
inductive OptAttrListM : List Lexeme → AttrList → Prop where
  | absent : OptAttrListM [] []
  | present {ts : List Lexeme} {as : AttrList} : AttrListM ts as → OptAttrListM ts as

/-- `ID`, `ID:ID` or `ID:ID:ID`. -/
inductive NodeIdM : List Lexeme → NodeID → Prop where
  | plain {s : Str} : NodeIdM [(18, s)] ⟨s, ⟨[], []⟩⟩
  | port {s p l : Str} : NodeIdM [(18, s), (14, l), (18, p)] ⟨s, ⟨p, []⟩⟩
  | port2 {s p q l l' : Str} : NodeIdM [(18, s), (14, l), (18, p), (14, l'), (18, q)] ⟨s, ⟨p, q⟩⟩

/-- `->` (true) or `--` (false). -/
inductive OpM : Lexeme → Bool → Prop where
  | directed {l : Str} : OpM (16, l) true
  | undirected {l : Str} : OpM (17, l) false

mutual
/-- A statement without its semicolon. -/
inductive StmtM (gen : Nat → Str) : Nat → List Lexeme → Stmt → Nat → Prop where
  | attr {c : Nat} {f l v : Str} : StmtM gen c [(18, f), (8, l), (18, v)] (.attr ⟨f, v⟩) c
  | node {c : Nat} {ts us : List Lexeme} {n : NodeID} {as : AttrList} : NodeIdM ts n → OptAttrListM us as → StmtM gen c (ts ++ us) (.node n as) c
  | edge {c c1 c2 : Nat} {ts us vs : List Lexeme} {src : Loc} {rhs : List EdgeRH} {as : AttrList} : LocM gen c ts src c1 → RhsM gen c1 us rhs c2 →
      OptAttrListM vs as → StmtM gen c (ts ++ (us ++ vs)) (.edge src rhs as) c2
  | graphAttrs {c : Nat} {l : Str} {ts : List Lexeme} {as : AttrList} : AttrListM ts as → StmtM gen c ((2, l) :: ts) (.graphAttrs as) c
  | nodeAttrs {c : Nat} {l : Str} {ts : List Lexeme} {as : AttrList} : AttrListM ts as → StmtM gen c ((9, l) :: ts) (.nodeAttrs as) c
  | edgeAttrs {c : Nat} {l : Str} {ts : List Lexeme} {as : AttrList} : AttrListM ts as → StmtM gen c ((10, l) :: ts) (.edgeAttrs as) c
  | sub {c c' : Nat} {ts : List Lexeme} {id : Str} {body : List Stmt} : SubM gen c ts id body c' → StmtM gen c ts (.sub id body) c'
/-- An end of an edge. -/
inductive LocM (gen : Nat → Str) : Nat → List Lexeme → Loc → Nat → Prop where
  | node {c : Nat} {ts : List Lexeme} {n : NodeID} : NodeIdM ts n → LocM gen c ts (.node n) c
  | sub {c c' : Nat} {ts : List Lexeme} {id : Str} {body : List Stmt} : SubM gen c ts id body c' → LocM gen c ts (.sub id body) c'
/-- The right-hand sides of an edge. -/
inductive RhsM (gen : Nat → Str) : Nat → List Lexeme → List EdgeRH → Nat → Prop where
  | one {c c' : Nat} {x : Lexeme} {op : Bool} {ts : List Lexeme} {d : Loc} : OpM x op → LocM gen c ts d c' → RhsM gen c (x :: ts) [.mk op d] c'
  | snoc {c c1 c2 : Nat} {ts us : List Lexeme} {rhs : List EdgeRH} {x : Lexeme} {op : Bool} {d : Loc} : RhsM gen c ts rhs c1 → OpM x op →
      LocM gen c1 us d c2 → RhsM gen c (ts ++ (x :: us)) (rhs ++ [.mk op d]) c2
/-- A subgraph: its name and its statements. Without the keyword the braces must not be empty. -/
inductive SubM (gen : Nat → Str) : Nat → List Lexeme → Str → List Stmt → Nat → Prop where
  | braces {c c' : Nat} {l l' : Str} {ts : List Lexeme} {b : List Stmt} : StmtsM gen c ts b c' →
      SubM gen c ((3, l) :: (ts ++ [(4, l')])) (gen c') b (c' + 1)
  | anon {c c' : Nat} {k l l' : Str} {ts : List Lexeme} {b : List Stmt} : OptStmtsM gen c ts b c' →
      SubM gen c ((15, k) :: (3, l) :: (ts ++ [(4, l')])) (gen c') b (c' + 1)
  | named {c c' : Nat} {k s l l' : Str} {ts : List Lexeme} {b : List Stmt} : OptStmtsM gen c ts b c' →
      SubM gen c ((15, k) :: (18, s) :: (3, l) :: (ts ++ [(4, l')])) s b c'
/-- One or more statements, each with an optional semicolon. -/
inductive StmtsM (gen : Nat → Str) : Nat → List Lexeme → List Stmt → Nat → Prop where
  | one {c c' : Nat} {ts sm : List Lexeme} {s : Stmt} : StmtM gen c ts s c' → Opt 7 sm → StmtsM gen c (ts ++ sm) [s] c'
  | snoc {c c1 c2 : Nat} {ts us sm : List Lexeme} {ss : List Stmt} {s : Stmt} : StmtsM gen c ts ss c1 → StmtM gen c1 us s c2 → Opt 7 sm →
      StmtsM gen c (ts ++ (us ++ sm)) (ss ++ [s]) c2
/-- Zero or more statements. -/
inductive OptStmtsM (gen : Nat → Str) : Nat → List Lexeme → List Stmt → Nat → Prop where
  | absent {c : Nat} : OptStmtsM gen c [] [] c
  | present {c c' : Nat} {ts : List Lexeme} {ss : List Stmt} : StmtsM gen c ts ss c' → OptStmtsM gen c ts ss c'
end

/-- `graph` (false) or `digraph` (true). -/
inductive KindM : Lexeme → Bool → Prop where
  | graph {l : Str} : KindM (2, l) false
  | digraph {l : Str} : KindM (6, l) true

/-- A whole document. -/
inductive GraphM (gen : Nat → Str) : Nat → List Lexeme → Ast.Graph → Nat → Prop where
  | mk {c c' : Nat} {st is ts : List Lexeme} {k : Lexeme} {d : Bool} {l l' id : Str} {b : List Stmt} : Opt 5 st → KindM k d → OptId is id →
      OptStmtsM gen c ts b c' →
      GraphM gen c (st ++ (k :: (is ++ ((3, l) :: (ts ++ [(4, l')]))))) ⟨d, decide (st ≠ []), id, b⟩ c'

end Gographviz.Spec.Meaning
