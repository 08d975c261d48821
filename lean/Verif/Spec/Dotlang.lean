/-!
Specification: the grammar of the DOT language as its authors publish it, in the version that dot.bnf quotes rule by rule in its comments (dot.bnf:165-290,
"The rules have been copied and are shown in the comments"). Sentences are lists of token types; the numbers are those of internal/token/token.go:138-179:
2 `graph`, 3 `{`, 4 `}`, 5 `strict`, 6 `digraph`, 7 `;`, 8 `=`, 9 `node`, 10 `edge`, 11 `[`, 12 `]`, 13 `,`, 14 `:`, 15 `subgraph`, 16 `->`, 17 `--`,
18 an ID. Nothing here mentions the parser, its tables or the rules derived from the quoted ones.
-/
namespace Gographviz.Spec.Dot

/-- `[ t ]`: the token or nothing. -/
inductive May (t : Nat) : List Nat → Prop where
  | no : May t []
  | yes : May t [t]

/-- `ID [ '=' ID ]`, the beginning of an `a_list`. -/
inductive Entry : List Nat → Prop where
  | flag : Entry [18]
  | pair : Entry [18, 8, 18]

/-- `a_list : ID [ '=' ID ] [ ',' ] [ a_list ]` (dot.bnf:220). -/
inductive AList : List Nat → Prop where
  | last {a c : List Nat} : Entry a → May 13 c → AList (a ++ c)
  | more {a c r : List Nat} : Entry a → May 13 c → AList r → AList (a ++ (c ++ r))

/-- `[ a_list ]`. -/
inductive MayAList : List Nat → Prop where
  | no : MayAList []
  | yes {a : List Nat} : AList a → MayAList a

/-- `attr_list : '[' [ a_list ] ']' [ attr_list ]` (dot.bnf:212). -/
inductive AttrList : List Nat → Prop where
  | last {a : List Nat} : MayAList a → AttrList (11 :: (a ++ [12]))
  | more {a r : List Nat} : MayAList a → AttrList r → AttrList (11 :: (a ++ (12 :: r)))

/-- `[ attr_list ]`. -/
inductive MayAttrList : List Nat → Prop where
  | no : MayAttrList []
  | yes {a : List Nat} : AttrList a → MayAttrList a

/-- `node_id : ID [ port ]`, `port : ':' ID [ ':' compass_pt ] | ':' compass_pt`, where any ID is a compass point ("the parser will actually accept any
identifier", dot.bnf:255-266). -/
inductive NodeId : List Nat → Prop where
  | plain : NodeId [18]
  | port : NodeId [18, 14, 18]
  | compass : NodeId [18, 14, 18, 14, 18]

/-- `edgeop`: `->` or `--`. -/
inductive EdgeOp : Nat → Prop where
  | directed : EdgeOp 16
  | undirected : EdgeOp 17

/-- `graph | node | edge`, the beginning of an `attr_stmt`. -/
inductive Target : Nat → Prop where
  | graph : Target 2
  | node : Target 9
  | edge : Target 10

/-- `[ subgraph [ ID ] ]`. -/
inductive Heading : List Nat → Prop where
  | none : Heading []
  | anonymous : Heading [15]
  | named : Heading [15, 18]

mutual
/-- `stmt : node_stmt | edge_stmt | attr_stmt | (ID '=' ID) | subgraph` (dot.bnf:196), with `node_stmt : node_id [ attr_list ]`,
`edge_stmt : (node_id | subgraph) edgeRHS [ attr_list ]` and `attr_stmt : (graph | node | edge) attr_list`. -/
inductive Stmt : List Nat → Prop where
  | node {a b : List Nat} : NodeId a → MayAttrList b → Stmt (a ++ b)
  | edge {a b c : List Nat} : EdgeEnd a → EdgeRHS b → MayAttrList c → Stmt (a ++ (b ++ c))
  | attr {k : Nat} {a : List Nat} : Target k → AttrList a → Stmt (k :: a)
  | assign : Stmt [18, 8, 18]
  | sub {a : List Nat} : Subgraph a → Stmt a
/-- `node_id | subgraph`. -/
inductive EdgeEnd : List Nat → Prop where
  | node {a : List Nat} : NodeId a → EdgeEnd a
  | sub {a : List Nat} : Subgraph a → EdgeEnd a
/-- `edgeRHS : edgeop (node_id | subgraph) [ edgeRHS ]` (dot.bnf:241). -/
inductive EdgeRHS : List Nat → Prop where
  | last {o : Nat} {a : List Nat} : EdgeOp o → EdgeEnd a → EdgeRHS (o :: a)
  | more {o : Nat} {a r : List Nat} : EdgeOp o → EdgeEnd a → EdgeRHS r → EdgeRHS (o :: (a ++ r))
/-- `subgraph : [ subgraph [ ID ] ] '{' stmt_list '}'` (dot.bnf:275). -/
inductive Subgraph : List Nat → Prop where
  | mk {h a : List Nat} : Heading h → StmtList a → Subgraph (h ++ (3 :: (a ++ [4])))
/-- `stmt_list : [ stmt [ ';' ] [ stmt_list ] ]` (dot.bnf:185). -/
inductive StmtList : List Nat → Prop where
  | none : StmtList []
  | some {a s r : List Nat} : Stmt a → May 7 s → StmtList r → StmtList (a ++ (s ++ r))
end

/-- `graph | digraph`. -/
inductive Kind : Nat → Prop where
  | graph : Kind 2
  | digraph : Kind 6

/-- `graph : [ strict ] (graph | digraph) [ ID ] '{' stmt_list '}'` (dot.bnf:165). -/
inductive Graph : List Nat → Prop where
  | mk {s i a : List Nat} {k : Nat} : May 5 s → Kind k → May 18 i → StmtList a → Graph (s ++ (k :: (i ++ (3 :: (a ++ [4])))))

/-- The keywords `graph`, `digraph` and `subgraph`. -/
def Announces (k : Nat) : Prop := k = 2 ∨ k = 6 ∨ k = 15

/-- What stands before a `{` announces it: one of the keywords, or one of them and an ID. -/
def Announced (before : List Nat) : Prop := ∃ p k, Announces k ∧ (before = p ++ [k] ∨ before = p ++ [k, 18])

/-- No comma stands directly before a `]`. -/
def NoLastComma (ts : List Nat) : Prop := ¬ ∃ before after, ts = before ++ 13 :: 12 :: after

/-- Every `{` that is directly followed by its `}` is announced: there are no bare `{ }`. -/
def NoBareBraces (ts : List Nat) : Prop := ∀ before after, ts = before ++ 3 :: 4 :: after → Announced before

/-- The second list of tokens (type and text) is the first, in which some commas directly before a `]` are left out and `subgraph` is written before some `{ }`. -/
inductive Mended : List (Nat × List Nat) → List (Nat × List Nat) → Prop where
  | done : Mended [] []
  | keep (t : Nat × List Nat) {a b : List (Nat × List Nat)} : Mended a b → Mended (t :: a) (t :: b)
  | comma (c d : List Nat) {a b : List (Nat × List Nat)} : Mended a b → Mended ((13, c) :: (12, d) :: a) ((12, d) :: b)
  | braces (c d : List Nat) {a b : List (Nat × List Nat)} : Mended a b →
      Mended ((3, c) :: (4, d) :: a) ((15, [115, 117, 98, 103, 114, 97, 112, 104]) :: (3, c) :: (4, d) :: b)

end Gographviz.Spec.Dot
