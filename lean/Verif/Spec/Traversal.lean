import Verif.Model.Walk
/-!
What a traversal of a syntax tree by a visitor should do (C54), independently of the `Walk` methods: the tree of all its elements in
document order, and the usual visitor protocol on such a tree.
-/
namespace Gographviz.Spec

open Gographviz.Ast (Stmt Loc EdgeRH AttrList AList Attr Port NodeID Elem Vis)

/-- An element and its parts, in document order. -/
inductive ETree where
  | node (e : Elem) (parts : List ETree)

def idTree (s : Str) : ETree := .node (.id s) []
def attrTree (a : Attr) : ETree := .node (.attr a) [idTree a.field, idTree a.value]
def alistTree (al : AList) : ETree := .node (.alist al) (al.map attrTree)
def portTree (p : Port) : ETree := .node (.port p) [idTree p.id1, idTree p.id2]
def nodeIDTree (n : NodeID) : ETree := .node (.nodeID n) [idTree n.id, portTree n.port]
/-- The list `[a=b, ...] [...]` of a node or edge statement. -/
def attrListTree (as : AttrList) : ETree := .node (.attrList as) (as.map alistTree)

mutual
def stmtTree : Stmt → ETree
  | .node id as => .node (.nodeStmt id as) [nodeIDTree id, attrListTree as]
  | .edge src rhs as => .node (.edgeStmt src rhs as) [locTree src, .node (.edgeRHS rhs) (rhsTrees rhs), attrListTree as]
  | .nodeAttrs as => .node (.nodeAttrs as) (as.map alistTree)
  | .edgeAttrs as => .node (.edgeAttrs as) (as.map alistTree)
  | .graphAttrs as => .node (.graphAttrs as) (as.map alistTree)
  | .sub id body => .node (.subGraph id body) [idTree id, .node (.stmtList body) (stmtTrees body)]
  | .attr a => attrTree a
def locTree : Loc → ETree
  | .node n => nodeIDTree n
  | .sub id body => .node (.subGraph id body) [idTree id, .node (.stmtList body) (stmtTrees body)]
def rhsTrees : List EdgeRH → List ETree
  | [] => []
  | .mk op dst :: rest => .node (.edgeRH op dst) [.node (.edgeOp op) [], locTree dst] :: rhsTrees rest
def stmtTrees : List Stmt → List ETree
  | [] => []
  | s :: ss => stmtTree s :: stmtTrees ss
end

/-- All the elements of a syntax tree. -/
def graphTree (t : Ast.Graph) : ETree :=
  .node (.graph t) [.node (.type t.type_) [], idTree t.id, .node (.stmtList t.stmts) (stmtTrees t.stmts)]

mutual
/-- The elements in document order, an element before its parts. -/
def preorder : ETree → List Elem
  | .node e parts => e :: preorders parts
def preorders : List ETree → List Elem
  | [] => []
  | t :: ts => preorder t ++ preorders ts
end

variable {V σ : Type}

mutual
/-- The visitor protocol: visit the element; the visitor it returns visits the parts in order; if it returns nil the parts are
skipped. -/
def traverse (vis : Vis V σ) (v : V) : ETree → σ → σ
  | .node e parts, s =>
    match vis v e s with
    | (none, s) => s
    | (some v', s) => traverses vis v' parts s
def traverses (vis : Vis V σ) (v : V) : List ETree → σ → σ
  | [], s => s
  | t :: ts, s => traverses vis v ts (traverse vis v t s)
end

/-- The elements that are lists of attribute lists, and not empty: `node [..]`, `edge [..]`, `graph [..]` and the attributes of a node or
edge statement. -/
def IsAttrLists : Elem → Prop
  | .nodeAttrs as | .edgeAttrs as | .graphAttrs as | .attrList as => as ≠ []
  | _ => False

mutual
/-- The traversal asks the visitor for a visitor for the parts of a non-empty list of attribute lists, and gets nil. -/
def NilAtAttrs (vis : Vis V σ) (v : V) : ETree → σ → Prop
  | .node e parts, s =>
    match vis v e s with
    | (none, _) => IsAttrLists e
    | (some v', s) => NilAtAttrss vis v' parts s
def NilAtAttrss (vis : Vis V σ) (v : V) : List ETree → σ → Prop
  | [], _ => False
  | t :: ts, s => NilAtAttrs vis v t s ∨ NilAtAttrss vis v ts (traverse vis v t s)
end

/-- A visitor that also writes down what it visits. -/
def logged (vis : Vis V σ) : Vis V (σ × List Elem) := fun v e s =>
  ((vis v e s.1).1, ((vis v e s.1).2, s.2 ++ [e]))

end Gographviz.Spec
