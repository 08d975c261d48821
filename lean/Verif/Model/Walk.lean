import Verif.Model.Ast
/-!
ast/ast.go: the `Walk` methods, for every visitor.

A visitor is an object with a method `Visit` that may change its own and any other state and returns the visitor for the parts of
the element (or nil). In the model `V` is the type of the non-nil visitors, `σ` is the whole state that `Visit` can change, `none`
is the nil visitor. A `Walk` gives the final state, or `none` if it panics (a method call on a nil interface).
-/
namespace Gographviz.Ast

open Gographviz

/-- ast.go:38-40 `Elem`: the elements that the `Walk` methods pass to `Visit`, by their dynamic type. (`Bool`, ast.go:62-67, is part of no
other element.) -/
inductive Elem where
  | graph (t : Graph)
  | type (t : Bool)
  | id (s : Str)
  | stmtList (ss : List Stmt)
  | nodeStmt (id : NodeID) (as : AttrList)
  | edgeStmt (src : Loc) (rhs : List EdgeRH) (as : AttrList)
  | nodeAttrs (as : AttrList)
  | edgeAttrs (as : AttrList)
  | graphAttrs (as : AttrList)
  | subGraph (id : Str) (body : List Stmt)
  | attr (a : Attr)
  | attrList (as : AttrList)
  | alist (al : AList)
  | edgeRHS (rhs : List EdgeRH)
  | edgeRH (op : Bool) (dst : Loc)
  | edgeOp (op : Bool)
  | nodeID (n : NodeID)
  | port (p : Port)

/-- ast.go:34-36 `Visitor`. -/
abbrev Vis (V σ : Type) := V → Elem → σ → Option V × σ

variable {V σ : Type}

/-- ast.go:62-67, 83-88, 622-627, 725-730: the elements without parts. -/
def walkLeaf (vis : Vis V σ) (v : Option V) (e : Elem) (s : σ) : Option σ :=
  match v with
  | none => some s
  | some v => some (vis v e s).2

/-- ast.go:462-469 `Attr.Walk`. -/
def walkAttr (vis : Vis V σ) (v : Option V) (a : Attr) (s : σ) : Option σ :=
  match v with
  | none => some s
  | some v =>
    let (v, s) := vis v (.attr a) s
    (walkLeaf vis v (.id a.field) s).bind fun s =>
    walkLeaf vis v (.id a.value) s

/-- ast.go:431-433: the loop of `AList.Walk`. -/
def walkAttrs (vis : Vis V σ) (v : Option V) : List Attr → σ → Option σ
  | [], s => some s
  | a :: as, s => (walkAttr vis v a s).bind fun s => walkAttrs vis v as s

/-- ast.go:429-434 `AList.Walk`: the only one without the test for nil. -/
def walkAList (vis : Vis V σ) (v : Option V) (al : AList) (s : σ) : Option σ :=
  match v with
  | none => none
  | some v =>
    let (v, s) := vis v (.alist al) s
    walkAttrs vis v al s

/-- ast.go:274-276, 302-304, 330-332, 373-375: the loops over the parts of an attribute list. -/
def walkALists (vis : Vis V σ) (v : Option V) : AttrList → σ → Option σ
  | [], s => some s
  | al :: als, s => (walkAList vis v al s).bind fun s => walkALists vis v als s

/-- ast.go:368-376 `AttrList.Walk`; 269-277, 297-305, 325-333 `EdgeAttrs`, `NodeAttrs`, `GraphAttrs`: the same with another element. -/
def walkAttrList (vis : Vis V σ) (v : Option V) (e : Elem) (as : AttrList) (s : σ) : Option σ :=
  match v with
  | none => some s
  | some v =>
    let (v, s) := vis v e s
    walkALists vis v as s

/-- ast.go:702-709 `Port.Walk`. -/
def walkPort (vis : Vis V σ) (v : Option V) (p : Port) (s : σ) : Option σ :=
  match v with
  | none => some s
  | some v =>
    let (v, s) := vis v (.port p) s
    (walkLeaf vis v (.id p.id1) s).bind fun s =>
    walkLeaf vis v (.id p.id2) s

/-- ast.go:665-672 `NodeID.Walk`. -/
def walkNodeID (vis : Vis V σ) (v : Option V) (n : NodeID) (s : σ) : Option σ :=
  match v with
  | none => some s
  | some v =>
    let (v, s) := vis v (.nodeID n) s
    (walkLeaf vis v (.id n.id) s).bind fun s =>
    walkPort vis v n.port s

mutual
/-- The `Walk` of the seven kinds of statements: ast.go:599-606 (node), 513-521 (edge), 297-305, 269-277, 325-333 (defaults), 242-249
(subgraph, with 164-172 `StmtList.Walk`), 462-469 (attribute). -/
def walkS (vis : Vis V σ) (v : Option V) : Stmt → σ → Option σ
  | .node id as, s =>
    match v with
    | none => some s
    | some v =>
      let (v, s) := vis v (.nodeStmt id as) s
      (walkNodeID vis v id s).bind fun s =>
      walkAttrList vis v (.attrList as) as s
  | .edge src rhs as, s =>
    match v with
    | none => some s
    | some v =>
      let (v, s) := vis v (.edgeStmt src rhs as) s
      (walkL vis v src s).bind fun s =>
      (match v with
        | none => some s
        | some v =>
          let (v, s) := vis v (.edgeRHS rhs) s
          walkR vis v rhs s).bind fun s =>
      walkAttrList vis v (.attrList as) as s
  | .nodeAttrs as, s => walkAttrList vis v (.nodeAttrs as) as s
  | .edgeAttrs as, s => walkAttrList vis v (.edgeAttrs as) as s
  | .graphAttrs as, s => walkAttrList vis v (.graphAttrs as) as s
  | .sub id body, s =>
    match v with
    | none => some s
    | some v =>
      let (v, s) := vis v (.subGraph id body) s
      (walkLeaf vis v (.id id) s).bind fun s =>
      match v with
      | none => some s
      | some v =>
        let (v, s) := vis v (.stmtList body) s
        walkSs vis v body s
  | .attr a, s => walkAttr vis v a s
/-- The `Walk` of a location: ast.go:665-672 (node ID) and 242-249 with 164-172 (subgraph). -/
def walkL (vis : Vis V σ) (v : Option V) : Loc → σ → Option σ
  | .node n, s => walkNodeID vis v n s
  | .sub id body, s =>
    match v with
    | none => some s
    | some v =>
      let (v, s) := vis v (.subGraph id body) s
      (walkLeaf vis v (.id id) s).bind fun s =>
      match v with
      | none => some s
      | some v =>
        let (v, s) := vis v (.stmtList body) s
        walkSs vis v body s
/-- ast.go:548-550: the loop of `EdgeRHS.Walk` (543-551), with ast.go:562-569 `EdgeRH.Walk`. -/
def walkR (vis : Vis V σ) (v : Option V) : List EdgeRH → σ → Option σ
  | [], s => some s
  | .mk op dst :: rest, s =>
    (match v with
      | none => some s
      | some v =>
        let (v, s) := vis v (.edgeRH op dst) s
        (walkLeaf vis v (.edgeOp op) s).bind fun s =>
        walkL vis v dst s).bind fun s =>
    walkR vis v rest s
/-- ast.go:169-171: the loop of `StmtList.Walk`. -/
def walkSs (vis : Vis V σ) (v : Option V) : List Stmt → σ → Option σ
  | [], s => some s
  | st :: rest, s => (walkS vis v st s).bind fun s => walkSs vis v rest s
end

/-- ast.go:164-172 `StmtList.Walk`. -/
def walkStmtList (vis : Vis V σ) (v : Option V) (ss : List Stmt) (s : σ) : Option σ :=
  match v with
  | none => some s
  | some v =>
    let (v, s) := vis v (.stmtList ss) s
    walkSs vis v ss s

/-- ast.go:121-129 `Graph.Walk`. -/
def walkGraph (vis : Vis V σ) (v : Option V) (t : Graph) (s : σ) : Option σ :=
  match v with
  | none => some s
  | some v =>
    let (v, s) := vis v (.graph t) s
    (walkLeaf vis v (.type t.type_) s).bind fun s =>
    (walkLeaf vis v (.id t.id) s).bind fun s =>
    walkStmtList vis v t.stmts s

end Gographviz.Ast
