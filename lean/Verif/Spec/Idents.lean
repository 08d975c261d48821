import Verif.Model.Ast
/-!
Specification vocabulary: all the identifiers that occur in a syntax tree.
-/
namespace Gographviz.Spec

open Gographviz Ast

/-- Fields and values of an attribute list. -/
def identsAttrs (as : AttrList) : List Str := as.flatMap fun al => al.flatMap fun a => [a.field, a.value]

/-- Name and port parts of a node. -/
def identsNode (n : NodeID) : List Str := [n.id, n.port.id1, n.port.id2]

mutual
/-- The identifiers of a statement. -/
def identsStmt : Stmt → List Str
  | .node n as => identsNode n ++ identsAttrs as
  | .edge src rhs as => identsLoc src ++ identsRHS rhs ++ identsAttrs as
  | .nodeAttrs as => identsAttrs as
  | .edgeAttrs as => identsAttrs as
  | .graphAttrs as => identsAttrs as
  | .sub id body => id :: identsStmts body
  | .attr a => [a.field, a.value]
/-- The identifiers of an edge endpoint. -/
def identsLoc : Loc → List Str
  | .node n => identsNode n
  | .sub id body => id :: identsStmts body
/-- The identifiers of the right-hand sides of an edge. -/
def identsRHS : List EdgeRH → List Str
  | [] => []
  | .mk _ dst :: rest => identsLoc dst ++ identsRHS rest
/-- The identifiers of a statement list. -/
def identsStmts : List Stmt → List Str
  | [] => []
  | s :: ss => identsStmt s ++ identsStmts ss
end

/-- The identifiers of a document. -/
def idents (g : Ast.Graph) : List Str := g.id :: identsStmts g.stmts

end Gographviz.Spec
