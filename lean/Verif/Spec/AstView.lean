import Verif.Model.Ast
/-!
Specification vocabulary for syntax trees: all the statements of a tree, at any depth.
-/
namespace Gographviz.Spec

open Gographviz Ast

mutual
/-- A statement and all the statements nested in it. A subgraph used as an edge endpoint counts as a subgraph statement. -/
def allStmt : Stmt → List Stmt
  | .edge src rhs as => .edge src rhs as :: (allLoc src ++ allRHS rhs)
  | .sub id body => .sub id body :: allStmts body
  | .node id as => [.node id as]
  | .nodeAttrs as => [.nodeAttrs as]
  | .edgeAttrs as => [.edgeAttrs as]
  | .graphAttrs as => [.graphAttrs as]
  | .attr a => [.attr a]
/-- The statements nested in an edge endpoint. -/
def allLoc : Loc → List Stmt
  | .node _ => []
  | .sub id body => .sub id body :: allStmts body
/-- The statements nested in the right-hand sides of an edge. -/
def allRHS : List EdgeRH → List Stmt
  | [] => []
  | .mk _ dst :: rest => allLoc dst ++ allRHS rest
/-- All the statements of a statement list, at any depth. -/
def allStmts : List Stmt → List Stmt
  | [] => []
  | s :: ss => allStmt s ++ allStmts ss
end

/-- The statement is an edge statement. -/
def isEdgeStmt : Stmt → Bool
  | .edge .. => true
  | _ => false

/-- The statement is a node statement for the name (without port). -/
def isNodeStmtFor (n : Str) : Stmt → Bool
  | .node id _ => decide (id = ⟨n, ⟨[], []⟩⟩)
  | _ => false

/-- The statement is a subgraph with the given name. -/
def isSubFor (n : Str) : Stmt → Bool
  | .sub id _ => decide (id = n)
  | _ => false

end Gographviz.Spec
