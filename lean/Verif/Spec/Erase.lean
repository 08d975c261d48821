import Verif.Spec.AstView
/-!
Specification for C101: a syntax tree without some names.
-/
namespace Gographviz.Spec.Erase

open Gographviz
open Gographviz.Ast (Stmt Loc EdgeRH)

/-- The end of an edge is written as one of the names: a node, a cluster, or a subgraph with its statements. -/
def endAt (D : Str → Bool) : Loc → Bool
  | .node n => D n.id
  | .sub id _ => D id

/-- The statement is about one of the names: its node statement, its subgraph, or an edge that ends there. -/
def about (D : Str → Bool) : Stmt → Bool
  | .node n _ => D n.id
  | .sub id _ => D id
  | .edge src rhs _ => endAt D src || rhs.any fun r => match r with | .mk _ dst => endAt D dst
  | _ => false

mutual
/-- The statement without the statements inside it that are about one of the names. -/
def eraseStmt (D : Str → Bool) : Stmt → Stmt
  | .edge src rhs as => .edge (eraseLoc D src) (eraseRhs D rhs) as
  | .sub id body => .sub id (erase D body)
  | .node id as => .node id as
  | .nodeAttrs as => .nodeAttrs as
  | .edgeAttrs as => .edgeAttrs as
  | .graphAttrs as => .graphAttrs as
  | .attr a => .attr a
/-- The same for an end of an edge. -/
def eraseLoc (D : Str → Bool) : Loc → Loc
  | .node n => .node n
  | .sub id body => .sub id (erase D body)
/-- The same for right-hand sides. -/
def eraseRhs (D : Str → Bool) : List EdgeRH → List EdgeRH
  | [] => []
  | .mk op d :: rest => .mk op (eraseLoc D d) :: eraseRhs D rest
/-- The statements without those, at any depth, that are about one of the names. -/
def erase (D : Str → Bool) : List Stmt → List Stmt
  | [] => []
  | s :: ss => if about D s then erase D ss else eraseStmt D s :: erase D ss
end

/-- A subgraph other than `p`, at any depth (and also as an end of an edge), which is not itself one of the names, has a statement about one of them. -/
def Elsewhere (D : Str → Bool) (p : Str) (ss : List Stmt) : Prop :=
  ∃ q b, Stmt.sub q b ∈ allStmts ss ∧ q ≠ p ∧ D q = false ∧ ∃ s ∈ b, about D s = true

end Gographviz.Spec.Erase
