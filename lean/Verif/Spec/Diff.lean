import Verif.Spec.Writing
/-!
Specification for C93: small changes of a syntax tree.
-/
namespace Gographviz.Spec.Diff

open Gographviz
open Gographviz.Ast (Stmt Loc EdgeRH AttrList)

/-- The list with `x` inserted before position `k`. -/
def insertAt {α : Type} (k : Nat) (x : α) (l : List α) : List α := l.take k ++ x :: l.drop k

/-- `new` is `old` with one more element, `x`. -/
def Inserted {α : Type} (x : α) (old new : List α) : Prop := ∃ k, k ≤ old.length ∧ new = insertAt k x old

/-- The statement with the value `v` if it is `k=...`. -/
def setAttr (k v : Str) : Stmt → Stmt
  | .attr a => if a.field = k then .attr ⟨k, v⟩ else .attr a
  | s => s

mutual
/-- The statement with the attribute list of each node statement, at any depth, changed by `nf` and the statements of each subgraph, at any
depth and also as an end of an edge, changed by `bf` (inner subgraphs first). -/
def editStmt (nf : Str → AttrList → AttrList) (bf : Str → List Stmt → List Stmt) : Stmt → Stmt
  | .node id as => .node id (nf id.id as)
  | .edge src rhs as => .edge (editLoc nf bf src) (editRhs nf bf rhs) as
  | .sub id body => .sub id (bf id (editStmts nf bf body))
  | .nodeAttrs as => .nodeAttrs as
  | .edgeAttrs as => .edgeAttrs as
  | .graphAttrs as => .graphAttrs as
  | .attr a => .attr a
/-- The same for an end of an edge. -/
def editLoc (nf : Str → AttrList → AttrList) (bf : Str → List Stmt → List Stmt) : Loc → Loc
  | .node n => .node n
  | .sub id body => .sub id (bf id (editStmts nf bf body))
/-- The same for right-hand sides. -/
def editRhs (nf : Str → AttrList → AttrList) (bf : Str → List Stmt → List Stmt) : List EdgeRH → List EdgeRH
  | [] => []
  | .mk op d :: rest => .mk op (editLoc nf bf d) :: editRhs nf bf rest
/-- The same for a list of statements. -/
def editStmts (nf : Str → AttrList → AttrList) (bf : Str → List Stmt → List Stmt) : List Stmt → List Stmt
  | [] => []
  | s :: ss => editStmt nf bf s :: editStmts nf bf ss
end

/-- Only the statements of the subgraphs named `p` are changed, by `F`. -/
def inSub (p : Str) (F : List Stmt → List Stmt) (ss : List Stmt) : List Stmt := editStmts (fun _ as => as) (fun m b => if m = p then F b else b) ss

/-- Only the attribute lists of the statements of node `n` are changed, to `as`. -/
def withAttrs (n : Str) (as : AttrList) (ss : List Stmt) : List Stmt := editStmts (fun c old => if c = n then as else old) (fun _ b => b) ss

end Gographviz.Spec.Diff
