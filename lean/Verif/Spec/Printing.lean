import Verif.Model.Ast
import Verif.Spec.Lexical
/-!
Specification for C36: which syntax trees the printer is meant for, and what printing and parsing normalises.
-/
namespace Gographviz.Spec

open Gographviz Ast

/-- A DOT identifier: one token of type `id`. -/
def ValidId (s : Str) : Prop := IdLexeme (runes s)

/-- A DOT identifier without outer Unicode white space. (Letters of DOT words include U+00A0 and the other Unicode spaces, and the printer
trims statements with `strings.TrimSpace`; see `C36_space_lost`.) -/
def ValidName (s : Str) : Prop := ValidId s ∧ trimSpace s = s

/-- Fields and values are identifiers. -/
def ValidAttrs (as : AttrList) : Prop := ∀ al ∈ as, ∀ a ∈ al, ValidId a.field ∧ ValidId a.value

/-- Name and ports are identifiers; without a first port there is none (the second is then not printed). -/
def ValidNode (n : NodeID) : Prop :=
  ValidName n.id ∧ (n.port.id1 = [] ∨ (ValidName n.port.id1 ∧ (n.port.id2 = [] ∨ ValidName n.port.id2)))

mutual
/-- Every identifier in the statement is valid, and edges have at least one right-hand side. -/
def PrintableStmt : Stmt → Prop
  | .node n as => ValidNode n ∧ ValidAttrs as
  | .edge src rhs as => PrintableLoc src ∧ rhs ≠ [] ∧ PrintableRHS rhs ∧ ValidAttrs as
  | .nodeAttrs as => ValidAttrs as
  | .edgeAttrs as => ValidAttrs as
  | .graphAttrs as => ValidAttrs as
  | .sub id body => ValidId id ∧ PrintableStmts body
  | .attr a => ValidId a.field ∧ ValidId a.value
/-- The same for an edge end. -/
def PrintableLoc : Loc → Prop
  | .node n => ValidNode n
  | .sub id body => ValidId id ∧ PrintableStmts body
/-- The same for right-hand sides. -/
def PrintableRHS : List EdgeRH → Prop
  | [] => True
  | .mk _ dst :: rest => PrintableLoc dst ∧ PrintableRHS rest
/-- The same for statement lists. -/
def PrintableStmts : List Stmt → Prop
  | [] => True
  | s :: ss => PrintableStmt s ∧ PrintableStmts ss
end

/-- The same for a document; the document may be unnamed. -/
def Printable (g : Ast.Graph) : Prop := (g.id = [] ∨ ValidId g.id) ∧ PrintableStmts g.stmts

/-- Empty attribute lists (`[]`) are dropped. -/
def normAttrs (as : AttrList) : AttrList := as.filter fun al => !al.isEmpty

/-- A default statement without attributes is dropped. -/
def normDefaults (mk : AttrList → Stmt) (as : AttrList) : List Stmt := if normAttrs as = [] then [] else [mk (normAttrs as)]

/-- A second port without a first is dropped. -/
def normNode (n : NodeID) : NodeID := if n.port.id1 = [] then ⟨n.id, ⟨[], []⟩⟩ else n

mutual
/-- A statement without empty attribute lists; no statement for an empty default statement. -/
def normStmt : Stmt → List Stmt
  | .node n as => [.node (normNode n) (normAttrs as)]
  | .edge src rhs as => [.edge (normLoc src) (normRHS rhs) (normAttrs as)]
  | .nodeAttrs as => normDefaults .nodeAttrs as
  | .edgeAttrs as => normDefaults .edgeAttrs as
  | .graphAttrs as => normDefaults .graphAttrs as
  | .sub id body => [.sub id (normStmts body)]
  | .attr a => [.attr a]
/-- The same inside an edge end. -/
def normLoc : Loc → Loc
  | .node n => .node (normNode n)
  | .sub id body => .sub id (normStmts body)
/-- The same inside right-hand sides. -/
def normRHS : List EdgeRH → List EdgeRH
  | [] => []
  | .mk op dst :: rest => .mk op (normLoc dst) :: normRHS rest
/-- The same for statement lists. -/
def normStmts : List Stmt → List Stmt
  | [] => []
  | s :: ss => normStmt s ++ normStmts ss
end

/-- The document without empty attribute lists, empty default statements and second ports without a first, at any depth. -/
def norm (g : Ast.Graph) : Ast.Graph := { g with stmts := normStmts g.stmts }

end Gographviz.Spec
