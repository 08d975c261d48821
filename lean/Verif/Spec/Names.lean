import Verif.Spec.Idents
import Verif.Spec.EscapeText
import Verif.Model.Containers
/-!
Specification for C85: the names and values in a document that reach the graph.
-/
namespace Gographviz.Spec

open Gographviz Ast

mutual
/-- The names and values of a statement: of nodes (with the port if it is a node statement), of subgraphs, of attributes. -/
def namesStmt : Stmt → List Str
  | .node n as => nodeIDStr n :: identsAttrs as
  | .edge src rhs as => namesLoc src ++ namesRHS rhs ++ identsAttrs as
  | .nodeAttrs as => identsAttrs as
  | .edgeAttrs as => identsAttrs as
  | .graphAttrs as => identsAttrs as
  | .sub id body => id :: namesStmts body
  | .attr a => [a.field, a.value]
/-- The same for an end of an edge; the ports are not part of the name. -/
def namesLoc : Loc → List Str
  | .node n => [n.id]
  | .sub id body => id :: namesStmts body
/-- The same for right-hand sides. -/
def namesRHS : List EdgeRH → List Str
  | [] => []
  | .mk _ dst :: rest => namesLoc dst ++ namesRHS rest
/-- The same for statements. -/
def namesStmts : List Stmt → List Str
  | [] => []
  | s :: ss => namesStmt s ++ namesStmts ss
end

/-- The names and values in a document. -/
def namesDoc (t : Ast.Graph) : List Str := t.id :: namesStmts t.stmts

/-- Escaping leaves the text as it is. -/
def Unescaped (U : Unicode) (s : Str) : Prop := EscapedText U s s

/-- The error of `Analyse` for what the calls returned: nil, or a list of the messages. -/
def combined (errs : List (Option Err)) : Option Str := match errs.filterMap fun e => e with
  | [] => none
  | es => some (b!"errors: [" ++ sjoin (b!",") (es.map Err.msg) ++ b!"]")

end Gographviz.Spec
