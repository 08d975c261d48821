import Verif.Model.Graph
import Verif.Model.Ast
/-!
write.go.
-/
namespace Gographviz

open Ast (Stmt Loc EdgeRH)

/-- Outcome of a writer function: a value, an error, a nil dereference (panic), or unbounded recursion (`diverge`: the fuel,
which bounds the depth of nested `newSubGraph` calls, is exhausted). -/
inductive WRes (α : Type) where
  | ok (a : α)
  | err (e : Err)
  | panic
  | diverge
  deriving Repr

/-- Sequencing of writer results. -/
def WRes.bind {α β : Type} (r : WRes α) (f : α → WRes β) : WRes β :=
  match r with
  | .ok a => f a
  | .err e => .err e
  | .panic => .panic
  | .diverge => .diverge

/-- write.go:25 `writtenLocations`. -/
abbrev Written := Map Unit

/-- write.go:32-41 `appendAttrs` (onto an empty list). -/
def attrStmts (as : Attrs) : List Stmt := (sortedNames as).map fun k => .attr ⟨k, mgetS as k⟩

/-- write.go:71-79 `newNodeStmt`. -/
def newNodeStmt (g : Graph) (wr : Written) (name : Str) : WRes (Stmt × Written) :=
  match g.nodes.find name with
  | none => .panic
  | some node => .ok (.node (Ast.makeNodeID node.name []) (Ast.putMap (attrsCopy node.attrs)), mset wr node.name ())

/-- write.go:50-62: the loop over the children, with the recursive call as a parameter. -/
def childLoop (g : Graph) (rec_ : Written → Str → WRes ((Str × List Stmt) × Written)) (wr : Written) :
    List Str → WRes (List Stmt × Written)
  | [] => .ok ([], wr)
  | child :: rest =>
    (if g.isNode child then newNodeStmt g wr child
     else if g.isSubGraph child then
       (rec_ wr child).bind fun r => .ok (.sub r.1.1 r.1.2, r.2)
     else .err (.notNodeOrSubGraph child)).bind fun r =>
    (childLoop g rec_ r.2 rest).bind fun rs => .ok (r.1 :: rs.1, rs.2)

/-- write.go:43-64 `newSubGraph`: the ID and statements of the AST subgraph, and the updated `writtenLocations`. -/
def newSubGraph (g : Graph) : Nat → Written → Str → WRes ((Str × List Stmt) × Written)
  | 0, _, _ => .diverge
  | fuel + 1, wr, name =>
    match mget g.subGraphs name with
    | none => .panic
    | some sub =>
      (childLoop g (newSubGraph g fuel) (mset wr sub.name ()) (g.relations.sortedChildren name)).bind fun r =>
        .ok ((sub.name, attrStmts sub.attrs ++ r.1), r.2)

/-- write.go:66-69 `newNodeID`. -/
def newNodeID (g : Graph) (name port : Str) : WRes Ast.NodeID :=
  match g.nodes.find name with
  | none => .panic
  | some node => .ok (Ast.makeNodeID node.name port)

/-- write.go:81-96 `newLocation`. -/
def newLocation (g : Graph) (fuel : Nat) (wr : Written) (name port : Str) : WRes (Loc × Written) :=
  if g.isNode name then (newNodeID g name port).bind fun n => .ok (.node n, wr)
  else if g.isClusterSubGraph name then
    if port.length ≠ 0 then .err (.subGraphPort port) else .ok (.node (Ast.makeNodeID name port), wr)
  else if g.isSubGraph name then
    if port.length ≠ 0 then .err (.subGraphPort port)
    else (newSubGraph g fuel wr name).bind fun r => .ok (.sub r.1.1 r.1.2, r.2)
  else .err (.notNodeOrSubGraph name)

/-- write.go:98-118 `newEdgeStmt`. -/
def newEdgeStmt (g : Graph) (fuel : Nat) (wr : Written) (e : Edge) : WRes (Stmt × Written) :=
  (newLocation g fuel wr e.src e.srcPort).bind fun s =>
  (newLocation g fuel s.2 e.dst e.dstPort).bind fun d =>
  .ok (.edge s.1 [.mk e.dir d.1] (Ast.putMap (attrsCopy e.attrs)), d.2)

/-- write.go:128-134. -/
def edgeStmts (g : Graph) (fuel : Nat) (wr : Written) : List Edge → WRes (List Stmt × Written)
  | [] => .ok ([], wr)
  | e :: es =>
    (newEdgeStmt g fuel wr e).bind fun r =>
    (edgeStmts g fuel r.2 es).bind fun rs => .ok (r.1 :: rs.1, rs.2)

/-- write.go:136-147. -/
def rootSubs (g : Graph) (fuel : Nat) (wr : Written) : List (Option SubGraph) → WRes (List Stmt × Written)
  | [] => .ok ([], wr)
  | none :: _ => .panic
  | some s :: ss =>
    if !mhas wr s.name && mhas (g.relations.children g.name) s.name then
      (newSubGraph g fuel wr s.name).bind fun r =>
      (rootSubs g fuel r.2 ss).bind fun rs => .ok (.sub r.1.1 r.1.2 :: rs.1, rs.2)
    else rootSubs g fuel wr ss

/-- write.go:149-154. -/
def rootNodes (g : Graph) (wr : Written) : List (Option Node) → WRes (List Stmt × Written)
  | [] => .ok ([], wr)
  | none :: _ => .panic
  | some n :: ns =>
    if !mhas wr n.name then
      (newNodeStmt g wr n.name).bind fun r =>
      (rootNodes g r.2 ns).bind fun rs => .ok (r.1 :: rs.1, rs.2)
    else rootNodes g wr ns

/-- write.go:120-157 `Write` and 160-163 `WriteAst`. `sortE` is `sort.Sort` on the edges (`SortContract`), `fuel` bounds the
depth of nested subgraphs. -/
def writeAst (sortE : List Edge → List Edge) (fuel : Nat) (g : Graph) : WRes Ast.Graph :=
  (edgeStmts g fuel [] (sortE g.edges.edges)).bind fun es =>
  (rootSubs g fuel es.2 (subGraphsSorted g.subGraphs)).bind fun ss =>
  (rootNodes g ss.2 g.nodes.sorted).bind fun ns =>
  .ok { type_ := g.directed, strict := g.strict, id := g.name,
        stmts := attrStmts g.attrs ++ es.1 ++ ss.1 ++ ns.1 }

/-- write.go:166-172 `String`. -/
def graphString (sortE : List Edge → List Edge) (fuel : Nat) (g : Graph) : WRes Str :=
  match writeAst sortE fuel g with
  | .ok t => .ok (Ast.graphStr t)
  | .err e => .ok (b!"error: " ++ e.msg)
  | .panic => .panic
  | .diverge => .diverge

end Gographviz
