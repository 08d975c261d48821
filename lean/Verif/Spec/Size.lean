import Verif.Spec.Writing
/-!
Specification for C77: how often a subgraph is written, and how long the written document is.
-/
namespace Gographviz.Spec

open Gographviz Ast

/-- The subgraph that an end of an edge is. -/
def locOpened : Loc → List Stmt
  | .node _ => []
  | .sub id body => [.sub id body]

/-- The subgraphs that a statement opens where it stands: itself, or the ends of an edge. -/
def opened : Stmt → List Stmt
  | .sub id body => [.sub id body]
  | .edge src rhs _ => locOpened src ++ rhs.flatMap fun r => match r with | .mk _ dst => locOpened dst
  | _ => []

/-- The statement is a subgraph in which `n` is contained directly. -/
def holds (g : Gographviz.Graph) (n : Str) : Stmt → Bool
  | .sub m _ => mhas (g.relations.children m) n
  | _ => false

/-- The subgraphs form a tree under the graph: each is contained in only one (sub)graph, none has the name of the graph, and none that is not a cluster is an end of an edge. -/
structure SubTree (g : Gographviz.Graph) : Prop where
  one : ∀ n p q, g.isSubGraph n = true → mhas (g.relations.children p) n = true → mhas (g.relations.children q) n = true → p = q
  root : g.isSubGraph g.name = false
  ends : ∀ e ∈ g.edges.edges, ∀ n, (e.src = n ∨ e.dst = n) → g.isSubGraph n = true → g.isNode n = true ∨ g.isClusterSubGraph n = true

/-- The size of a graph: its attributes, edges, nodes, subgraphs with their attributes, and containments in subgraphs. -/
def graphSize (g : Gographviz.Graph) : Nat :=
  g.attrs.length + g.edges.edges.length + g.nodes.list.length +
    (g.subGraphs.map fun p => 1 + p.2.attrs.length + (g.relations.children p.1).length).sum

end Gographviz.Spec
