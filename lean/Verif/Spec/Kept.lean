import Verif.Spec.RoundTrip
/-!
What writing a graph and reading the text keeps, whatever names are used for (C104).
-/
namespace Gographviz.Spec

open Gographviz

/-- `g'` has what `g` has, except for nodes and subgraphs whose names are used for both a node and a subgraph. -/
structure Kept (g g' : Gographviz.Graph) : Prop where
  name : g'.name = g.name
  directed : g'.directed = g.directed
  strict : g'.strict = g.strict
  attrs : ∀ k, mget g'.attrs k = mget g.attrs k
  /-- All edges with their attributes; see `edgeRead` for their ports. -/
  edges : (g.edges.edges.map edgeRead).Perm g'.edges.edges
  /-- A node that is not called like a subgraph is kept with its attributes. -/
  nodes : ∀ n, g.isNode n = true → g.isSubGraph n = false → (g.nodes.find n).map (·.attrs) = (g'.nodes.find n).map (·.attrs)
  /-- A node at the end of an edge is kept in any case. -/
  ends : ∀ e ∈ g.edges.edges, ∀ n, e.src = n ∨ e.dst = n → g.isNode n = true → g'.isNode n = true
  /-- Only clusters at the ends of edges become nodes. -/
  noNewNode : ∀ n, g'.isNode n = true → g.isNode n = true ∨ ClusterEnd g n
  /-- A subgraph that is directly in the graph or an end of an edge, and not called like a node, is kept, and the subgraphs nested in it that are not called like nodes. -/
  subs : ∀ m n, MustWrite g m → g.isNode m = false → Star (SubChild g) m n → g'.isSubGraph n = true
  noNewSub : ∀ n, g'.isSubGraph n = true → IsWritten g n
  /-- The subgraphs that are kept have their attributes and their members. -/
  subAttrs : ∀ n s s', mget g.subGraphs n = some s → mget g'.subGraphs n = some s' → ∀ k, mget s'.attrs k = mget s.attrs k
  members : ∀ p, g'.isSubGraph p = true → ∀ c, mhas (g'.relations.children p) c = mhas (g.relations.children p) c

end Gographviz.Spec
