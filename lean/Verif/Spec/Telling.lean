import Verif.Spec.RoundTrip
/-!
Specification for C94: what the text of a graph tells.
-/
namespace Gographviz.Spec.Telling

open Gographviz

/-- The two graphs agree on everything that is written: the name, the kind, the attributes, the nodes with their attributes, which subgraphs are
written, their attributes and members, and the edges up to ports that start with a colon (which are not written, C38). -/
structure Agree (g g' : Gographviz.Graph) : Prop where
  name : g.name = g'.name
  directed : g.directed = g'.directed
  strict : g.strict = g'.strict
  attrs : ∀ k, mget g.attrs k = mget g'.attrs k
  nodes : ∀ n, (g.nodes.find n).map (·.attrs) = (g'.nodes.find n).map (·.attrs)
  subs : ∀ n, IsWritten g n ↔ IsWritten g' n
  subAttrs : ∀ n, IsWritten g n → ∀ s s', mget g.subGraphs n = some s → mget g'.subGraphs n = some s' → ∀ k, mget s.attrs k = mget s'.attrs k
  children : ∀ p, IsWritten g p → ∀ c, mhas (g.relations.children p) c = mhas (g'.relations.children p) c
  edges : (g.edges.edges.map edgeRead).Perm (g'.edges.edges.map edgeRead)

/-- No port starts with a colon. -/
def PlainPorts (g : Gographviz.Graph) : Prop := ∀ e ∈ g.edges.edges, (∀ r, e.srcPort ≠ 58 :: r) ∧ ∀ r, e.dstPort ≠ 58 :: r

end Gographviz.Spec.Telling
