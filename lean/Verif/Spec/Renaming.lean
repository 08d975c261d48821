import Verif.Model.Graph
import Verif.Spec.AbstractGraph
/-!
Specification for C86: other names in the calls, other names in the graph.
-/
namespace Gographviz.Spec

open Gographviz

/-- The renaming confuses no two names, and the empty name (no name, no port) stays empty. -/
structure Renaming (ρ : Str → Str) : Prop where
  inj : ∀ a b, ρ a = ρ b → a = b
  empty : ρ [] = []

/-- The call with other names of graphs, subgraphs, nodes and ports. Attributes stay as they are. -/
def renameOp (ρ : Str → Str) : Op → Op
  | .setStrict b => .setStrict b
  | .setDir b => .setDir b
  | .setName n => .setName (ρ n)
  | .addPortEdge s sp d dp dir as => .addPortEdge (ρ s) (ρ sp) (ρ d) (ρ dp) dir as
  | .addEdge s d dir as => .addEdge (ρ s) (ρ d) dir as
  | .addNode p n as => .addNode (ρ p) (ρ n) as
  | .addAttr p k v => .addAttr (ρ p) k v
  | .addSubGraph p n as => .addSubGraph (ρ p) (ρ n) as
  | .removeNode p n => .removeNode (ρ p) (ρ n)
  | .removeSubGraph p n order => .removeSubGraph (ρ p) (ρ n) (order.map ρ)

/-- The error with other names. -/
def renameErr (ρ : Str → Str) : Err → Err
  | .nodeNotFound n => .nodeNotFound (ρ n)
  | .noSuchGraph n => .noSuchGraph (ρ n)
  | .notNodeOrSubGraph n => .notNodeOrSubGraph (ρ n)
  | e => e

/-- `g'` is `g` with other names: the same nodes, subgraphs, edges and containment under the new names, and nothing else; the same attributes. -/
structure RenamedGraph (ρ : Str → Str) (g g' : Graph) : Prop where
  name : g'.name = ρ g.name
  directed : g'.directed = g.directed
  strict : g'.strict = g.strict
  attrs : ∀ k, mget g'.attrs k = mget g.attrs k
  isNode : ∀ m, g'.isNode m = true ↔ ∃ n, m = ρ n ∧ g.isNode n = true
  nodeAttrs : ∀ n k, ((g'.nodes.find (ρ n)).bind fun nd => mget nd.attrs k) = (g.nodes.find n).bind fun nd => mget nd.attrs k
  isSubGraph : ∀ m, g'.isSubGraph m = true ↔ ∃ n, m = ρ n ∧ g.isSubGraph n = true
  subAttrs : ∀ n k, ((mget g'.subGraphs (ρ n)).bind fun s => mget s.attrs k) = (mget g.subGraphs n).bind fun s => mget s.attrs k
  children : ∀ p c, mhas (g'.relations.children p) c = true ↔ ∃ q d, p = ρ q ∧ c = ρ d ∧ mhas (g.relations.children q) d = true
  edges : (g'.edges.edges.map fun e => (e.src, e.srcPort, e.dst, e.dstPort, e.dir)) = g.edges.edges.map fun e => (ρ e.src, ρ e.srcPort, ρ e.dst, ρ e.dstPort, e.dir)
  edgeAttrs : (g'.edges.edges.map fun e => mget e.attrs) = g.edges.edges.map fun e => mget e.attrs

end Gographviz.Spec
