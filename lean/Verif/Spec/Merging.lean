import Verif.Spec.Document
/-!
Specification for C83: what it means that a graph is another graph with what a document says added to it.
-/
namespace Gographviz.Spec.Document

open Gographviz Gographviz.Ast Gographviz.Spec

/-- The names of the nodes, in the order of the list. -/
def nodeNames (g : Gographviz.Graph) : List (Option Str) := g.nodes.list.map fun p => (g.nodes.deref p).map Node.name

/-- `g` is `g0` with what the document says added: what the document gives replaces what was there, everything else stays. -/
structure Adds (t : Ast.Graph) (g0 g : Gographviz.Graph) : Prop where
  name : g.name = t.id
  directed : g.directed = t.type_
  strict : g.strict = t.strict
  nodes : ∀ n, g.isNode n = true ↔ g0.isNode n = true ∨ ∃ i ∈ items t, n ∈ mentions i.stmt
  /-- the old nodes in their order, then the new ones in the order of first mention -/
  nodeOrder : ∃ old, nodeNames g0 = old.map some ∧ nodeNames g = (((items t).flatMap fun i => mentions i.stmt).foldl addFirst old).map some
  nodeAttrs : ∀ n nd, g.nodes.find n = some nd → ∀ k,
    mget nd.attrs k = (lastValue ((items t).flatMap (Item.nodeEntries n)) k).or ((g0.nodes.find n).bind fun o => mget o.attrs k)
  subs : ∀ n, g.isSubGraph n = true ↔ g0.isSubGraph n = true ∨ ∃ i ∈ items t, n ∈ i.sub
  subAttrs : ∀ n s, mget g.subGraphs n = some s → ∀ k,
    mget s.attrs k = (if n = t.id then none else lastValue ((items t).flatMap (Item.graphEntries n)) k).or
      ((mget g0.subGraphs n).bind fun o => mget o.attrs k)
  attrs : ∀ k, mget g.attrs k = (lastValue ((items t).flatMap (Item.graphEntries t.id)) k).or (mget g0.attrs k)
  children : ∀ p c, mhas (g.relations.children p) c = true ↔
    mhas (g0.relations.children p) c = true ∨ ∃ i ∈ items t, i.ctx.name = p ∧ (c ∈ mentions i.stmt ∨ c ∈ i.sub)
  edges : g.edges.edges.map (fun e => AEdge.mk e.src e.srcPort e.dst e.dstPort e.dir (mget e.attrs)) =
    g0.edges.edges.map (fun e => AEdge.mk e.src e.srcPort e.dst e.dstPort e.dir (mget e.attrs)) ++ (items t).flatMap Item.edges

end Gographviz.Spec.Document
