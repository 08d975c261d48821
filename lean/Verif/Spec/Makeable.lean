import Verif.Spec.AbstractGraph
import Verif.Model.GraphDirect
/-!
Specification for C102: which contents a graph can have.
-/
namespace Gographviz.Spec

open Gographviz

/-- Attributes that a map can hold: finitely many, and only registered names. -/
def FinAttrs (m : AAttrs) : Prop := (∃ ks : List Str, ∀ k, m k ≠ none → k ∈ ks) ∧ ∀ k, m k ≠ none → Registered k

/-- The contents are finite, with registered attribute names. -/
structure Storable (a : AGraph) : Prop where
  attrs : FinAttrs a.attrs
  nodes : ∃ ns : List Str, ∀ n, a.node n ≠ none → n ∈ ns
  nodeAttrs : ∀ n m, a.node n = some m → FinAttrs m
  subs : ∃ ns : List Str, ∀ n, a.sub n ≠ none → n ∈ ns
  subAttrs : ∀ n m, a.sub n = some m → FinAttrs m
  edges : ∀ e ∈ a.edges, FinAttrs e.attrs
  contains : ∃ ps : List (Str × Str), ∀ p c, a.contains p c = true → (p, c) ∈ ps

/-- Moreover, a name that is both a node and a subgraph is recorded as a child of something. -/
structure Makeable (a : AGraph) : Prop extends Storable a where
  both : ∀ n, a.node n ≠ none → a.sub n ≠ none → ∃ p, a.contains p n = true

/-- What an observer of the exported fields sees of the graph is `a`. -/
structure HasContents (g : Graph) (a : AGraph) : Prop where
  name : g.name = a.name
  directed : g.directed = a.directed
  strict : g.strict = a.strict
  attrs : ∀ k, mget g.attrs k = a.attrs k
  node : ∀ n, ((g.nodes.find n).map fun nd => mget nd.attrs) = a.node n
  edges : (g.edges.edges.map fun e => (⟨e.src, e.srcPort, e.dst, e.dstPort, e.dir, mget e.attrs⟩ : AEdge)) = a.edges
  sub : ∀ n, ((mget g.subGraphs n).map fun s => mget s.attrs) = a.sub n
  contains : ∀ p c, mhas (g.relations.children p) c = a.contains p c

/-- Arguments that can occur (`Op.Ok`); the attribute maps handed over are maps and have registered names only. -/
def UseOk (g : Graph) : DCall → Prop
  | .api op => op.Ok g
  | .nodesAdd node => MapWF node.attrs ∧ ∀ e ∈ node.attrs, Registered e.1
  | .edgesAdd edge => MapWF edge.attrs ∧ ∀ e ∈ edge.attrs, Registered e.1
  | _ => True

/-- The graphs that such a history produces from `NewGraph()`. -/
inductive Used : Graph → Prop where
  | init : Used newGraph
  | step {g : Graph} (x : DCall) : Used g → UseOk g x → Used (g.direct x).1


end Gographviz.Spec
