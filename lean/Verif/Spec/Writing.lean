import Verif.Model.Graph
import Verif.Spec.AstView
import Verif.Spec.Lists
/-!
Specification: what a written syntax tree must look like, in terms of the graph.
-/
namespace Gographviz.Spec

open Gographviz Ast

/-- An attribute map as an attribute list: one bracket, entries in ascending key order. -/
def attrsAsList (a : Attrs) : AttrList := [a.map fun e => ⟨e.1, e.2⟩]

/-- An attribute map as `k=v` statements, in ascending key order. -/
def attrsAsStmts (a : Attrs) : List Stmt := a.map fun e => .attr ⟨e.1, e.2⟩

/-- The statement for a recorded child `c` of a subgraph: the node statement with exactly the node's attributes if `c` is a
node, otherwise the nested subgraph. -/
def DirectChild (g : Gographviz.Graph) (c : Str) : Stmt → Prop
  | .node id as => id = ⟨c, ⟨[], []⟩⟩ ∧ ∃ nd, g.nodes.find c = some nd ∧ as = attrsAsList nd.attrs
  | .sub id _ => id = c ∧ g.isNode c = false ∧ g.isSubGraph c = true
  | _ => False

/-- The body written for subgraph `id`: its attributes, then one statement per recorded child in ascending order. -/
def SubFaithful (g : Gographviz.Graph) (id : Str) (body : List Stmt) : Prop :=
  ∃ sub, mget g.subGraphs id = some sub ∧ ∃ cs, body = attrsAsStmts sub.attrs ++ cs ∧
    Forall2 (DirectChild g) (g.relations.sortedChildren id) cs

/-- `c` is written as a nested subgraph of `p`. (A name that is a node is written as a node.) -/
def SubChild (g : Gographviz.Graph) (p c : Str) : Prop :=
  mhas (g.relations.children p) c = true ∧ g.isNode c = false ∧ g.isSubGraph c = true

/-- Reachability in zero or more steps. -/
inductive Star {α : Type} (R : α → α → Prop) : α → α → Prop where
  | refl (a : α) : Star R a a
  | head {a b c : α} : R a b → Star R b c → Star R a c

/-- Reachability in one or more steps. -/
def Plus {α : Type} (R : α → α → Prop) (a c : α) : Prop := ∃ b, R a b ∧ Star R b c

/-- No subgraph contains itself, directly or indirectly. -/
def Acyclic (g : Gographviz.Graph) : Prop := ∀ n, ¬ Plus (SubChild g) n n

/-- A subgraph that has to be written: an endpoint of an edge (not a node, not a cluster) or a child of the root graph. -/
def MustWrite (g : Gographviz.Graph) (n : Str) : Prop :=
  g.isSubGraph n = true ∧
    (mhas (g.relations.children g.name) n = true ∨
     (g.isNode n = false ∧ g.isClusterSubGraph n = false ∧ ∃ e ∈ g.edges.edges, e.src = n ∨ e.dst = n))

/-- Some subgraph that is written, `n` or nested in it, has a child that is neither a node nor a subgraph. -/
def Dangles (g : Gographviz.Graph) (n : Str) : Prop :=
  ∃ m c, Star (SubChild g) n m ∧ mhas (g.relations.children m) c = true ∧ g.isNode c = false ∧ g.isSubGraph c = false

/-- The endpoint of an edge cannot be written: an unknown name, or a port on a subgraph. -/
def BadEnd (g : Gographviz.Graph) (name port : Str) : Prop :=
  g.isNode name = false ∧ (g.isSubGraph name = false ∨ port ≠ [])

/-- No name is both a node and a subgraph. -/
def NamesDisjoint (g : Gographviz.Graph) : Prop := ∀ n, ¬ (g.isNode n = true ∧ g.isSubGraph n = true)

/-- The names of all nodes and their attributes agree. -/
def SameNodes (g g' : Gographviz.Graph) : Prop :=
  ∀ n, (g.nodes.find n).map Node.attrs = (g'.nodes.find n).map Node.attrs

/-- Two graphs have the same content: name, flags, attributes, nodes, subgraphs, containment and the same edges in any order. The
two graphs may come from completely different histories of calls. -/
structure SameContent (g g' : Gographviz.Graph) : Prop where
  name : g.name = g'.name
  directed : g.directed = g'.directed
  strict : g.strict = g'.strict
  attrs : ∀ k, mget g.attrs k = mget g'.attrs k
  nodes : SameNodes g g'
  subs : ∀ n, mhas g.subGraphs n = mhas g'.subGraphs n
  subAttrs : ∀ n s s', mget g.subGraphs n = some s → mget g'.subGraphs n = some s' → ∀ k, mget s.attrs k = mget s'.attrs k
  children : ∀ p c, mhas (g.relations.children p) c = mhas (g'.relations.children p) c
  edges : g.edges.edges.Perm g'.edges.edges

/-- A subgraph that cannot be written because it contains, directly or indirectly, a subgraph that contains itself. -/
def ReachesCycle (g : Gographviz.Graph) (n : Str) : Prop := ∃ m, Star (SubChild g) n m ∧ Plus (SubChild g) m m

/-- How an endpoint of an edge is written: a node or a cluster subgraph by name (with the port), any other subgraph in full. -/
def EndWritten (g : Gographviz.Graph) (name port : Str) (l : Loc) : Prop :=
  (l = .node (makeNodeID name port) ∧ (g.isNode name = true ∨ g.isClusterSubGraph name = true)) ∨
  (∃ body, l = .sub name body ∧ SubFaithful g name body ∧ g.isNode name = false ∧ g.isClusterSubGraph name = false ∧ port = [])

/-- How an edge is written. -/
def EdgeWritten (g : Gographviz.Graph) (e : Edge) (s : Stmt) : Prop :=
  ∃ src dst, s = .edge src [.mk e.dir dst] (attrsAsList e.attrs) ∧ EndWritten g e.src e.srcPort src ∧ EndWritten g e.dst e.dstPort dst

end Gographviz.Spec
