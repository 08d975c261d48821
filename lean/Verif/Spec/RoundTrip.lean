import Verif.Spec.Writing
import Verif.Spec.Printing
/-!
Specification for C37 and C38: which graphs are expected to survive writing and reading, and what survives.
-/
namespace Gographviz.Spec

open Gographviz Ast

/-- A port: none, one identifier, or two separated by a colon (58), no colons inside the identifiers; or any text with a leading colon (as
`Read` stores ports). -/
def ValidPort (p : Str) : Prop :=
  p = [] ∨ (ValidName p ∧ 58 ∉ p) ∨ (∃ q r, p = q ++ b!":" ++ r ∧ ValidName q ∧ 58 ∉ q ∧ ValidName r ∧ 58 ∉ r) ∨ ∃ r, p = 58 :: r

/-- A port as one writes it, whatever the characters: none, one text, or two separated by a colon; or any text with a leading colon. -/
def TwoPartPort (p : Str) : Prop :=
  p = [] ∨ (p ≠ [] ∧ 58 ∉ p) ∨ (∃ q r, p = q ++ b!":" ++ r ∧ q ≠ [] ∧ 58 ∉ q ∧ r ≠ [] ∧ 58 ∉ r) ∨ ∃ r, p = 58 :: r

/-- Every port of the graph is such a port. -/
def TwoPartPorts (g : Gographviz.Graph) : Prop := ∀ e ∈ g.edges.edges, TwoPartPort e.srcPort ∧ TwoPartPort e.dstPort

/-- No attribute of an edge has the empty value. (Such values are invisible to the order of edges, C15.) -/
def NoEmptyEdgeValues (g : Gographviz.Graph) : Prop := ∀ e ∈ g.edges.edges, ∀ k, mget e.attrs k ≠ some []

/-- All the attribute values are identifiers. (The names are registered, `C08`.) -/
def ValidValues (a : Attrs) : Prop := ∀ k v, mget a k = some v → ValidId v

/-- A cluster subgraph at the end of an edge. (These are written by name only, C22.) -/
def ClusterEnd (g : Gographviz.Graph) (n : Str) : Prop :=
  g.isNode n = false ∧ g.isClusterSubGraph n = true ∧ ∃ e ∈ g.edges.edges, e.src = n ∨ e.dst = n

/-- A name that can stand in a node statement: an identifier, or an identifier with one or two port parts. (A node statement `a:p` makes a node
of that name.) -/
def NodeName (n : Str) : Prop :=
  ValidName n ∨ (∃ a p, n = a ++ b!":" ++ p ∧ ValidName a ∧ ValidName p) ∨
    ∃ a p q, n = a ++ b!":" ++ p ++ b!":" ++ q ∧ ValidName a ∧ ValidName p ∧ ValidName q

/-- Every name and every value is an identifier; nodes that are not ends of edges may have the form of an identifier with a port. -/
structure ValidGraph (g : Gographviz.Graph) : Prop where
  name : g.name = [] ∨ ValidId g.name
  attrs : ValidValues g.attrs
  nodes : ∀ n nd, g.nodes.find n = some nd → NodeName n ∧ ValidValues nd.attrs
  subs : ∀ n s, mget g.subGraphs n = some s → ValidId n ∧ ValidValues s.attrs
  ends : ∀ n, ClusterEnd g n → ValidName n
  nodeEnds : ∀ n, g.isNode n = true → (∃ e ∈ g.edges.edges, e.src = n ∨ e.dst = n) → ValidName n
  edges : ∀ e ∈ g.edges.edges, ValidValues e.attrs ∧ ValidPort e.srcPort ∧ ValidPort e.dstPort

/-- No name is used twice: for a node and a subgraph, or for the graph and a subgraph. -/
structure NamesApart (g : Gographviz.Graph) : Prop where
  disjoint : NamesDisjoint g
  root : g.isSubGraph g.name = false

/-- No edge ends at a cluster subgraph. -/
def NoClusterEnds (g : Gographviz.Graph) : Prop :=
  ∀ e ∈ g.edges.edges, (g.isNode e.src = true ∨ g.isClusterSubGraph e.src = false) ∧ (g.isNode e.dst = true ∨ g.isClusterSubGraph e.dst = false)

/-- A cluster at the end of an edge is a child of the graph itself and of nothing else. -/
def RootClusters (g : Gographviz.Graph) : Prop := ∀ n, ClusterEnd g n → ∀ p, mhas (g.relations.children p) n = true ↔ p = g.name

/-- The graph and its subgraphs have different names. A name used for both a node and a subgraph is that of a cluster, or not an end of an edge; and such a subgraph, and every cluster at
the end of an edge, is a child of the graph itself and of nothing else. -/
structure NamesSettled (g : Gographviz.Graph) : Prop where
  root : g.isSubGraph g.name = false
  twice : ∀ n, g.isNode n = true → g.isSubGraph n = true →
    (g.isClusterSubGraph n = true ∨ ¬ ∃ e ∈ g.edges.edges, e.src = n ∨ e.dst = n) ∧ ∀ p, mhas (g.relations.children p) n = true ↔ p = g.name
  ends : RootClusters g

/-- The subgraphs that are written: those that must be, and those nested in them. -/
def IsWritten (g : Gographviz.Graph) (n : Str) : Prop := ∃ m, MustWrite g m ∧ Star (SubChild g) m n

/-- What becomes of a port: it is stored with a leading colon; but if it already has one, it is lost. -/
def portRead : Str → Str
  | [] => []
  | 58 :: _ => []
  | p => b!":" ++ p

/-- What becomes of an edge. -/
def edgeRead (e : Edge) : Edge := { e with srcPort := portRead e.srcPort, dstPort := portRead e.dstPort }

/-- `g'` is what is expected from writing `g` and reading the text: everything that is written is there again, unchanged except for
the ports (`portRead`), and nothing else is, except that a cluster at the end of an edge is now also a node without attributes. -/
structure ReadBack (g g' : Gographviz.Graph) : Prop where
  name : g'.name = g.name
  directed : g'.directed = g.directed
  strict : g'.strict = g.strict
  attrs : ∀ k, mget g'.attrs k = mget g.attrs k
  nodes : ∀ n, ¬ ClusterEnd g n → (g.nodes.find n).map (·.attrs) = (g'.nodes.find n).map (·.attrs)
  clusters : ∀ n, ClusterEnd g n → (g'.nodes.find n).map (·.attrs) = some []
  subs : ∀ n, g'.isSubGraph n = true ↔ IsWritten g n
  subAttrs : ∀ n s s', mget g.subGraphs n = some s → mget g'.subGraphs n = some s' → ∀ k, mget s'.attrs k = mget s.attrs k
  children : ∀ p, IsWritten g p → ∀ c, mhas (g'.relations.children p) c = mhas (g.relations.children p) c
  edges : (g.edges.edges.map edgeRead).Perm g'.edges.edges

/-- No edge has a port. -/
def NoPorts (g : Gographviz.Graph) : Prop := ∀ e ∈ g.edges.edges, e.srcPort = [] ∧ e.dstPort = []

/-- No end of an edge that is called like a subgraph has a port. -/
def NodePorts (g : Gographviz.Graph) : Prop := ∀ e ∈ g.edges.edges, (g.isSubGraph e.src = true → e.srcPort = []) ∧ (g.isSubGraph e.dst = true → e.dstPort = [])

end Gographviz.Spec
