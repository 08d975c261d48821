import Verif.Model.Graph
import Verif.Spec.Attributes
/-!
Specification for C92: how large a graph is.
-/
namespace Gographviz.Spec.Space

open Gographviz

/-- The elements of a graph: nodes, edges and subgraphs. -/
def elements (g : Graph) : Nat := g.nodes.list.length + g.edges.edges.length + g.subGraphs.length

/-- The number of entries of a map of maps. -/
def entryCount (m : Map (Map Bool)) : Nat := (m.map fun e => e.2.length).sum

/-- How often something is in a (sub)graph: the entries of `ParentToChildren`. -/
def containments (g : Graph) : Nat := entryCount g.relations.parentToChildren

/-- All the attributes, of the graph and of its elements. -/
def attributes (g : Graph) : Nat :=
  g.attrs.length + (g.nodes.list.map fun p => ((g.nodes.deref p).map fun n => n.attrs.length).getD 0).sum +
    (g.edges.edges.map fun e => e.attrs.length).sum + (g.subGraphs.map fun s => s.2.attrs.length).sum

end Gographviz.Spec.Space
