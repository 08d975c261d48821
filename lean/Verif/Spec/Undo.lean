import Verif.Model.Graph
import Verif.Spec.Writing
/-!
Specification for C87: additions for the time being.
-/
namespace Gographviz.Spec

open Gographviz

/-- The call adds something that belongs to the nodes `fresh`: one of them, to its parent `par`, or an edge that has one of them as an end. -/
def Temporary (fresh : List Str) (par : Str → Str) : Op → Prop
  | .addNode p n _ => n ∈ fresh ∧ p = par n
  | .addEdge s d _ _ => s ∈ fresh ∨ d ∈ fresh
  | .addPortEdge s _ d _ _ _ => s ∈ fresh ∨ d ∈ fresh
  | _ => False

/-- The graph knows nothing of the nodes `fresh`. -/
structure Unknown (g : Graph) (fresh : List Str) (par : Str → Str) : Prop where
  node : ∀ n ∈ fresh, g.isNode n = false
  child : ∀ n ∈ fresh, mhas (g.relations.children (par n)) n = false
  edge : ∀ e ∈ g.edges.edges, e.src ∉ fresh ∧ e.dst ∉ fresh

/-- The calls that remove the nodes. -/
def removals (par : Str → Str) (ns : List Str) : List Op := ns.map fun n => .removeNode (par n) n

end Gographviz.Spec
