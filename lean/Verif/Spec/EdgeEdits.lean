import Verif.Model.Write
import Verif.Spec.Attributes
/-!
Specification for C99: callers that also assign to the exported field `g.Edges.Edges`.
-/
namespace Gographviz.Spec

open Gographviz

/-- What a caller does: calls of the API, and assignments `g.Edges.Edges = es`. -/
inductive Move where
  | call (op : Op)
  | assign (es : List Edge)

/-- An edge that the API could have made: its attributes are a map with valid attribute names. -/
def EdgeLike (e : Edge) : Prop := MapWF e.attrs ∧ ∀ k v, mget e.attrs k = some v → Registered k

/-- The arguments of a call are possible, the assigned edges too. -/
def Move.Ok (g : Graph) : Move → Prop
  | .call op => op.Ok g
  | .assign es => ∀ e ∈ es, EdgeLike e

/-- The effect on the graph: an assignment changes the slice only, not the maps `SrcToDsts` and `DstToSrcs`. -/
def moved (g : Graph) : Move → Graph
  | .call op => (g.step op).1
  | .assign es => { g with edges := { g.edges with edges := es } }

/-- The graphs that come about in this way. -/
inductive Edited : Graph → Prop where
  | init : Edited newGraph
  | step {g : Graph} (m : Move) : Edited g → m.Ok g → Edited (moved g m)

/-- The graphs have the same fields except for the maps `SrcToDsts` and `DstToSrcs`. -/
structure SameButIndexes (g g' : Graph) : Prop where
  attrs : g.attrs = g'.attrs
  name : g.name = g'.name
  directed : g.directed = g'.directed
  strict : g.strict = g'.strict
  nodes : g.nodes = g'.nodes
  edges : g.edges.edges = g'.edges.edges
  subGraphs : g.subGraphs = g'.subGraphs
  relations : g.relations = g'.relations

end Gographviz.Spec
