import Verif.Model.Slices
/-!
What one observes of the slices: the contents of a graph, the slices a caller can get hold of, every second element of a list.
-/
namespace Gographviz.Spec
open Gographviz.Slices

/-- `m[k1][k2]` of a map of maps. -/
def at2 {β : Type} (m : Map (Map β)) (k1 k2 : Str) : Option β := (mget m k1).bind (mget · k2)

/-- The graph `g` (with plain lists) and the graph `sg` (with slices) have the same contents: the same nodes, edges and index
entries in the same order, and the same other fields. -/
structure SameContents (sg : SGraph) (g : Graph) : Prop where
  attrs : sg.rest.attrs = g.attrs
  name : sg.rest.name = g.name
  directed : sg.rest.directed = g.directed
  strict : sg.rest.strict = g.strict
  subGraphs : sg.rest.subGraphs = g.subGraphs
  relations : sg.rest.relations = g.relations
  heap : sg.nodes.heap = g.nodes.heap
  lookup : sg.nodes.lookup = g.nodes.lookup
  nodes : view sg.nodes.mem sg.nodes.slice = g.nodes.list.map some
  edges : view sg.emem sg.edges.edges = g.edges.edges.map some
  srcKeys : ∀ k, mhas sg.edges.srcToDsts k = mhas g.edges.srcToDsts k
  dstKeys : ∀ k, mhas sg.edges.dstToSrcs k = mhas g.edges.dstToSrcs k
  srcToDsts : ∀ k1 k2, (at2 sg.edges.srcToDsts k1 k2).map (view sg.emem) =
    (at2 g.edges.srcToDsts k1 k2).map (List.map some)
  dstToSrcs : ∀ k1 k2, (at2 sg.edges.dstToSrcs k1 k2).map (view sg.emem) =
    (at2 g.edges.dstToSrcs k1 k2).map (List.map some)

/-- A slice of edges a caller can read from the graph: `g.Edges.Edges`, `g.Edges.SrcToDsts[a][b]` or
`g.Edges.DstToSrcs[a][b]`. -/
def EdgeSlice (sg : SGraph) (t : Slice) : Prop :=
  t = sg.edges.edges ∨ (∃ a b, at2 sg.edges.srcToDsts a b = some t) ∨ (∃ a b, at2 sg.edges.dstToSrcs a b = some t)

/-- The names of the nodes of `g.Nodes.Nodes`, in order. -/
def nodeNames (sg : SGraph) : List Str :=
  (view sg.nodes.mem sg.nodes.slice).filterMap fun p => (p.bind (sg.nodes.heap[·]?)).map Node.name

/-- The elements at the odd positions (counting from 0). -/
def everySecond {α : Type} : List α → List α
  | _ :: y :: l => y :: everySecond l
  | _ => []

/-- A call that removes nodes. -/
def IsRemoval : Op → Prop
  | .removeNode _ _ => True
  | .removeSubGraph _ _ _ => True
  | _ => False

end Gographviz.Spec
