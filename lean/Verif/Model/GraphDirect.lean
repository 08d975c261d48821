import Verif.Model.Graph
/-!
Calls on a graph mixed with direct calls on its exported parts: `g.Nodes.Add(n)`, `g.Relations.Remove(p, c)` and so on. (`Model/Direct.lean` models the
containers on their own, with shared objects; here the objects handed over are not used by the caller any more and their `Attrs` are not nil.)
-/
namespace Gographviz

/-- A call on a graph or on one of its exported fields. -/
inductive DCall where
  | api (op : Op)
  | nodesAdd (node : Node)
  | nodesRemove (name : Str)
  | edgesAdd (edge : Edge)
  | relationsAdd (parent child : Str)
  | relationsRemove (parent child : Str)
  | subGraphsAdd (name : Str)
  | subGraphsRemove (name : Str)
  | attrsAdd (field value : Str)
  | attrsDelete (field : Str)
  deriving Repr

/-- Executing one of them: `Graph.step`, nodes.go:40-63, edges.go:44-62, relations.go:34-54, subgraphs.go:46-55, attrs.go:36-42 on `g.Attrs` and `delete(g.Attrs, field)`. -/
def Graph.direct (g : Graph) : DCall → Graph × Option Err
  | .api op => g.step op
  | .nodesAdd node => ({ g with nodes := g.nodes.add node }, none)
  | .nodesRemove name => ({ g with nodes := (g.nodes.remove name).1 }, (g.nodes.remove name).2)
  | .edgesAdd edge => ({ g with edges := g.edges.add edge }, none)
  | .relationsAdd p c => ({ g with relations := g.relations.add p c }, none)
  | .relationsRemove p c => ({ g with relations := g.relations.remove p c }, none)
  | .subGraphsAdd n => ({ g with subGraphs := Gographviz.subGraphsAdd g.subGraphs n }, none)
  | .subGraphsRemove n => ({ g with subGraphs := mdel g.subGraphs n }, none)
  | .attrsAdd f v => match Gographviz.attrsAdd g.attrs f v with
    | .error e => (g, some e)
    | .ok as => ({ g with attrs := as }, none)
  | .attrsDelete f => ({ g with attrs := mdel g.attrs f }, none)

end Gographviz
